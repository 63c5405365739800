import Verif.Model.Transport
/-
`lib/py/src/transport/TTransport.py`: `TSaslClientTransport`, 346-468.
-/

namespace Thrift.Sasl

def START : Nat := 1
def OK : Nat := 2
def COMPLETE : Nat := 5

/-- The object `puresasl.client.SASLClient` with state `μ`, as a parameter. Nothing is assumed about
it. -/
structure Mech (μ : Type) where
  /-- `bytes(sasl.mechanism, 'ascii')` -/
  name : Bytes
  /-- `sasl.process(challenge)`; `none` is the call without argument -/
  process : Option Bytes → μ → Except Exc (Option Bytes) × μ
  /-- `sasl.complete` -/
  complete : μ → Bool
  wrap : Bytes → μ → Except Exc Bytes × μ
  unwrap : Bytes → μ → Except Exc Bytes × μ

/-- The writing side of the underlying transport with state `ω`, with `isOpen` (without side effects)
and `open`. -/
structure Under (ω : Type) extends Sink ω where
  isOpen : ω → Bool
  open_ : ω → Except Exc Unit × ω

/-- The transport object and the writing side of the underlying transport. -/
structure St (μ ω : Type) where
  mech : μ
  under : ω
  wbuf : BytesIO := BytesIO.of []
  rbuf : BytesIO := BytesIO.of []

variable {μ ω : Type}

/-- `self.sasl.process(challenge)` -/
def process (c : Mech μ) (challenge : Option Bytes) : P (St μ ω) (Option Bytes) := fun s =>
  let r := c.process challenge s.mech
  .ret (r.1, { s with mech := r.2 })

/-- `self.transport.write(b); self.transport.flush()` -/
def put (k : Under ω) (b : Bytes) : P (St μ ω) Unit := fun s =>
  let r := k.writeFlush b s.under
  .ret (r.1, { s with under := r.2 })

/-- `send_sasl_msg`, 411-416, given the result of `pack` for the length -/
def sendPacked (k : Under ω) (status : Nat) (len : Except Exc Bytes) (body : Bytes) : P (St μ ω) Unit :=
  match len with
  | .error e => P.raise e
  | .ok len => put k (UInt8.ofNat status :: len ++ body)

/-- `send_sasl_msg`, 411-416 -/
def sendMsg (k : Under ω) (status : Nat) (body : Option Bytes) : P (St μ ω) Unit :=
  sendPacked k status (packU 4 (body.getD []).length) (body.getD [])

/-- `recv_sasl_msg`, 418-425 -/
def recvMsg : P (St μ ω) (Nat × Bytes) := do
  let header ← P.readAll 5
  let payload ← (if beNat (header.drop 1) > 0 then P.readAll (beNat (header.drop 1)) else pure [])
  pure ((header.headD 0).toNat, payload)

/-- `open`, 395-400: the check that the mechanism is complete -/
def finish (c : Mech μ) : P (St μ ω) (Unit ⊕ Unit) := do
  let s ← P.get
  if c.complete s.mech then pure (.inr ()) else P.raise TTransportException.NOT_OPEN

/-- `open`, 388: send the response and go on -/
def answer (k : Under ω) (r : Option Bytes) : P (St μ ω) (Unit ⊕ Unit) := do
  sendMsg k OK r
  pure (.inl ())

/-- One iteration of the loop of `open`, 385-406 -/
def openBody (c : Mech μ) (k : Under ω) (_ : Unit) : P (St μ ω) (Unit ⊕ Unit) := do
  let (status, challenge) ← recvMsg
  if status = OK then do
    let r ← process c (some challenge)
    answer k r
  else if status = COMPLETE then
    if challenge ≠ [] then do
      let _ ← process c (some challenge)
      finish c
    else finish c
  else P.raise TTransportException.NOT_OPEN

/-- `open`, 378-379 -/
def openUnder (k : Under ω) : P (St μ ω) Unit := fun s =>
  if k.isOpen s.under then .ret (.ok (), s)
  else
    let r := k.open_ s.under
    .ret (r.1, { s with under := r.2 })

/-- `open`, 377-406 -/
def open_ (c : Mech μ) (k : Under ω) (fuel : Nat) : P (St μ ω) Unit := do
  openUnder k
  sendMsg k START (some c.name)
  let initial ← process c none
  sendMsg k OK initial
  P.whileTrue fuel (openBody c k) ()

/-- `write`, 427-428 -/
def write (b : WArg) (s : St μ ω) : Except Exc Unit × St μ ω :=
  match b with
  | .bytes b => (.ok (), { s with wbuf := s.wbuf.write b })
  | .other => (.error .typeError, s)

/-- `flush`, 433-435, given the result of `pack` -/
def sendFrame (k : Under ω) (len : Except Exc Bytes) (encoded : Bytes) (s : St μ ω) :
    Except Exc Unit × St μ ω :=
  match len with
  | .error e => (.error e, s)
  | .ok len =>
    match k.writeFlush (len ++ encoded) s.under with
    | (.error e, w) => (.error e, { s with under := w })
    | (.ok (), w) => (.ok (), { s with under := w, wbuf := BytesIO.of [] })

/-- `flush`, 430-435. `__wbuf` is kept if anything raises. -/
def flush (c : Mech μ) (k : Under ω) (s : St μ ω) : Except Exc Unit × St μ ω :=
  match c.wrap s.wbuf.value s.mech with
  | (.error e, m) => (.error e, { s with mech := m })
  | (.ok encoded, m) => sendFrame k (packS 4 encoded.length) encoded { s with mech := m }

/-- `self.sasl.unwrap(encoded)` -/
def unwrap (c : Mech μ) (encoded : Bytes) : P (St μ ω) Bytes := fun s =>
  let r := c.unwrap encoded s.mech
  .ret (r.1, { s with mech := r.2 })

/-- `_read_frame`, 445-449 -/
def readFrame (c : Mech μ) : P (St μ ω) Unit := do
  let header ← P.readAll 4
  let encoded ← P.readAll (unpackS header)
  let data ← unwrap c encoded
  P.modify fun s => { s with rbuf := BytesIO.of data }

/-- `read`, 437-443 -/
def read (c : Mech μ) (sz : Nat) : P (St μ ω) Bytes := do
  let s ← P.get
  let (ret, rb) := s.rbuf.read sz
  P.set { s with rbuf := rb }
  if ret.length ≠ 0 then pure ret
  else
    readFrame c
    let s ← P.get
    let (ret, rb) := s.rbuf.read sz
    P.set { s with rbuf := rb }
    pure ret

end Thrift.Sasl
