import Verif.Model.Rpc
/-
`lib/py/src/transport/TTwisted.py`: `ThriftSASLClientProtocol`, 112-211, on Python 3 (the only one that `setup.py` names).

The object of `puresasl` is a parameter; what it returns may be bytes, text or `None`. Twisted runs one event after the other; `deferToThread` gives its result in an event of its
own. `basic.Int32StringReceiver` is written down as in Twisted 22. What Twisted does with an exception of `dataReceived` (it closes the connection) is not fixed: all events stay possible.
-/

namespace Thrift.TwistedSasl
open Rpc (pyStr)

/-- A Python object, as far as it matters -/
inductive Py where
  | bytes (b : Bytes)
  | text (s : PyStr)
  | none
  deriving DecidableEq, Repr

/-- `len(x)` -/
def Py.len : Py → Except Exc Nat
  | .bytes b => .ok b.length
  | .text s => .ok s.length
  | .none => .error .typeError

/-- `b + x` of bytes and an object -/
def Py.after (b : Bytes) : Py → Except Exc Bytes
  | .bytes x => .ok (b ++ x)
  | .text _ => .error .typeError
  | .none => .error .typeError

/-- `x[i]` -/
def Py.item (i : Nat) : Py → Except Exc (Nat ⊕ PyStr)
  | .bytes b =>
    match b[i]? with
    | some x => .ok (.inl x.toNat)
    | .none => .error .indexError
  | .text s =>
    match s[i]? with
    | some c => .ok (.inr [c])
    | .none => .error .indexError
  | .none => .error .typeError

/-- `struct.unpack("B", x)`: a buffer is needed, which neither a number nor a text is. -/
def unpackB : Nat ⊕ PyStr → Except Exc Nat
  | .inl _ => .error .typeError
  | .inr _ => .error .typeError

/-- `''.join((a, b))`: texts are needed. -/
def joinText : Py → Py → Except Exc Py
  | .text a, .text b => .ok (.text (a ++ b))
  | _, _ => .error .typeError

/-- `puresasl.client.SASLClient`, or what the user has put in its place -/
structure Sasl (μ : Type) where
  mechanism : Py
  process : Option Py → μ → Except Exc Py × μ
  complete : μ → Bool
  wrap : Bytes → μ → Except Exc Py × μ
  unwrap : Bytes → μ → Except Exc Py × μ

/-! The statuses, 114-118 -/

def START : Nat := 1
def OK : Nat := 2
def COMPLETE : Nat := 5

/-- Where the generator of `connectionMade` waits -/
inductive Stage where
  /-- not called -/
  | new
  /-- for `sasl.process` on a thread, with its argument, lines 156 and 162 -/
  | thread (challenge : Option Py)
  /-- for a message, line 160 -/
  | message
  /-- it has ended, or raised -/
  | ended
  deriving DecidableEq, Repr

/-- The attributes of the protocol object -/
structure St (μ : Type) where
  /-- the attributes that `__init__` has set -/
  attrs : List PyStr
  /-- `self.sasl`, if it was set -/
  sasl : Option (Sasl μ × μ) := .none
  /-- is `_sasl_negotiation_deferred` not `None`? -/
  waiting : Bool := false
  /-- `_sasl_negotiation_status` -/
  status : Option Nat := .none
  stage : Stage := .new
  /-- `_unprocessed` of `Int32StringReceiver` -/
  unprocessed : Bytes := []
  /-- is `self.client` not `None`? -/
  client : Bool := false

inductive Obs where
  /-- `self.transport.write` -/
  | wrote (b : Bytes)
  /-- `self.started.callback(self.client)` -/
  | started
  /-- the method that was called raises, or the `Deferred` that `connectionMade` has returned fails -/
  | raised (e : Exc)
  /-- `lengthLimitExceeded`: the connection is closed -/
  | tooLong
  /-- `sendString` -/
  | sent (b : Bytes)
  deriving DecidableEq, Repr

variable {μ : Type}

/-- `createSASLClient`, 145-146, where `make` is the class `SASLClient`: the attribute is read before it is called. -/
def createSASLClient (make : Except Exc (Sasl μ × μ)) (s : St μ) : Except Exc (St μ) :=
  if pyStr "SASLClient" ∈ s.attrs then
    match make with
    | .error e => .error e
    | .ok x => .ok { s with sasl := some x }
  else .error .attributeError

/-- `__init__`, 122-143; `host`: is a host given? -/
def init (host : Bool) (make : Except Exc (Sasl μ × μ)) : Except Exc (St μ) :=
  let s : St μ := { attrs := ["SASLCLient", "_client_class", "_iprot_factory", "_oprot_factory", "recv_map", "started", "_sasl_negotiation_deferred", "_sasl_negotiation_status", "client"].map pyStr }
  if host then createSASLClient make s else .ok s

/-- `_sendSASLMessage`, 181-182 -/
def sendBody (status : Nat) (body : Py) : Except Exc Bytes :=
  body.len.bind fun n => (packU 4 n).bind fun len => body.after (UInt8.ofNat status :: len)

/-- `_sendSASLMessage`, 178-182 -/
def sendMessage (status : Nat) (body : Py) : Except Exc Bytes :=
  match body with
  | .none => sendBody status (.text [])
  | x => sendBody status x

/-- `dispatch`, 148-151 -/
def dispatch (msg : Bytes) (s : St μ) : St μ × List Obs :=
  match s.sasl with
  | .none => (s, [.raised .attributeError])
  | some (c, m) =>
    match c.wrap msg m with
    | (.error e, m) => ({ s with sasl := some (c, m) }, [.raised e])
    | (.ok encoded, m) =>
      let s := { s with sasl := some (c, m) }
      match encoded.len.bind fun n => (packS 4 n).bind fun len => joinText (.bytes len) encoded with
      | .error e => (s, [.raised e])
      | .ok (.bytes b) => (s, [.sent b])
      | .ok _ => (s, [.raised .typeError])

/-- `connectionMade`, 153-156, up to the first `yield` -/
def connectionMade (s : St μ) : St μ × List Obs :=
  match s.sasl with
  | .none => ({ s with stage := .ended }, [.raised .attributeError])
  | some (c, _) =>
    match sendMessage START c.mechanism with
    | .error e => ({ s with stage := .ended }, [.raised e])
    | .ok b => ({ s with stage := .thread .none }, [.wrote b])

/-- `connectionMade`, 156-163, with `_receiveSASLMessage`, 184-187, after `sasl.process` has returned: send the result, and wait for a message -/
def threadDone (challenge : Option Py) (s : St μ) : St μ × List Obs :=
  match s.sasl with
  | .none => ({ s with stage := .ended }, [.raised .attributeError])
  | some (c, m) =>
    match c.process challenge m with
    | (.error e, m) => ({ s with sasl := some (c, m), stage := .ended }, [.raised e])
    | (.ok r, m) =>
      let s := { s with sasl := some (c, m) }
      match sendMessage OK r with
      | .error e => ({ s with stage := .ended }, [.raised e])
      | .ok b => ({ s with stage := .message, waiting := true, status := .none }, [.wrote b])

/-- `connectionMade`, 160-176, after a message has come. The type of the exceptions is a text there; it is 0 here. -/
def negotiate (status : Option Nat) (challenge : Bytes) (s : St μ) : St μ × List Obs :=
  if status = some OK then ({ s with stage := .thread (some (.bytes challenge)) }, [])
  else if status = some COMPLETE then
    match s.sasl with
    | .none => ({ s with stage := .ended }, [.raised .attributeError])
    | some (c, m) =>
      if c.complete m then ({ s with stage := .ended, waiting := false, client := true }, [.started])
      else ({ s with stage := .ended }, [.raised (.ttransport 0)])
  else ({ s with stage := .ended }, [.raised (.ttransport 0)])

/-- `stringReceived`, 203-211. `readBegin` is `iprot.readMessageBegin` on the decoded frame, and `recv` the rest of `ThriftClientProtocol.stringReceived` with a client (see `Twisted`). -/
def stringReceived (readBegin : Py → Except Exc Unit) (recv : Py → List Obs) (frame : Bytes) (s : St μ) : Except Exc Unit × St μ × List Obs :=
  if s.waiting then
    if s.stage = .message then
      let r := negotiate s.status frame s
      (.ok (), r.1, r.2)
    -- the `Deferred` was fired before
    else (.error (.user 0), s, [])
  else
    match s.sasl with
    | .none => (.error .attributeError, s, [])
    | some (c, m) =>
      match c.unwrap (frame.drop 4) m with
      | (.error e, m) => (.error e, { s with sasl := some (c, m) }, [])
      | (.ok d, m) =>
        let s := { s with sasl := some (c, m) }
        match readBegin d with
        | .error e => (.error e, s, [])
        | .ok () => if s.client then (.ok (), s, recv d) else (.error .attributeError, s, [])

/-- `Int32StringReceiver.dataReceived` of Twisted, on all the data there is; every frame has at least four bytes, so that `fuel` can be the length. -/
def receive (readBegin : Py → Except Exc Unit) (recv : Py → List Obs) : Nat → Bytes → Bytes → St μ → St μ × List Obs
  | 0, _, rest, s => ({ s with unprocessed := rest }, [])
  | fuel + 1, all, rest, s =>
    if rest.length < 4 then ({ s with unprocessed := rest }, [])
    else
      let length := beNat (rest.take 4)
      if length > 2 ^ 31 - 1 then ({ s with unprocessed := all }, [.tooLong])
      else if rest.length < 4 + length then ({ s with unprocessed := rest }, [])
      else
        match stringReceived readBegin recv ((rest.drop 4).take length) s with
        | (.error e, s, o) => ({ s with unprocessed := all }, o ++ [.raised e])
        | (.ok (), s, o) =>
          let r := receive readBegin recv fuel all (rest.drop (4 + length)) s
          (r.1, o ++ r.2)

/-- `ThriftClientProtocol.dataReceived`: that of `Int32StringReceiver`; `_unprocessed` is set first. -/
def received (readBegin : Py → Except Exc Unit) (recv : Py → List Obs) (data : Bytes) (s : St μ) : St μ × List Obs :=
  receive readBegin recv (s.unprocessed.length + data.length) (s.unprocessed ++ data) (s.unprocessed ++ data) { s with unprocessed := s.unprocessed ++ data }

/-- `dataReceived`, 193-201 -/
def dataReceived (readBegin : Py → Except Exc Unit) (recv : Py → List Obs) (data : Bytes) (s : St μ) : St μ × List Obs :=
  if s.waiting then
    match (Py.bytes data).item 0 with
    | .error e => (s, [.raised e])
    | .ok x =>
      match unpackB x with
      | .error e => (s, [.raised e])
      | .ok n => received readBegin recv (data.drop 1) { s with status := some n }
  else received readBegin recv data s

inductive Event (μ : Type) where
  /-- the user sets the attribute `sasl` -/
  | setSasl (c : Sasl μ) (m : μ)
  /-- the user calls `createSASLClient` -/
  | create (make : Except Exc (Sasl μ × μ))
  | connectionMade
  | threadDone
  | data (b : Bytes)
  /-- the user calls `dispatch` -/
  | dispatch (msg : Bytes)
  | connectionLost

/-- One event; those that cannot happen change nothing. `connectionLost`, 189-191, does nothing without a client (with one, see `Twisted`). -/
def step (readBegin : Py → Except Exc Unit) (recv : Py → List Obs) (s : St μ) : Event μ → St μ × List Obs
  | .setSasl c m => ({ s with sasl := some (c, m) }, [])
  | .create make =>
    match createSASLClient make s with
    | .error e => (s, [.raised e])
    | .ok s => (s, [])
  | .connectionMade => if s.stage = .new then connectionMade s else (s, [])
  | .threadDone =>
    match s.stage with
    | .thread x => threadDone x s
    | _ => (s, [])
  | .data b => dataReceived readBegin recv b s
  | .dispatch msg => dispatch msg s
  | .connectionLost => (if s.client then { s with client := false } else s, [])

def run (readBegin : Py → Except Exc Unit) (recv : Py → List Obs) (s : St μ) : List (Event μ) → St μ × List Obs
  | [] => (s, [])
  | e :: es =>
    let r := step readBegin recv s e
    let r' := run readBegin recv r.1 es
    (r'.1, r.2 ++ r'.2)

end Thrift.TwistedSasl
