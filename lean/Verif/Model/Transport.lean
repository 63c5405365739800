import Verif.Model.Pack
/-
`lib/py/src/transport/TTransport.py`: `TMemoryBuffer`, `TBufferedTransport`, `TFramedTransport`.
Reading methods are programs over the underlying transport (`P`); writing methods act on a `Sink`.
-/

namespace Thrift

/-! ## `io.BytesIO` -/

/-- `io.BytesIO`: content, position, closed flag. -/
structure BytesIO where
  value : Bytes
  pos : Nat := 0
  closed : Bool := false
  deriving DecidableEq, Repr

namespace BytesIO
/-- `BytesIO(b)` -/
def of (b : Bytes) : BytesIO := { value := b }

/-- `read(sz)` on an open object: at most `sz` bytes from the position on; all of them if `sz` is
negative. A position behind the end gives `b''`. -/
def read (sz : Int) (io : BytesIO) : Bytes × BytesIO :=
  let rest := io.value.drop io.pos
  let got := if sz < 0 then rest else rest.take sz.toNat
  (got, { io with pos := io.pos + got.length })

/-- `write(b)` on an open object: overwrites from the position on and extends; a gap behind the end
is filled with zero bytes; writing `b''` changes nothing. -/
def write (b : Bytes) (io : BytesIO) : BytesIO :=
  if b = [] then io
  else
    { io with
      value := io.value.take io.pos ++ List.replicate (io.pos - io.value.length) 0 ++ b ++
        io.value.drop (io.pos + b.length)
      pos := io.pos + b.length }
end BytesIO

/-! ## The writing side of an underlying transport -/

/-- What `write` and `flush` of an underlying transport with state `ω` do. Nothing is assumed about
them. -/
structure Sink (ω : Type) where
  write : Bytes → ω → Except Exc Unit × ω
  flush : ω → Except Exc Unit × ω

/-- `trans.write(out); trans.flush()` -/
def Sink.writeFlush {ω : Type} (k : Sink ω) (out : Bytes) (w : ω) : Except Exc Unit × ω :=
  match k.write out w with
  | (.ok (), w') => k.flush w'
  | (.error e, w') => (.error e, w')

/-- The argument of a `write` call: `bytes`, or an object that `BytesIO.write` rejects with
`TypeError` (for instance a `str`). -/
inductive WArg where
  | bytes (b : Bytes)
  | other
  deriving DecidableEq, Repr

/-- The transport that a wrapper with state `σ` and reading method `read` is, on top of a transport
with behaviour `step`. -/
def P.over {σ τ : Type} (read : Nat → P σ Bytes) (step : Nat → τ → Option (Except Exc Bytes × τ))
    (n : Nat) (x : σ × τ) : Option (Except Exc Bytes × (σ × τ)) :=
  match (read n x.1).run step x.2 with
  | none => none
  | some ((r, s), t) => some (r, (s, t))

/-! ## `TMemoryBuffer`, `TTransport.py:202-251` -/
namespace MemoryBuffer

/-- `__init__`, 211-221. `seek` raises `ValueError` for a negative offset. -/
def init (value : Option Bytes) (offset : Int) : Except Exc BytesIO :=
  let io : BytesIO := BytesIO.of (value.getD [])
  if offset = 0 then .ok io
  else if offset < 0 then .error .valueError
  else .ok { io with pos := offset.toNat }

/-- `isOpen`, 223-224 -/
def isOpen (io : BytesIO) : Bool := !io.closed
/-- `close`, 229-230 -/
def close (io : BytesIO) : BytesIO := { io with closed := true }
/-- `read`, 232-233 -/
def read (sz : Int) (io : BytesIO) : Except Exc Bytes × BytesIO :=
  if io.closed then (.error .valueError, io)
  else
    let (b, io) := io.read sz
    (.ok b, io)
/-- `write`, 235-236 -/
def write (b : WArg) (io : BytesIO) : Except Exc Unit × BytesIO :=
  if io.closed then (.error .valueError, io)
  else
    match b with
    | .bytes b => (.ok (), io.write b)
    | .other => (.error .typeError, io)
/-- `getvalue`, 241-242 -/
def getvalue (io : BytesIO) : Except Exc Bytes :=
  if io.closed then .error .valueError else .ok io.value

end MemoryBuffer

/-! ## `TBufferedTransport`, `TTransport.py:137-199` -/
namespace Buffered

/-- `__rbuf`, `__wbuf`, `__rbuf_size` -/
structure St where
  rbuf : BytesIO := BytesIO.of []
  wbuf : BytesIO := BytesIO.of []
  rbufSize : Nat := 4096
  deriving DecidableEq, Repr

/-- `read`, 161-166. Restricted to sizes that are not negative. -/
def read (sz : Nat) : P St Bytes := do
  let s ← P.get
  let (ret, rb) := s.rbuf.read sz
  P.set { s with rbuf := rb }
  if ret.length ≠ 0 then pure ret
  else
    let data ← P.transRead (max sz s.rbufSize)
    let (ret, rb) := (BytesIO.of data).read sz
    P.modify fun s => { s with rbuf := rb }
    pure ret

/-- `write`, 168-174: after an exception `__wbuf` is empty. -/
def write (b : WArg) (s : St) : Except Exc Unit × St :=
  match b with
  | .bytes b => (.ok (), { s with wbuf := s.wbuf.write b })
  | .other => (.error .typeError, { s with wbuf := BytesIO.of [] })

/-- `flush`, 176-181 -/
def flush {ω : Type} (k : Sink ω) (s : St) (w : ω) : Except Exc Unit × St × ω :=
  let out := s.wbuf.value
  let s := { s with wbuf := BytesIO.of [] }
  match k.writeFlush out w with
  | (r, w') => (r, s, w')

/-- `cstringio_refill`, 198-199 -/
def refillDone (ret : Bytes) : P St Bytes := do
  P.modify fun s => { s with rbuf := BytesIO.of ret }
  pure ret

/-- `cstringio_refill`, 194-199 -/
def refillRest (ret : Bytes) (reqlen : Nat) : P St Bytes :=
  if ret.length < reqlen then do
    let d ← P.readAll (reqlen - ret.length : Nat)
    refillDone (ret ++ d)
  else refillDone ret

/-- `cstringio_refill`, 188-199: returns the content of the new `__rbuf`. -/
def refill (partialread : Bytes) (reqlen : Nat) : P St Bytes := do
  let s ← P.get
  if reqlen < s.rbufSize then do
    let d ← P.transRead s.rbufSize
    refillRest (partialread ++ d) reqlen
  else refillRest partialread reqlen

end Buffered

/-! ## `TFramedTransport`, `TTransport.py:262-321` -/
namespace Framed

/-- `__rbuf`, `__wbuf` -/
structure St where
  rbuf : BytesIO := BytesIO.of []
  wbuf : BytesIO := BytesIO.of []
  deriving DecidableEq, Repr

/-- `readFrame`, 287-290 -/
def readFrame : P St Unit := do
  let buff ← P.readAll 4
  let data ← P.readAll (unpackS buff)
  P.modify fun s => { s with rbuf := BytesIO.of data }

/-- `read`, 279-285 -/
def read (sz : Nat) : P St Bytes := do
  let s ← P.get
  let (ret, rb) := s.rbuf.read sz
  P.set { s with rbuf := rb }
  if ret.length ≠ 0 then pure ret
  else
    readFrame
    let s ← P.get
    let (ret, rb) := s.rbuf.read sz
    P.set { s with rbuf := rb }
    pure ret

/-- `write`, 292-293 -/
def write (b : WArg) (s : St) : Except Exc Unit × St :=
  match b with
  | .bytes b => (.ok (), { s with wbuf := s.wbuf.write b })
  | .other => (.error .typeError, s)

/-- `flush`, 304-306, given the result of `pack` -/
def sendFrame {ω : Type} (k : Sink ω) (hdr : Except Exc Bytes) (wout : Bytes) (w : ω) : Except Exc Unit × ω :=
  match hdr with
  | .error e => (.error e, w)
  | .ok hdr => k.writeFlush (hdr ++ wout) w

/-- `flush`, 295-306. `pack` raises `struct.error` for 2^31 bytes or more, after `__wbuf` was
reset. -/
def flush {ω : Type} (k : Sink ω) (s : St) (w : ω) : Except Exc Unit × St × ω :=
  let r := sendFrame k (packS 4 s.wbuf.value.length) s.wbuf.value w
  (r.1, { s with wbuf := BytesIO.of [] }, r.2)

/-- `cstringio_refill`, 313-321: the loop, then the new `__rbuf`. Fuel bounds the number of frames. -/
def refill (fuel : Nat) (pre : Bytes) (reqlen : Nat) : P St Bytes := do
  let pre ← P.whileTrue fuel (fun pre =>
    if pre.length < reqlen then do
      readFrame
      let s ← P.get
      pure (.inl (pre ++ s.rbuf.value))
    else pure (.inr pre)) pre
  P.modify fun s => { s with rbuf := BytesIO.of pre }
  pure pre

end Framed

end Thrift
