import Verif.Model.Fast
import Verif.Model.Transport
import Verif.Model.Sasl
import Verif.Model.Header
import Verif.Model.Zlib
/-
`CReadableTransport`: how the C extension takes bytes out of a transport, `lib/py/src/ext/protocol.tcc`
141-152 and 299-367, and the methods `cstringio_refill` of the transports.

Simplifications. The refill function is called with the format `"y#i"` and an `int` for the length of
the bytes, which is undefined behaviour with `PY_SSIZE_T_CLEAN`; here it gets the bytes. The extension
keeps the buffer that the refill function returned; in every transport that is the new buffer of the
transport. Loops of `cstringio_refill` have fuel.
-/

namespace Thrift.CReadable

/-- `CReadableTransport`, `TTransport.py:81-106`: the buffer (`cstringio_buf`), the change of its
position by the extension, and `cstringio_refill`, which returns the content of the new buffer. -/
structure CReadable (σ : Type) where
  buf : σ → BytesIO
  setBuf : BytesIO → σ → σ
  refill : Bytes → Nat → P σ Bytes

variable {σ τ : Type}

/-- The transport and the buffer of the extension, `input_.stringiobuf`: the buffer of the transport
(`none`), or one that the transport may not have any more, because `cstringio_refill` raised. -/
structure Ext (σ : Type) where
  trans : σ
  own : Option BytesIO := none

/-- `input_.stringiobuf` -/
def Ext.buf (T : CReadable σ) (e : Ext σ) : BytesIO :=
  match e.own with
  | none => T.buf e.trans
  | some io => io

/-- `read_buffer`, `protocol.tcc:141-152`: up to `len` bytes; the position moves in place. -/
def readBuffer (T : CReadable σ) (len : Nat) : P (Ext σ) Bytes := fun e =>
  .ret (.ok ((e.buf T).read len).1,
    match e.own with
    | none => { e with trans := T.setBuf ((T.buf e.trans).read len).2 e.trans }
    | some io => { e with own := some (io.read len).2 })

/-- The call of the refill function, `protocol.tcc:318-326`: the buffer is only replaced if it
returns. -/
def refill (T : CReadable σ) (got : Bytes) (len : Nat) : P (Ext σ) Unit := fun e =>
  (T.refill got len e.trans).bind fun r =>
    match r with
    | (.ok _, s) => .ret (.ok (), { trans := s, own := none })
    | (.error x, s) => .ret (.error x, { trans := s, own := some (e.buf T) })

/-- `readBytes`, `protocol.tcc:299-337`, for a length that is not negative -/
def readBytes (T : CReadable σ) (len : Nat) : P (Ext σ) Bytes := do
  let got ← readBuffer T len
  if got.length = len then pure got
  else
    refill T got len
    let got ← readBuffer T len
    if got.length = len then pure got
    else P.raise .typeError

/-- `decode_impl`, `module.cpp:85-115`: a protocol object for one call, the value or the exception, and
what became of the transport. `m` is `decodeValue`, which asks for bytes with `readBytes`
(`Fast.readBytes`). -/
def decode {ρ : Type} (T : CReadable σ) (net : Nat → τ → Option (Except Exc Bytes × τ)) (m : P ρ Val) (init : ρ) (x : σ × τ) :
    Option (Except Exc Val × (σ × τ)) :=
  ((m init).run (P.over (readBytes T) net) ({ trans := x.1 }, x.2)).map fun y => (y.1.1, (y.2.1.trans, y.2.2))

/-- `TMemoryBuffer`, `TTransport.py:244-251` -/
def memory : CReadable BytesIO where
  buf s := s
  setBuf io _ := io
  refill _ _ := P.raise .eof

/-- `TBufferedTransport`, `TTransport.py:183-199` -/
def buffered : CReadable Buffered.St where
  buf s := s.rbuf
  setBuf io s := { s with rbuf := io }
  refill := Buffered.refill

/-- `TFramedTransport`, `TTransport.py:308-321` -/
def framed (fuel : Nat) : CReadable Framed.St where
  buf s := s.rbuf
  setBuf io s := { s with rbuf := io }
  refill := Framed.refill fuel

/-- `TSaslClientTransport.cstringio_refill`, `TTransport.py:460-468` -/
def saslRefill {μ ω : Type} (c : Sasl.Mech μ) (fuel : Nat) (pre : Bytes) (reqlen : Nat) : P (Sasl.St μ ω) Bytes := do
  let pre ← P.whileTrue fuel (fun pre =>
    if pre.length < reqlen then do
      Sasl.readFrame c
      let s ← P.get
      pure (.inl (pre ++ s.rbuf.value))
    else pure (.inr pre)) pre
  P.modify fun s => { s with rbuf := BytesIO.of pre }
  pure pre

/-- `TSaslClientTransport`, `TTransport.py:455-468` -/
def sasl {μ ω : Type} (c : Sasl.Mech μ) (fuel : Nat) : CReadable (Sasl.St μ ω) where
  buf s := s.rbuf
  setBuf io s := { s with rbuf := io }
  refill := saslRefill c fuel

/-- `THeaderTransport.cstringio_refill`, `THeaderTransport.py:361-366` -/
def headerRefill (z : Zlib) (fuel : Nat) (partialread : Bytes) (reqlen : Nat) : P Header.St Bytes := do
  let result ← P.whileTrue fuel (fun result =>
    if result.length < reqlen then do
      let d ← Header.read z (reqlen - result.length)
      pure (.inl (result ++ d))
    else pure (.inr result)) partialread
  P.modify fun s => { s with rbuf := BytesIO.of result }
  pure result

/-- `THeaderTransport`, `THeaderTransport.py:357-366` -/
def header (z : Zlib) (fuel : Nat) : CReadable Header.St where
  buf s := s.rbuf
  setBuf io s := { s with rbuf := io }
  refill := headerRefill z fuel

/-- `DEFAULT_BUFFSIZE`, `TZlibTransport.py:79` -/
def DEFAULT_BUFFSIZE : Nat := 4096

/-- `TZlibTransport.cstringio_refill`, `TZlibTransport.py:261-264` -/
def zlibRest {ζ δ : Type} (z : ZlibT.Codec ζ δ) (fuel : Nat) (retstring : Bytes) (reqlen : Nat) : P (ZlibT.St ζ δ) Bytes := do
  let ret ← P.whileTrue fuel (fun ret =>
    if ret.length < reqlen then do
      let d ← ZlibT.read z fuel (reqlen - ret.length)
      pure (.inl (ret ++ d))
    else pure (.inr ret)) retstring
  P.modify fun s => { s with rbuf := BytesIO.of ret }
  pure ret

/-- `TZlibTransport.cstringio_refill`, `TZlibTransport.py:256-264` -/
def zlibRefill {ζ δ : Type} (z : ZlibT.Codec ζ δ) (fuel : Nat) (partialread : Bytes) (reqlen : Nat) : P (ZlibT.St ζ δ) Bytes :=
  if reqlen < DEFAULT_BUFFSIZE then do
    let d ← ZlibT.read z fuel DEFAULT_BUFFSIZE
    zlibRest z fuel (partialread ++ d) reqlen
  else zlibRest z fuel partialread reqlen

/-- `TZlibTransport`, `TZlibTransport.py:251-264` -/
def zlib {ζ δ : Type} (z : ZlibT.Codec ζ δ) (fuel : Nat) : CReadable (ZlibT.St ζ δ) where
  buf s := s.rbuf
  setBuf io s := { s with rbuf := io }
  refill := zlibRefill z fuel

end Thrift.CReadable
