import Verif.Model.Transport
/-
`lib/py/src/transport/TZlibTransport.py`. The functions of the `zlib` module are parameters; what is
assumed about them is in `Verif/Spec/Zlib.lean`.
-/

namespace Thrift.ZlibT

/-- The objects of Python's `zlib` module: `compressobj` with state `ζ`, `decompressobj` with state
`δ`. -/
structure Codec (ζ δ : Type) where
  /-- `compressobj(level)` -/
  newC : ζ
  /-- `decompressobj()` -/
  newD : δ
  /-- `compress(data)` -/
  compress : Bytes → ζ → Bytes × ζ
  /-- `flush(Z_SYNC_FLUSH)` -/
  syncFlush : ζ → Bytes × ζ
  /-- `decompress(data, max_length)` -/
  decompress : Bytes → Int → δ → Except Exc Bytes × δ
  /-- `unconsumed_tail` -/
  tail : δ → Bytes

variable {ζ δ : Type}

/-- The attributes of a `TZlibTransport`, 81-126. -/
structure St (ζ δ : Type) where
  max : Int := 16384000
  rbuf : BytesIO := BytesIO.of []
  wbuf : BytesIO := BytesIO.of []
  zr : δ
  zw : ζ
  decompressed : Nat := 0
  bytesIn : Nat := 0
  bytesOut : Nat := 0
  bytesInComp : Nat := 0
  bytesOutComp : Nat := 0
  deriving DecidableEq, Repr

/-- `__init__`, 81-102. The compression level is part of `newC`. -/
def init (z : Codec ζ δ) (max : Int) : St ζ δ := { max := max, zr := z.newD, zw := z.newC }

/-- `_init_stats`, 111-118, as called by `open`, 171-174 -/
def opened (s : St ζ δ) : St ζ δ :=
  { s with
    bytesIn := 0, bytesOut := 0, bytesInComp := 0, bytesOutComp := 0 }

/-- `close`, 184-188: `_reinit_buffers` and `_init_zlib`. -/
def close (z : Codec ζ δ) (s : St ζ δ) : St ζ δ :=
  { s with
    rbuf := BytesIO.of [], wbuf := BytesIO.of [], zr := z.newD, zw := z.newC, decompressed := 0 }

/-- `readComp`, 210-225: what happens with the bytes `zbuf` that `trans.read` returned. -/
def inflateInto (z : Codec ζ δ) (zbuf : Bytes) (s : St ζ δ) : Except Exc Bool × St ζ δ :=
  let zbuf := z.tail s.zr ++ zbuf
  let remaining := s.max - s.decompressed
  match z.decompress zbuf remaining s.zr with
  | (.error e, zr) => (.error e, { s with zr := zr })
  | (.ok buf, zr) =>
    if z.tail zr ≠ [] then (.error TTransportException.SIZE_LIMIT, { s with zr := zr })
    else
      let s := { s with
        zr := zr
        decompressed := s.decompressed + buf.length
        bytesIn := s.bytesIn + zbuf.length
        bytesInComp := s.bytesInComp + buf.length }
      let old := (s.rbuf.read (-1)).1
      let s := { s with rbuf := BytesIO.of (old ++ buf) }
      if old.length + buf.length = 0 then (.ok false, s) else (.ok true, s)

/-- `readComp`, 205-225 -/
def readComp (z : Codec ζ δ) (sz : Nat) : P (St ζ δ) Bool :=
  P.bind (P.transRead sz) fun zbuf => fun s => .ret (inflateInto z zbuf s)

/-- The loop of `read`, 199-201 -/
def fill (z : Codec ζ δ) : (fuel : Nat) → (sz : Nat) → P (St ζ δ) Unit
  | 0, _ => P.diverge
  | f + 1, sz => P.bind (readComp z sz) fun more => if more then P.pure () else fill z f sz

/-- `self.__rbuf.read(sz)` -/
def take (sz : Nat) : P (St ζ δ) Bytes := fun s =>
  .ret (.ok (s.rbuf.read sz).1, { s with rbuf := (s.rbuf.read sz).2 })

/-- `read`, 190-203. Restricted to sizes that are not negative. The fuel bounds the number of
iterations of the loop. -/
def read (z : Codec ζ δ) (fuel : Nat) (sz : Nat) : P (St ζ δ) Bytes :=
  P.bind (take sz) fun ret =>
    if ret.length > 0 then P.pure ret
    else P.bind (fill z fuel sz) fun _ => take sz

/-- `write`, 227-231 -/
def write (b : WArg) (s : St ζ δ) : Except Exc Unit × St ζ δ :=
  match b with
  | .bytes b => (.ok (), { s with wbuf := s.wbuf.write b })
  | .other => (.error .typeError, s)

/-- `flush`, 244-249: after the compressor was flushed. `zbuf` is `none` for the empty `str` that
line 243 assigns; `'' + ztail` raises `TypeError`, after `__wbuf` was reset. -/
def send {ω : Type} (k : Sink ω) (zbuf : Option Bytes) (ztail : Bytes) (s : St ζ δ) (w : ω) :
    Except Exc Unit × St ζ δ × ω :=
  let s := { s with bytesOutComp := s.bytesOutComp + ztail.length }
  if (zbuf.getD []).length + ztail.length > 0 then
    let s := { s with wbuf := BytesIO.of [] }
    match zbuf with
    | none => (.error .typeError, s, w)
    | some zbuf =>
      let r := k.writeFlush (zbuf ++ ztail) w
      (r.1, s, r.2)
  else
    let r := k.flush w
    (r.1, s, r.2)

/-- `flush`, 233-249 -/
def flush {ω : Type} (z : Codec ζ δ) (k : Sink ω) (s : St ζ δ) (w : ω) : Except Exc Unit × St ζ δ × ω :=
  let wout := s.wbuf.value
  if wout.length > 0 then
    let c := z.compress wout s.zw
    let s := { s with
      bytesOut := s.bytesOut + wout.length
      bytesOutComp := s.bytesOutComp + c.1.length }
    let f := z.syncFlush c.2
    send k (some c.1) f.1 { s with zw := f.2 } w
  else
    let f := z.syncFlush s.zw
    send k none f.1 { s with zw := f.2 } w

/-- `getCompSavings`, 152-165 -/
def getCompSavings (s : St ζ δ) : Int × Int :=
  ((s.bytesIn : Int) - s.bytesInComp, (s.bytesOut : Int) - s.bytesOutComp)

/-- `getCompRatio`, 128-150: each ratio as numerator and denominator; the division is not carried
out. -/
def getCompRatio (s : St ζ δ) : Option (Nat × Nat) × Option (Nat × Nat) :=
  (if s.bytesIn > 0 then some (s.bytesInComp, s.bytesIn) else none,
   if s.bytesOut > 0 then some (s.bytesOutComp, s.bytesOut) else none)

end Thrift.ZlibT
