import Verif.Model.Base
import Verif.Spec.Transport
import Verif.Model.CReadable
import Verif.Props.Sasl
/-
What the C extension may expect of a transport. `R t b`: the bytes `b` are still to come from the
transport `t`.
-/

namespace Thrift.Spec
variable {τ : Type}

/-- A request for bytes that are to come is answered with exactly these bytes. -/
def Gives (step : Nat → τ → Option (Except Exc Bytes × τ)) (R : τ → Bytes → Prop) : Prop :=
  ∀ n t b, R t b → n ≤ b.length → ∃ t', step n t = some (.ok (b.take n), t') ∧ R t' (b.drop n)

/-- "If reqlen bytes can't be read, throw EOFError" (`TTransport.py:104`); then nothing is left. -/
structure Exact (step : Nat → τ → Option (Except Exc Bytes × τ)) (R : τ → Bytes → Prop) : Prop where
  gives : Gives step R
  eof : ∀ n t b, R t b → b.length < n → ∃ t', step n t = some (.error .eof, t') ∧ R t' []

/-! ### What is to come from the transports -/

variable {net : Nat → τ → Option (Except Exc Bytes × τ)}

/-- `TMemoryBuffer`; there is nothing below it. -/
def InMemory (x : BytesIO × τ) (b : Bytes) : Prop := x.1.unread = b

/-- `TBufferedTransport`: what it has read from below, and what is to come from there -/
def InBuffered (rest : τ → Bytes) (x : Buffered.St × τ) (b : Bytes) : Prop := x.1.rbuf.unread ++ rest x.2 = b

/-- `TFramedTransport`: the rest of the last frame, and the content of less than `fuel` complete frames -/
def InFramed (rest : τ → Bytes) (fuel : Nat) (x : Framed.St × τ) (b : Bytes) : Prop :=
  ∃ bs : List Bytes, (∀ f ∈ bs, f.length < 2 ^ 31) ∧ bs.length < fuel ∧ rest x.2 = frames bs ∧ x.1.rbuf.unread ++ bs.flatten = b

/-- `TSaslClientTransport`: the rest of the last frame, and what less than `fuel` frames unwrap to -/
def InSasl {μ ω : Type} (c : Sasl.Mech μ) (rest : τ → Bytes) (fuel : Nat) (x : Sasl.St μ ω × τ) (b : Bytes) : Prop :=
  ∃ bs es, Sasl.Unwraps c x.1.mech bs es ∧ bs.length < fuel ∧ rest x.2 = frames es ∧ x.1.rbuf.unread ++ bs.flatten = b

/-- `THeaderTransport` with a peer that sends messages without frames: what it has read and what is to
come from below -/
def InUnframed (rest : τ → Bytes) (fuel : Nat) (x : Header.St × τ) (b : Bytes) : Prop :=
  (x.1.clientType = Header.ClientType.UNFRAMED_BINARY ∨ x.1.clientType = Header.ClientType.UNFRAMED_COMPACT) ∧
    x.1.rbuf.unread ++ rest x.2 = b ∧ b.length < fuel

/-- Any transport: all that is to come is in its buffer, and `t0` is what is below. -/
def InBuffer {σ : Type} (T : CReadable.CReadable σ) (t0 : τ) (x : σ × τ) (b : Bytes) : Prop := (T.buf x.1).unread = b ∧ x.2 = t0

/-- `TZlibTransport`: what is to come is in its buffer, or the rest of it inflates to the bytes of one
piece that the transport below delivers; less than 4096 bytes in all. -/
def InZlib {ζ δ : Type} (z : ZlibT.Codec ζ δ) (net : Nat → τ → Option (Except Exc Bytes × τ)) (x : ZlibT.St ζ δ × τ) (b : Bytes) : Prop :=
  b.length < 4096 ∧ (x.1.rbuf.unread = b ∨
    ∃ piece t' out zr, net 4096 x.2 = some (.ok piece, t') ∧
      z.decompress (z.tail x.1.zr ++ piece) (x.1.max - x.1.decompressed) x.1.zr = (.ok out, zr) ∧ z.tail zr = [] ∧
      x.1.rbuf.unread ++ out = b)

/-! ### The outcome of a call of the decoder -/

/-- The value or the exception is the one that a buffer with all the bytes would give. If bytes are left,
they are still to come. -/
def LikeMemory {σ α : Type} (run : Option (Except Exc α × σ)) (R : σ → Bytes → Prop) (mem : Option (Except Exc α × Bytes)) : Prop :=
  match mem with
  | none => run = none
  | some (r, left) => ∃ x, run = some (r, x) ∧ (left ≠ [] → R x left)

/-- The value is returned and the bytes that follow it are still to come. -/
def Returns {σ α : Type} (run : Option (Except Exc α × σ)) (R : σ → Bytes → Prop) (v : α) (left : Bytes) : Prop :=
  ∃ x, run = some (.ok v, x) ∧ R x left

end Thrift.Spec
