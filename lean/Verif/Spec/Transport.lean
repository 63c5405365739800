import Verif.Model.Transport
import Verif.Spec.Stream
import Verif.Spec.Bytes
/-
What the transports that wrap other transports are expected to do.
-/

namespace Thrift

/-- The part of a `BytesIO` that has not been read. -/
def BytesIO.unread (io : BytesIO) : Bytes := io.value.drop io.pos

end Thrift

namespace Thrift.Spec
variable {τ : Type}

/-- A transport that may also raise: an exception takes nothing from the stream. -/
def Faithful (step : Nat → τ → Option (Except Exc Bytes × τ)) (rest : τ → Bytes) : Prop :=
  ∀ n t, ∃ r t', step (n + 1) t = some (r, t') ∧
    match r with
    | .ok piece => rest t = piece ++ rest t' ∧ piece.length ≤ n + 1 ∧ (piece = [] → rest t = [])
    | .error _ => rest t' = rest t

/-- The bytes that a log of read calls delivered. -/
def delivered : List (Nat × Except Exc Bytes) → Bytes
  | [] => []
  | (_, .ok b) :: log => b ++ delivered log
  | (_, .error _) :: log => delivered log

/-- Calls of `write` and `flush` by the user of a transport. -/
inductive WriteOp where
  | write (b : Bytes)
  /-- a call with an argument that is not `bytes` -/
  | bad
  | flush
  deriving DecidableEq, Repr

/-- What was written between the flushes: the batches of completed flushes in order, and what is
still waiting. A rejected write discards what is waiting (`TBufferedTransport` only). -/
def batches (drop : Bool) : Bytes → List WriteOp → List Bytes × Bytes
  | pending, [] => ([], pending)
  | pending, .write b :: ops => batches drop (pending ++ b) ops
  | pending, .bad :: ops => batches drop (if drop then [] else pending) ops
  | pending, .flush :: ops =>
    let r := batches drop [] ops
    (pending :: r.1, r.2)

/-- A frame: four bytes of length, most significant first, and the content. -/
def frame (b : Bytes) : Bytes := beInt 4 b.length ++ b

/-- A sequence of frames. -/
def frames (bs : List Bytes) : Bytes := (bs.map frame).flatten

/-- Reading from a sequence of batches: a read returns the next bytes of the current batch, at most
`n`; if there is none left, of the next batch. Without a next batch it raises `EOFError`. -/
def batchRead (n : Nat) : Bytes × List Bytes → Except Exc Bytes × (Bytes × List Bytes)
  | (c :: cur, bs) => (.ok ((c :: cur).take n), ((c :: cur).drop n, bs))
  | ([], b :: bs) => (.ok (b.take n), (b.drop n, bs))
  | ([], []) => (.error .eof, ([], []))

/-- The log of a sequence of such reads. -/
def batchLog : List Nat → Bytes × List Bytes → List (Nat × Except Exc Bytes)
  | [], _ => []
  | n :: ns, x => (n, (batchRead n x).1) :: batchLog ns (batchRead n x).2

end Thrift.Spec
