import Verif.Model.Base
/-
What a transport may do when it is asked for bytes.
-/

namespace Thrift.Spec
variable {τ : Type}

/-- A transport that delivers the byte stream `rest t` in pieces of its own choosing: a request for
`n + 1` bytes is answered with the next piece, between 1 and `n + 1` bytes long, and with `b''` only
at the end of the stream. -/
def Delivers (step : Nat → τ → Option (Except Exc Bytes × τ)) (rest : τ → Bytes) : Prop :=
  ∀ n t, ∃ piece t', step (n + 1) t = some (.ok piece, t') ∧ rest t = piece ++ rest t' ∧
    piece.length ≤ n + 1 ∧ (piece = [] → rest t = [])

/-- The same as long as something is left; nothing is said about reading at the end of the stream
(a framed transport raises there). -/
def DeliversUntil (step : Nat → τ → Option (Except Exc Bytes × τ)) (rest : τ → Bytes) : Prop :=
  ∀ n t, rest t ≠ [] → ∃ piece t', step (n + 1) t = some (.ok piece, t') ∧ rest t = piece ++ rest t' ∧
    piece.length ≤ n + 1 ∧ piece ≠ []

theorem Delivers.until {step : Nat → τ → Option (Except Exc Bytes × τ)} {rest : τ → Bytes}
    (h : Delivers step rest) : DeliversUntil step rest := by
  intro n t hne
  obtain ⟨c, t', e, hr, hl, hz⟩ := h n t
  exact ⟨c, t', e, hr, hl, fun hc => hne (hz hc)⟩

/-- A sequence of calls of `read` on a transport, with requests and answers. -/
inductive Session (step : Nat → τ → Option (Except Exc Bytes × τ)) :
    τ → List (Nat × Except Exc Bytes) → τ → Prop
  | done (t : τ) : Session step t [] t
  | call {n : Nat} {r : Except Exc Bytes} {t t1 t2 : τ} {log : List (Nat × Except Exc Bytes)} :
    step n t = some (r, t1) → Session step t1 log t2 → Session step t ((n, r) :: log) t2

/-- The requests and answers of a reader that still needs `n` bytes and is given `pieces` one after
the other: it always asks for all that is missing. -/
def asksForRest : Nat → List Bytes → List (Nat × Except Exc Bytes)
  | _, [] => []
  | n, c :: cs => (n, .ok c) :: asksForRest (n - c.length) cs

/-- A transport that delivers its content one byte at a time. -/
def bytewise (_ : Nat) (b : Bytes) : Option (Except Exc Bytes × Bytes) :=
  some (.ok (b.take 1), b.drop 1)

theorem bytewise_delivers : Delivers bytewise id := by
  intro n b
  refine ⟨b.take 1, b.drop 1, rfl, (List.take_append_drop 1 b).symm, ?_, ?_⟩
  · simp; omega
  · cases b <;> simp

end Thrift.Spec
