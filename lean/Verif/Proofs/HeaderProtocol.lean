import Verif.Spec.HeaderProtocol
import Verif.Props.Calls
/-
Reading messages through a `THeaderTransport`.
-/

namespace Thrift.HeaderProtocol
open Spec Spec.HeaderProtocol Spec.Header Rpc

/-! ### Within a frame -/

theorem run_mem_length {α : Type} (q : Prog α) : ∀ (b b' : Bytes) (a : α), q.run memStep b = some (a, b') → b'.length ≤ b.length := by
  induction q with
  | ret a => intro b b' a' h; cases h; exact Nat.le_refl _
  | diverge => intro b b' a h; cases h
  | read n k ih =>
    intro b b' a h
    have := ih _ _ _ _ h
    simp only [List.length_drop] at this
    omega

/-- A program that leaves what comes behind `b` does not ask for more than is left of `b`. -/
theorem run_within {α τ : Type} {step : Nat → τ → Option (Except Exc Bytes × τ)} {R : τ → Bytes → Prop}
    (hstep : ∀ n t b, R t b → n ≤ b.length → ∃ t', step n t = some (.ok (b.take n), t') ∧ R t' (b.drop n))
    {more : Bytes} (hm : more ≠ []) (q : Prog α) :
    ∀ (b : Bytes) (a : α), q.run memStep (b ++ more) = some (a, more) → ∀ t, R t b → ∃ t', q.run step t = some (a, t') ∧ R t' [] := by
  induction q with
  | ret a =>
    intro b a' h t ht
    simp only [Prog.run, Option.some.injEq, Prod.mk.injEq] at h
    have hb : b = [] := by
      have := congrArg List.length h.2
      simp only [List.length_append] at this
      exact List.length_eq_zero_iff.1 (by omega)
    subst hb
    exact ⟨t, by rw [h.1]; rfl, ht⟩
  | diverge => intro b a h; cases h
  | read n k ih =>
    intro b a h t ht
    by_cases hn : n ≤ b.length
    · obtain ⟨t', h1, h2⟩ := hstep n t b ht hn
      simp only [Prog.run, memStep, List.take_append_of_le_length hn, List.drop_append_of_le_length hn] at h
      obtain ⟨t'', h3, h4⟩ := ih _ _ _ h t' h2
      refine ⟨t'', ?_, h4⟩
      simp only [Prog.run, h1]
      exact h3
    · have := run_mem_length _ (List.drop n (b ++ more)) _ _ h
      simp only [List.length_drop, List.length_append] at this
      have hl : 0 < more.length := List.length_pos_iff.2 hm
      omega

section
variable {ν : Type}

theorem read_eq (z : Zlib) (n : Nat) (h : Header.St) : Header.read z n h =
    (if n - (h.rbuf.read n).1.length = 0 then (pure (h.rbuf.read n).1 : P Header.St Bytes)
    else if h.clientType = Header.ClientType.UNFRAMED_BINARY ∨ h.clientType = Header.ClientType.UNFRAMED_COMPACT then do
      let more ← P.transRead (n - (h.rbuf.read n).1.length)
      pure ((h.rbuf.read n).1 ++ more)
    else do
      Header.readFrame z (n - (h.rbuf.read n).1.length : Nat)
      let s ← P.get
      let (more, rb) := s.rbuf.read (n - (h.rbuf.read n).1.length : Nat)
      P.set { s with rbuf := rb }
      pure ((h.rbuf.read n).1 ++ more)) { h with rbuf := (h.rbuf.read n).2 } := rfl

theorem read_inside (z : Zlib) (net : Nat → ν → Option (Except Exc Bytes × ν)) (n : Nat) (h : Header.St) (t : ν) (hn : n ≤ h.rbuf.unread.length) :
    P.over (Header.read z) net n (h, t) = some (.ok (h.rbuf.unread.take n), ({ h with rbuf := (h.rbuf.read n).2 }, t)) := by
  have hg : (h.rbuf.read n).1 = h.rbuf.unread.take n := BytesIO.read_fst ..
  have hz : n - (h.rbuf.read n).1.length = 0 := by rw [hg, List.length_take]; omega
  unfold P.over
  simp only
  rw [read_eq, if_pos hz, hg]
  rfl

/-- In a frame -/
def Inside (h0 : Header.St) (t0 : ν) (x : Header.St × ν) (b : Bytes) : Prop :=
  x.1.rbuf.unread = b ∧ x.2 = t0 ∧ ∃ r, x.1 = { h0 with rbuf := r }

theorem inside_step (z : Zlib) (net : Nat → ν → Option (Except Exc Bytes × ν)) (h0 : Header.St) (t0 : ν) (n : Nat) (x : Header.St × ν) (b : Bytes)
    (hx : Inside h0 t0 x b) (hn : n ≤ b.length) :
    ∃ x', P.over (Header.read z) net n x = some (.ok (b.take n), x') ∧ Inside h0 t0 x' (b.drop n) := by
  obtain ⟨h, t⟩ := x
  obtain ⟨h1, rfl, r, h3⟩ := hx
  simp only at h1 h3
  subst h1
  refine ⟨_, read_inside z net n h t hn, ?_, rfl, (h.rbuf.read n).2, ?_⟩
  · simp only [BytesIO.read_unread]
  · subst h3
    rfl

/-! ### Without frames -/

def Unframed (h : Header.St) : Prop := h.clientType = Header.ClientType.UNFRAMED_BINARY ∨ h.clientType = Header.ClientType.UNFRAMED_COMPACT

theorem read_unframed (z : Zlib) (net : Nat → ν → Option (Except Exc Bytes × ν)) (n : Nat) (h : Header.St) (t : ν) (hu : Unframed h) (hn : h.rbuf.unread.length < n) :
    P.over (Header.read z) net n (h, t) =
      match net (n - h.rbuf.unread.length) t with
      | none => none
      | some (.error e, t') => some (.error e, ({ h with rbuf := (h.rbuf.read n).2 }, t'))
      | some (.ok b, t') => some (.ok (h.rbuf.unread ++ b), ({ h with rbuf := (h.rbuf.read n).2 }, t')) := by
  have hg : (h.rbuf.read n).1 = h.rbuf.unread := by rw [BytesIO.read_fst, List.take_of_length_le (by omega)]
  unfold P.over
  simp only
  have hu' : h.clientType = Header.ClientType.UNFRAMED_BINARY ∨ h.clientType = Header.ClientType.UNFRAMED_COMPACT := hu
  rw [read_eq, hg, if_neg (by omega), if_pos hu']
  simp only [bind, P.bind, P.transRead, Prog.bind, Prog.run]
  cases net (n - h.rbuf.unread.length) t with
  | none => rfl
  | some x => obtain ⟨r, t'⟩ := x; cases r <;> rfl

/-- What is left for the reader of an unframed message -/
def left (rest : ν → Bytes) (x : Header.St × ν) : Bytes := if rest x.2 = [] then [] else x.1.rbuf.unread ++ rest x.2

/-- Unframed reading, as long as the transport is unframed -/
theorem unframed_until {net : Nat → ν → Option (Except Exc Bytes × ν)} {rest : ν → Bytes} (hd : DeliversUntil net rest) (z : Zlib) (h0 : Header.St) (hu : Unframed h0) :
    DeliversUntil (fun n (x : BytesIO × ν) => (P.over (Header.read z) net n ({ h0 with rbuf := x.1 }, x.2)).map fun y => (y.1, (y.2.1.rbuf, y.2.2)))
      fun x => left rest ({ h0 with rbuf := x.1 }, x.2) := by
  intro n x hne
  obtain ⟨r, t⟩ := x
  simp only [left] at hne ⊢
  by_cases hr : rest t = []
  · rw [if_pos hr] at hne; exact absurd rfl hne
  · rw [if_neg hr]
    by_cases hn : n + 1 ≤ r.unread.length
    · rw [read_inside z net (n + 1) { h0 with rbuf := r } t hn]
      refine ⟨_, _, rfl, ?_, by simp; omega, ?_⟩
      · simp only
        rw [if_neg hr, BytesIO.read_unread, ← List.append_assoc, List.take_append_drop]
      · intro h
        have := congrArg List.length h
        simp only [List.length_take, List.length_nil] at this
        omega
    · rw [read_unframed z net (n + 1) { h0 with rbuf := r } t hu (by simp only; omega)]
      obtain ⟨c, t', e, hc, hl, hz⟩ := hd (n - r.unread.length) t hr
      rw [show n + 1 - r.unread.length = n - r.unread.length + 1 by omega, e]
      refine ⟨r.unread ++ c, _, rfl, ?_, ?_, ?_⟩
      · simp only
        rw [BytesIO.read_unread, List.drop_of_length_le (by omega), hc]
        split <;> simp_all
      · simp only [List.length_append]; omega
      · intro h; exact hz (List.append_eq_nil_iff.1 h).2

/-- A run in an unframed transport is a run that changes the buffer only. -/
theorem run_unframed {α : Type} (z : Zlib) (net : Nat → ν → Option (Except Exc Bytes × ν)) (h0 : Header.St) (hu : Unframed h0) (q : Prog α) :
    ∀ (r : BytesIO) (t : ν),
    q.run (P.over (Header.read z) net) ({ h0 with rbuf := r }, t) =
      (q.run (fun n (x : BytesIO × ν) => (P.over (Header.read z) net n ({ h0 with rbuf := x.1 }, x.2)).map fun y => (y.1, (y.2.1.rbuf, y.2.2))) (r, t)).map
        fun y => (y.1, ({ h0 with rbuf := y.2.1 }, y.2.2)) := by
  induction q with
  | ret a => intro r t; rfl
  | diverge => intro r t; rfl
  | read n k ih =>
    intro r t
    simp only [Prog.run]
    by_cases hn : n ≤ r.unread.length
    · rw [read_inside z net n { h0 with rbuf := r } t hn]
      exact ih _ _ _
    · rw [read_unframed z net n { h0 with rbuf := r } t hu (by simp only; omega)]
      cases net (n - r.unread.length) t with
      | none => rfl
      | some x =>
        obtain ⟨e, t'⟩ := x
        cases e with
        | error e => exact ih _ _ _
        | ok b => exact ih _ _ _

end
end Thrift.HeaderProtocol
