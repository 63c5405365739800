import Verif.Spec.HttpServer
import Verif.Proofs.Always
import Verif.Props.Calls
import Verif.Props.Transport
/-
What reading a request does to the connection.
-/

namespace Thrift.HttpServer
open Spec Spec.HttpServer Rpc

/-- A transport that never returns if there is nothing left -/
def blockStep (n : Nat) (b : Bytes) : Option (Except Exc Bytes × Bytes) :=
  if n = 0 ∨ b = [] then none else some (.ok (b.take n), b.drop n)

theorem blockStep_delivers : DeliversUntil blockStep id := by
  intro n b hb
  refine ⟨b.take (n + 1), b.drop (n + 1), ?_, (List.take_append_drop _ _).symm, by simp; omega, ?_⟩
  · unfold blockStep
    rw [if_neg]
    simp only [id] at hb
    simp [hb]
  · simp only [id] at hb
    cases b with
    | nil => exact absurd rfl hb
    | cons => simp

/-- Once the buffer is filled, everything is read from it. -/
theorem run_filled {α : Type} (q : Prog α) : ∀ (b b' : Bytes) (a : α), q.run blockStep b = some (a, b') →
    ∀ (s : Buffered.St) (f : File), s.rbuf.unread = b →
    ∃ s' : Buffered.St, s'.rbuf.unread = b' ∧ q.run (P.over Buffered.read fileRead) (s, f) = some (a, (s', f)) := by
  induction q with
  | ret a => intro b b' a' h s f hs; simp only [Prog.run, Option.some.injEq, Prod.mk.injEq] at h ⊢; exact ⟨s, by rw [hs, h.2], h.1, rfl, trivial⟩
  | diverge => intro b b' a h; cases h
  | read n k ih =>
    intro b b' a h s f hs
    simp only [Prog.run, blockStep] at h
    by_cases hc : n = 0 ∨ b = []
    · rw [if_pos hc] at h; cases h
    · rw [if_neg hc] at h
      simp only [not_or] at hc
      simp only at h
      have h1 : P.over Buffered.read fileRead n (s, f) = some (.ok (b.take n), ({ s with rbuf := (s.rbuf.read n).2 }, f)) := by
        rw [Buffered.run_read, if_pos, hs]
        rw [hs]
        cases b with
        | nil => exact absurd rfl hc.2
        | cons x xs => cases n with
          | zero => exact absurd rfl hc.1
          | succ n => simp
      obtain ⟨s', h2, h3⟩ := ih _ _ _ _ h { s with rbuf := (s.rbuf.read n).2 } f (by simp only [BytesIO.read_unread, hs])
      refine ⟨s', h2, ?_⟩
      simp only [Prog.run, h1]
      exact h3

/-- The first read fills the buffer with what `Content-Length` says. -/
theorem run_request {α : Type} {m : Nat} {k : Except Exc Bytes → Prog α} {body b' : Bytes} {a : α} (hm : 0 < m) (hl : m ≤ body.length)
    (h : (Prog.read m k).run blockStep body = some (a, b')) (more : Bytes) (o : Bool) :
    ∃ s' : Buffered.St, s'.rbuf.unread = b' ∧
      (Prog.read m k).run (P.over Buffered.read fileRead) ({ rbufSize := body.length }, { data := body ++ more, open_ := o }) = some (a, (s', { data := more, open_ := o })) := by
  have hb : body ≠ [] := by intro e; rw [e] at hl; simp at hl; omega
  simp only [Prog.run, blockStep] at h
  rw [if_neg (by simp only [not_or]; exact ⟨by omega, hb⟩)] at h
  simp only at h
  have h1 : P.over Buffered.read fileRead m ({ rbufSize := body.length }, { data := body ++ more, open_ := o }) =
      some (.ok (body.take m), ({ rbuf := ((BytesIO.of body).read m).2, rbufSize := body.length }, { data := more, open_ := o })) := by
    rw [Buffered.run_read, if_neg (by simp [BytesIO.unread, BytesIO.of])]
    simp only [fileRead, Nat.max_eq_right hl]
    rw [if_pos (.inl (by simp))]
    simp
  obtain ⟨s', h2, h3⟩ := run_filled _ _ _ _ h { rbuf := ((BytesIO.of body).read m).2, rbufSize := body.length } { data := more, open_ := o }
    (by simp only [BytesIO.read_unread, BytesIO.of_unread])
  refine ⟨s', h2, ?_⟩
  simp only [Prog.run, h1]
  exact h3

theorem over_more (n : Nat) (s : Buffered.St) (b : Bytes) (x : Except Exc Bytes × (Buffered.St × File)) (extra : Bytes)
    (h : P.over Buffered.read fileRead n (s, { data := b }) = some x) :
    x.2.2.open_ = true ∧
    P.over Buffered.read fileRead n (s, { data := b ++ extra, open_ := false }) = some (x.1, (x.2.1, { data := x.2.2.data ++ extra, open_ := false })) := by
  rw [Buffered.run_read] at h ⊢
  split at h
  · rename_i hc
    cases h
    rw [if_pos hc]
    exact ⟨rfl, rfl⟩
  · rename_i hc
    rw [if_neg hc]
    simp only [fileRead] at h ⊢
    by_cases hl : max n s.rbufSize ≤ b.length
    · rw [if_pos (.inl hl)] at h
      cases h
      rw [if_pos (.inr trivial)]
      simp only [List.take_append_of_le_length hl, List.drop_append_of_le_length hl, and_self]
    · rw [if_neg (by simp [hl])] at h
      cases h

/-- What returns on a connection that stays open, does the same if more comes. -/
theorem run_more {α : Type} (q : Prog α) : ∀ (s : Buffered.St) (b : Bytes) (a : α) (t : Buffered.St × File),
    q.run (P.over Buffered.read fileRead) (s, { data := b }) = some (a, t) → ∀ extra,
    q.run (P.over Buffered.read fileRead) (s, { data := b ++ extra, open_ := false }) =
      some (a, (t.1, { data := t.2.data ++ extra, open_ := false })) := by
  induction q with
  | ret a => intro s b a' t h extra; cases h; rfl
  | diverge => intro s b a t h; cases h
  | read n k ih =>
    intro s b a t h extra
    simp only [Prog.run] at h ⊢
    cases h1 : P.over Buffered.read fileRead n (s, { data := b }) with
    | none => rw [h1] at h; cases h
    | some x =>
      obtain ⟨ho, h2⟩ := over_more n s b x extra h1
      rw [h1] at h
      obtain ⟨r, s', ⟨d, o⟩⟩ := x
      simp only at ho
      subst ho
      rw [h2]
      exact ih _ _ _ _ _ h extra

/-- At the end of a connection that the client has closed, reading returns nothing. -/
theorem run_closed {α : Type} (q : Prog α) : ∀ (s : Buffered.St) (b : Bytes),
    q.run (P.over Buffered.read fileRead) (s, { data := b, open_ := false }) =
      (q.run (P.over Buffered.read memStep) (s, b)).map fun x => (x.1, (x.2.1, { data := x.2.2, open_ := false })) := by
  have step : ∀ n s b, P.over Buffered.read fileRead n (s, { data := b, open_ := false }) =
      (P.over Buffered.read memStep n (s, b)).map fun x => (x.1, (x.2.1, { data := x.2.2, open_ := false })) := by
    intro n s b
    rw [Buffered.run_read, Buffered.run_read]
    split
    · rfl
    · simp only [fileRead, memStep]
      rw [if_pos (.inr trivial)]
      rfl
  induction q with
  | ret a => intro s b; rfl
  | diverge => intro s b; rfl
  | read n k ih =>
    intro s b
    simp only [Prog.run, step]
    cases P.over Buffered.read memStep n (s, b) with
    | none => rfl
    | some x => exact ih _ _ _

theorem mem_delivers : Delivers memStep id := by
  intro n b
  refine ⟨b.take (n + 1), b.drop (n + 1), rfl, (List.take_append_drop _ _).symm, by simp; omega, ?_⟩
  cases b <;> simp

/-- A reader that needs all of `b ++ extra` waits for ever if only `b` comes. -/
theorem waits {σ α : Type} {m : P σ α} (hm : Steady m) (c c' : σ) (r : Except Exc α) (b extra : Bytes) (he : extra ≠ [])
    (h : exec m c (b ++ extra) = some ((r, c'), [])) (size : Nat) :
    (m c).run (P.over Buffered.read fileRead) ({ rbufSize := size }, { data := b }) = none := by
  cases h1 : (m c).run (P.over Buffered.read fileRead) ({ rbufSize := size }, { data := b }) with
  | none => rfl
  | some x =>
    have h2 := run_more _ _ _ _ _ h1 extra
    rw [run_closed] at h2
    have h3 := hm.any _ _ _ (Buffered.buffered_delivers mem_delivers) c (({ rbufSize := size } : Buffered.St), b ++ extra)
    have hp : Buffered.pending id (({ rbufSize := size } : Buffered.St), b ++ extra) = b ++ extra := by
      simp [Buffered.pending, BytesIO.unread, BytesIO.of]
    rw [hp, h] at h3
    obtain ⟨t', e, hr⟩ := h3
    rw [e] at h2
    simp only [Option.map_some, Option.some.injEq, Prod.mk.injEq, File.mk.injEq, and_true] at h2
    simp only [Buffered.pending, id, h2.2.2, List.append_eq_nil_iff] at hr
    exact absurd hr.2.2 he

end Thrift.HttpServer
