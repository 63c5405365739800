import Verif.Proofs.SteadyOps
import Verif.Spec.Sample
/-
Properties C16 and C21: how a transport cuts the stream into pieces does not matter, and `readAll`
returns all that was asked for or raises.
-/

namespace Thrift
open Spec

/-! ## C21: `readAll` -/

theorem readAllLoop_log {σ τ : Type} (step : Nat → τ → Option (Except Exc Bytes × τ)) (s : σ) :
    ∀ (f l : Nat) (buff : Bytes) (t t' : τ) (r : Except Exc Bytes) (s' : σ), l ≤ f →
    ((P.readAllLoop f l buff : P σ Bytes) s).run step t = some ((r, s'), t') →
    s' = s ∧ ∃ pieces : List Bytes, (∀ c ∈ pieces, c ≠ []) ∧
      ((r = .ok (buff ++ pieces.flatten) ∧ l ≤ pieces.flatten.length ∧
          Session step t (asksForRest l pieces) t') ∨
        (r = .error .eof ∧ pieces.flatten.length < l ∧
          Session step t (asksForRest l pieces ++ [(l - pieces.flatten.length, .ok [])]) t') ∨
        (∃ e, r = .error e ∧ pieces.flatten.length < l ∧
          Session step t (asksForRest l pieces ++ [(l - pieces.flatten.length, .error e)]) t')) := by
  intro f
  induction f with
  | zero =>
    intro l buff t t' r s' hl h
    obtain rfl : l = 0 := by omega
    simp only [P.readAllLoop, P.pure, Prog.run, Option.some.injEq, Prod.mk.injEq] at h
    obtain ⟨⟨rfl, rfl⟩, rfl⟩ := h
    exact ⟨rfl, [], by simp, Or.inl ⟨by simp, by simp, Session.done t⟩⟩
  | succ f ih =>
    intro l buff t t' r s' hl h
    cases l with
    | zero =>
      simp only [P.readAllLoop, P.pure, Prog.run, Option.some.injEq, Prod.mk.injEq] at h
      obtain ⟨⟨rfl, rfl⟩, rfl⟩ := h
      exact ⟨rfl, [], by simp, Or.inl ⟨by simp, by simp, Session.done t⟩⟩
    | succ l =>
      simp only [P.readAllLoop, P.bind, P.transRead, Prog.bind, Prog.run] at h
      cases hs : step (l + 1) t with
      | none => simp [hs] at h
      | some x =>
        obtain ⟨x, t1⟩ := x
        rw [hs] at h
        cases x with
        | error e =>
          simp only [Prog.run, Option.some.injEq, Prod.mk.injEq] at h
          obtain ⟨⟨rfl, rfl⟩, rfl⟩ := h
          exact ⟨rfl, [], by simp, Or.inr (Or.inr ⟨e, rfl, by simp,
            Session.call (by simpa using hs) (Session.done t1)⟩)⟩
        | ok c =>
          simp only at h
          by_cases hc : c.length = 0
          · have hc' : c = [] := List.length_eq_zero_iff.mp hc
            subst hc'
            rw [if_pos hc] at h
            simp only [P.raise, Prog.run, Option.some.injEq, Prod.mk.injEq] at h
            obtain ⟨⟨rfl, rfl⟩, rfl⟩ := h
            exact ⟨rfl, [], by simp, Or.inr (Or.inl ⟨rfl, by simp,
              Session.call (by simpa using hs) (Session.done t1)⟩)⟩
          · rw [if_neg hc] at h
            obtain ⟨e, pieces, hne, hcase⟩ := ih (l + 1 - c.length) (buff ++ c) t1 t' r s' (by omega) h
            refine ⟨e, c :: pieces, ?_, ?_⟩
            · intro d hd
              cases hd with
              | head => intro h0; rw [h0] at hc; exact hc rfl
              | tail _ hd => exact hne d hd
            · simp only [List.flatten_cons, List.length_append, asksForRest, List.cons_append]
              rcases hcase with ⟨hr, hlen, hsess⟩ | ⟨hr, hlen, hsess⟩ | ⟨e, hr, hlen, hsess⟩
              · exact Or.inl ⟨by simpa using hr, by omega, Session.call hs hsess⟩
              · refine Or.inr (Or.inl ⟨hr, by omega, Session.call hs ?_⟩)
                rw [show l + 1 - (c.length + pieces.flatten.length)
                  = l + 1 - c.length - pieces.flatten.length by omega]
                exact hsess
              · refine Or.inr (Or.inr ⟨e, hr, by omega, Session.call hs ?_⟩)
                rw [show l + 1 - (c.length + pieces.flatten.length)
                  = l + 1 - c.length - pieces.flatten.length by omega]
                exact hsess

/-- C21: over any transport whatsoever, `readAll(sz)` asks for all that is missing until it has it.
It returns the concatenation of the pieces it was given, in order, at least `sz` bytes; or the
transport returned `b''` and it raises `EOFError`; or it passes on the exception of the transport. In
the last two cases fewer than `sz` bytes had arrived. -/
theorem readAll_any_transport {σ τ : Type} (step : Nat → τ → Option (Except Exc Bytes × τ)) (sz : Int)
    (s s' : σ) (t t' : τ) (r : Except Exc Bytes)
    (h : ((P.readAll sz : P σ Bytes) s).run step t = some ((r, s'), t')) :
    s' = s ∧ ∃ pieces : List Bytes, (∀ c ∈ pieces, c ≠ []) ∧
      ((r = .ok pieces.flatten ∧ sz ≤ pieces.flatten.length ∧
          Session step t (asksForRest sz.toNat pieces) t') ∨
        (r = .error .eof ∧ (pieces.flatten.length : Int) < sz ∧
          Session step t (asksForRest sz.toNat pieces ++ [(sz.toNat - pieces.flatten.length, .ok [])]) t') ∨
        (∃ e, r = .error e ∧ (pieces.flatten.length : Int) < sz ∧
          Session step t
            (asksForRest sz.toNat pieces ++ [(sz.toNat - pieces.flatten.length, .error e)]) t')) := by
  obtain ⟨hs, pieces, hne, hcase⟩ := readAllLoop_log step s sz.toNat sz.toNat [] t t' r s'
    (Nat.le_refl _) h
  refine ⟨hs, pieces, hne, ?_⟩
  rcases hcase with ⟨hr, hlen, hsess⟩ | ⟨hr, hlen, hsess⟩ | ⟨e, hr, hlen, hsess⟩
  · exact Or.inl ⟨by simpa using hr, by omega, hsess⟩
  · exact Or.inr (Or.inl ⟨hr, by omega, hsess⟩)
  · exact Or.inr (Or.inr ⟨e, hr, by omega, hsess⟩)

theorem session_length {τ : Type} {step : Nat → τ → Option (Except Exc Bytes × τ)}
    (hs : ∀ n t c t', step n t = some (.ok c, t') → c.length ≤ n) :
    ∀ (pieces : List Bytes) (n : Nat) (t t' : τ), (∀ c ∈ pieces, c ≠ []) →
    Session step t (asksForRest n pieces) t' → pieces.flatten.length ≤ n := by
  intro pieces
  induction pieces with
  | nil => intros; simp
  | cons c cs ih =>
    intro n t t' hne h
    simp only [asksForRest] at h
    cases h with
    | call h1 h2 =>
      have := hs _ _ _ _ h1
      have := ih _ _ _ (fun d hd => hne d (by simp [hd])) h2
      simp only [List.flatten_cons, List.length_append]
      omega

/-- C21: if the transport never returns more than it is asked for, `readAll(sz)` returns exactly `sz`
bytes, never a short result, and has taken exactly those from the transport. -/
theorem readAll_exact {σ τ : Type} (step : Nat → τ → Option (Except Exc Bytes × τ)) (sz : Nat)
    (s s' : σ) (t t' : τ) (b : Bytes)
    (hs : ∀ n t c t', step n t = some (.ok c, t') → c.length ≤ n)
    (h : ((P.readAll sz : P σ Bytes) s).run step t = some ((.ok b, s'), t')) :
    b.length = sz ∧ ∃ pieces, b = pieces.flatten ∧ Session step t (asksForRest sz pieces) t' := by
  obtain ⟨-, pieces, hne, hcase⟩ := readAll_any_transport step sz s s' t t' _ h
  rcases hcase with ⟨hr, hlen, hsess⟩ | ⟨hr, -, -⟩ | ⟨e, hr, -, -⟩
  · injection hr with hr
    have := session_length hs pieces _ t t' hne hsess
    exact ⟨by rw [hr]; omega, pieces, hr, hsess⟩
  · cases hr
  · cases hr

/-- C21: `readAll` returns whenever the reads of the transport do. -/
theorem readAll_returns {σ τ : Type} (step : Nat → τ → Option (Except Exc Bytes × τ)) (sz : Int)
    (s : σ) (t : τ) (hs : ∀ n t, step n t ≠ none) :
    ((P.readAll sz : P σ Bytes) s).run step t ≠ none := by
  unfold P.readAll
  suffices h : ∀ f l buff t, l ≤ f → ((P.readAllLoop f l buff : P σ Bytes) s).run step t ≠ none from
    h _ _ _ _ (Nat.le_refl _)
  intro f
  induction f with
  | zero =>
    intro l buff t hl
    obtain rfl : l = 0 := by omega
    simp [P.readAllLoop, P.pure, Prog.run]
  | succ f ih =>
    intro l buff t hl
    cases l with
    | zero => simp [P.readAllLoop, P.pure, Prog.run]
    | succ l =>
      simp only [P.readAllLoop, P.bind, P.transRead, Prog.bind, Prog.run]
      cases h : step (l + 1) t with
      | none => exact absurd h (hs _ _)
      | some x =>
        obtain ⟨x, t1⟩ := x
        cases x with
        | error e => simp [Prog.run]
        | ok c =>
          simp only
          split
          · simp [P.raise, Prog.run]
          · exact ih _ _ _ (by omega)

/-- A transport that raises `OSError` after three bytes have been delivered one at a time. -/
def flaky (n : Nat) (t : Nat) : Option (Except Exc Bytes × Nat) :=
  if n = 0 then some (.ok [], t) else if t < 3 then some (.ok [7], t + 1) else some (.error .osError, t)

example : ∀ n t c t', flaky n t = some (.ok c, t') → c.length ≤ n := by
  intro n t c t' h
  unfold flaky at h
  split at h
  · cases h; simp
  · split at h
    · cases h; simp; omega
    · cases h
example : ((P.readAll 3 : P Unit Bytes) ()).run flaky 0 = some ((.ok [7, 7, 7], ()), 3) := rfl
example : ((P.readAll 4 : P Unit Bytes) ()).run flaky 0 = some ((.error .osError, ()), 3) := rfl

/-! ## C16: fragmentation -/

/-- What a call does over a transport in state `t` that delivers the stream `rest t`: it returns or
raises exactly what the same call returns or raises over a memory buffer holding the stream, the
protocol object ends up the same and the same bytes are left unread. (A call that does not return
over one does not return over the other.) -/
def SameAsMemory {σ α τ : Type} (m : P σ α) (s : σ) (step : Nat → τ → Option (Except Exc Bytes × τ))
    (rest : τ → Bytes) (t : τ) : Prop :=
  (∀ r b', exec m s (rest t) = some (r, b') →
    ∃ t', (m s).run step t = some (r, t') ∧ rest t' = b') ∧
  (exec m s (rest t) = none → (m s).run step t = none)

theorem SameAsMemory.of {σ α τ : Type} {m : P σ α} (h : Steady m) (s : σ)
    (step : Nat → τ → Option (Except Exc Bytes × τ)) (rest : τ → Bytes) (hd : Delivers step rest)
    (t : τ) : SameAsMemory m s step rest t := by
  have := h.any τ step rest hd s t
  constructor
  · intro r b' e
    rw [e] at this
    exact this
  · intro e
    rw [e] at this
    exact this

/-- C16, binary protocol: reading a value, skipping one and reading a message header, for any schema,
mode, limits and any bytes, well-formed or not. -/
theorem binary_fragmentation (cfg : Binary.Cfg) (sch : Schema) (mode : Mode) (fuel d : Nat) (ty : Ty)
    (tt : Int) (s : Binary.St) {τ : Type} (step : Nat → τ → Option (Except Exc Bytes × τ))
    (rest : τ → Bytes) (hd : Delivers step rest) (t : τ) :
    SameAsMemory (readVal (Binary.rd cfg) sch mode fuel ty) s step rest t ∧
    SameAsMemory (skip (Binary.rd cfg) fuel d tt) s step rest t ∧
    SameAsMemory (Binary.readMessageBegin cfg) s step rest t :=
  ⟨.of (readVal_steady (Binary.steadyOps cfg) sch mode fuel ty) s step rest hd t,
    .of (skip_steady (Binary.steadyOps cfg) fuel d tt) s step rest hd t,
    .of (Binary.readMessageBegin_steady cfg) s step rest hd t⟩

/-- C16, compact protocol. -/
theorem compact_fragmentation (cfg : Compact.Cfg) (sch : Schema) (mode : Mode) (fuel d : Nat) (ty : Ty)
    (tt : Int) (s : Compact.St) {τ : Type} (step : Nat → τ → Option (Except Exc Bytes × τ))
    (rest : τ → Bytes) (hd : Delivers step rest) (t : τ) :
    SameAsMemory (readVal (Compact.rd cfg) sch mode fuel ty) s step rest t ∧
    SameAsMemory (skip (Compact.rd cfg) fuel d tt) s step rest t ∧
    SameAsMemory (Compact.readMessageBegin cfg) s step rest t :=
  ⟨.of (readVal_steady (Compact.steadyOps cfg) sch mode fuel ty) s step rest hd t,
    .of (skip_steady (Compact.steadyOps cfg) fuel d tt) s step rest hd t,
    .of (Compact.readMessageBegin_steady cfg) s step rest hd t⟩

example : Delivers bytewise id := bytewise_delivers
example : Delivers memStep id := by
  intro n b
  refine ⟨b.take (n + 1), b.drop (n + 1), rfl, (List.take_append_drop _ b).symm, ?_, ?_⟩
  · simp; omega
  · cases b <;> simp

end Thrift
