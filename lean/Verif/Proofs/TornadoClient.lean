import Verif.Spec.TornadoClient
import Verif.Proofs.Twisted
/-
The invariant of a Tornado client.
-/

namespace Thrift.TornadoClient
open Spec.TornadoClient Rpc Twisted

theorem issued_append (a b : List Obs) : issued (a ++ b) = issued a ++ issued b := by simp [issued]
theorem resolutions_append (a b : List Obs) : resolutions (a ++ b) = resolutions a ++ resolutions b := by simp [resolutions]

structure Inv (s : St) (os : List Obs) : Prop where
  ids : (issued os).map (·.1) = List.range s.made
  seqs : ((issued os).map (·.2)).Pairwise (· < ·)
  last : ∀ e ∈ issued os, e.2 ≤ s.seqid
  reqs : (s.reqs.map Prod.swap).Sublist (issued os)
  done : ∀ d, d ∈ s.done ↔ d ∈ (resolutions os).map (·.1)
  once : ((resolutions os).map (·.1)).Nodup
  made : ∀ d ∈ s.done, d < s.made
  stopped : s.receiving = false ↔ Stopped os
  account : .stopped .hangs ∉ os → ∀ e ∈ issued os, e.swap ∈ s.reqs ∨ e.1 ∈ s.done

theorem inv_init : Inv {} [] := by
  constructor <;> simp [issued, resolutions, Stopped]

theorem Inv.idsNodup {s : St} {os : List Obs} (h : Inv s os) : ((issued os).map (·.1)).Nodup := by
  rw [h.ids]; exact List.nodup_range

theorem Inv.seqsNodup {s : St} {os : List Obs} (h : Inv s os) : ((issued os).map (·.2)).Nodup :=
  h.seqs.imp fun h => Nat.ne_of_lt h

theorem Inv.keys {s : St} {os : List Obs} (h : Inv s os) : (s.reqs.map (·.1)).Nodup := by
  have := (h.reqs.map (·.2)).nodup h.seqsNodup
  simpa [List.map_map, Function.comp_def] using this

theorem Inv.values {s : St} {os : List Obs} (h : Inv s os) : (s.reqs.map (·.2)).Nodup := by
  have := (h.reqs.map (·.1)).nodup h.idsNodup
  simpa [List.map_map, Function.comp_def] using this

theorem Inv.mem {s : St} {os : List Obs} (h : Inv s os) {e : Nat × Nat} (he : e ∈ s.reqs) : (e.2, e.1) ∈ issued os :=
  h.reqs.subset (List.mem_map.2 ⟨e, he, rfl⟩)

theorem Inv.fresh {s : St} {os : List Obs} (h : Inv s os) : ∀ e ∈ s.reqs, e.1 ≠ s.seqid + 1 := by
  intro e he h1
  have := h.last _ (h.mem he)
  simp only at this
  omega

theorem Inv.valueLt {s : St} {os : List Obs} (h : Inv s os) {e : Nat × Nat} (he : e ∈ s.reqs) : e.2 < s.made := by
  have := List.mem_map_of_mem (f := Prod.fst) (h.mem he)
  rw [h.ids] at this
  simpa using this

/-- A future is resolved. -/
theorem Inv.settle {s : St} {os : List Obs} (h : Inv s os) {d : Nat} (r : Resolved) (hd : d < s.made) (hn : d ∉ s.done) :
    Inv { s with done := d :: s.done } (os ++ [.resolved d r]) := by
  have hi : issued (os ++ [.resolved d r]) = issued os := by simp [issued_append, issued]
  have hf : (resolutions (os ++ [.resolved d r])).map (·.1) = (resolutions os).map (·.1) ++ [d] := by
    simp [resolutions_append, resolutions]
  refine ⟨by rw [hi]; exact h.ids, by rw [hi]; exact h.seqs, by rw [hi]; exact h.last, by rw [hi]; exact h.reqs, ?_, ?_, ?_, ?_, ?_⟩
  · intro d'
    rw [hf]
    simp [h.done d', or_comm]
  · rw [hf, List.nodup_append]
    refine ⟨h.once, by simp, ?_⟩
    intro a ha b hb hab
    simp at hb
    subst hb hab
    exact hn ((h.done _).2 ha)
  · intro d' hd'
    rcases List.mem_cons.1 hd' with h1 | h1
    · subst h1; exact hd
    · exact h.made d' h1
  · rw [h.stopped]
    simp [Stopped]
  · intro h2 e he
    rw [hi] at he
    rcases h.account (fun hx => h2 (by simp [hx])) e he with h3 | h3
    · exact .inl h3
    · exact .inr (by simp [h3])

/-- Entries are removed whose futures are resolved. -/
theorem Inv.remove {s : St} {os : List Obs} (h : Inv s os) {reqs' : List (Nat × Nat)} (hs : reqs'.Sublist s.reqs)
    (hc : ∀ e ∈ s.reqs, e ∈ reqs' ∨ e.2 ∈ s.done) : Inv { s with reqs := reqs' } os :=
  { h with
    reqs := (hs.map _).trans h.reqs
    account := fun h2 e he => by
      rcases h.account h2 e he with h3 | h3
      · rcases hc _ h3 with h4 | h4
        · exact .inl h4
        · exact .inr h4
      · exact .inr h3 }

/-- `_start_receiving` ends. -/
theorem Inv.stop {s : St} {os : List Obs} (h : Inv s os) (w : Stop) : Inv { s with receiving := false } (os ++ [.stopped w]) := by
  have hi : issued (os ++ [.stopped w]) = issued os := by simp [issued_append, issued]
  have hf : resolutions (os ++ [.stopped w]) = resolutions os := by simp [resolutions_append, resolutions]
  refine ⟨by rw [hi]; exact h.ids, by rw [hi]; exact h.seqs, by rw [hi]; exact h.last, by rw [hi]; exact h.reqs, by rw [hf]; exact h.done,
    by rw [hf]; exact h.once, h.made, ?_, ?_⟩
  · simp only [true_iff]
    exact ⟨w, by simp⟩
  · intro h2
    rw [hi]
    exact h.account fun hx => h2 (by simp [hx])

/-- `_start_receiving` hangs, after it has removed an entry. -/
theorem Inv.hang {s : St} {os : List Obs} (h : Inv s os) {reqs' : List (Nat × Nat)} (hs : reqs'.Sublist s.reqs) :
    Inv { s with reqs := reqs', receiving := false } (os ++ [.stopped .hangs]) :=
  { h.stop .hangs with
    reqs := (hs.map _).trans (h.stop .hangs).reqs
    account := fun h2 => (h2 (by simp)).elim }

/-- An observation that says nothing about futures. -/
theorem Inv.other {s : St} {os : List Obs} (h : Inv s os) {o : Obs} (h1 : ∀ d n, o ≠ .issued d n) (h2 : ∀ d r, o ≠ .resolved d r)
    (h3 : ∀ w, o ≠ .stopped w) : Inv s (os ++ [o]) := by
  have hi : issued (os ++ [o]) = issued os := by
    rw [issued_append]
    cases o <;> simp_all [issued]
  have hf : resolutions (os ++ [o]) = resolutions os := by
    rw [resolutions_append]
    cases o <;> simp_all [resolutions]
  refine ⟨by rw [hi]; exact h.ids, by rw [hi]; exact h.seqs, by rw [hi]; exact h.last, by rw [hi]; exact h.reqs, by rw [hf]; exact h.done,
    by rw [hf]; exact h.once, h.made, ?_, ?_⟩
  · rw [h.stopped]
    simp only [Stopped, List.mem_append, List.mem_singleton]
    constructor
    · rintro ⟨w, hw⟩; exact ⟨w, .inl hw⟩
    · rintro ⟨w, hw | hw⟩
      · exact ⟨w, hw⟩
      · exact (h3 w hw.symm).elim
  · intro h5
    rw [hi]
    exact h.account fun hx => h5 (by simp [hx])

/-- A oneway call. -/
theorem Inv.oneway {s : St} {os : List Obs} (h : Inv s os) (w : Bytes) : Inv { s with seqid := s.seqid + 1, wbuf := w } os :=
  { h with last := fun e he => Nat.le_succ_of_le (h.last e he) }

/-- Entering a new future. -/
theorem Inv.enter {s : St} {os : List Obs} (h : Inv s os) (w : Bytes) :
    Inv { s with seqid := s.seqid + 1, made := s.made + 1, reqs := s.reqs ++ [(s.seqid + 1, s.made)], wbuf := w }
      (os ++ [.issued s.made (s.seqid + 1)]) := by
  have hi : issued (os ++ [.issued s.made (s.seqid + 1)]) = issued os ++ [(s.made, s.seqid + 1)] := by
    simp [issued_append, issued]
  have hf : resolutions (os ++ [.issued s.made (s.seqid + 1)]) = resolutions os := by simp [resolutions_append, resolutions]
  refine ⟨?_, ?_, ?_, ?_, ?_, ?_, ?_, ?_, ?_⟩
  · rw [hi, List.map_append, h.ids, List.range_succ]; simp
  · rw [hi, List.map_append, List.pairwise_append]
    refine ⟨h.seqs, by simp, ?_⟩
    intro a ha b hb
    obtain ⟨e, he, rfl⟩ := List.mem_map.1 ha
    simp at hb
    have := h.last e he
    omega
  · rw [hi]
    intro e he
    rcases List.mem_append.1 he with h1 | h1
    · have := h.last e h1
      simp only
      omega
    · simp at h1
      subst h1
      simp
  · rw [hi, List.map_append]
    exact h.reqs.append (by simp)
  · rw [hf]; exact h.done
  · rw [hf]; exact h.once
  · intro d hd
    have := h.made d hd
    simp only
    omega
  · rw [h.stopped]
    simp [Stopped]
  · intro h2 e he
    rw [hi] at he
    rcases List.mem_append.1 he with h3 | h3
    · rcases h.account (fun hx => h2 (by simp [hx])) e h3 with h4 | h4
      · exact .inl (by simp [h4])
      · exact .inr h4
    · simp at h3
      subst h3
      exact .inl (by simp)

theorem inv_failAll (t : Int) : ∀ {l : List (Nat × Nat)} {s : St} {os : List Obs}, Inv s os → (∀ e ∈ l, e ∈ s.reqs) →
    (∀ e ∈ s.reqs, e ∈ l ∨ e.2 ∈ s.done) → Inv (St.failAll t l s).1 (os ++ (St.failAll t l s).2)
  | [], s, os, h, _, hc => by
    have := (h.remove (List.nil_sublist _) fun e he => .inr ((hc e he).resolve_left (by simp))).stop .closed
    exact this
  | e :: es, s, os, h, hl, hc => by
    unfold St.failAll
    by_cases hd : e.2 ∈ s.done
    · simp only [if_pos hd]
      exact h.stop _
    · simp only [if_neg hd]
      have := inv_failAll t (l := es) (h.settle (.lost t) (h.valueLt (hl e (by simp))) hd) (fun x hx => hl x (by simp [hx])) (by
        intro x hx
        rcases hc x hx with h1 | h1
        · rcases List.mem_cons.1 h1 with h2 | h2
          · exact .inr (by simp [h2])
          · exact .inl h2
        · exact .inr (by simp [h1]))
      simpa using this

section
variable {σ τ : Type} [HasDepth σ] [HasDepth τ]

theorem inv_call {env : Env σ τ} {s : St} {os : List Obs} (h : Inv s os) (fn : Fn) (args : List (Option Val)) (w : Option Tornado.Fail) :
    Inv (s.call env fn args w).1 (os ++ (s.call env fn args w).2) := by
  unfold St.call
  simp only [setItem_fresh h.fresh]
  cases fn.oneway with
  | true =>
    simp only [if_true, List.nil_append]
    split
    · exact (h.oneway _).other (by simp) (by simp) (by simp)
    · split
      · exact (h.oneway _).other (by simp) (by simp) (by simp)
      · rename_i b _ _
        have := ((h.oneway []).other (o := .string b) (by simp) (by simp) (by simp)).other (o := .returned) (by simp) (by simp) (by simp)
        simpa using this
  | false =>
    simp only [Bool.false_eq_true, if_false, List.cons_append, List.nil_append]
    split
    · rename_i e _ b _
      have := (h.enter b).other (o := .refused e) (by simp) (by simp) (by simp)
      simpa using this
    · rename_i b _
      cases w with
      | some f =>
        have := (h.enter []).other (o := .refused f.exc) (by simp) (by simp) (by simp)
        simpa using this
      | none =>
        have := ((h.enter []).other (o := .string b) (by simp) (by simp) (by simp)).other (o := .returned) (by simp) (by simp) (by simp)
        simpa using this

theorem inv_resolve {s : St} {os : List Obs} (h : Inv s os) {reqs' : List (Nat × Nat)} (hs : reqs'.Sublist s.reqs) {e : Nat × Nat}
    (he : e ∈ s.reqs) (hc : ∀ x ∈ s.reqs, x = e ∨ x ∈ reqs') (r : Resolved) :
    Inv ({ s with reqs := reqs' }.resolve e.2 r).1 (os ++ ({ s with reqs := reqs' }.resolve e.2 r).2) := by
  unfold St.resolve
  by_cases hd : e.2 ∈ s.done
  · simp only [if_pos hd]
    refine (h.remove hs fun x hx => ?_).stop _
    rcases hc x hx with h1 | h1
    · exact .inr (h1 ▸ hd)
    · exact .inl h1
  · simp only [if_neg hd]
    refine (h.settle r (h.valueLt he) hd).remove hs fun x hx => ?_
    rcases hc x hx with h1 | h1
    · exact .inr (by simp [h1])
    · exact .inl h1

omit [HasDepth τ] in
theorem inv_frame {env : Env σ τ} {s : St} {os : List Obs} (h : Inv s os) (b : Bytes) :
    Inv (s.frame env b).1 (os ++ (s.frame env b).2) := by
  unfold St.frame
  split
  · exact h.stop _
  · exact h.stop _
  · rename_i m i rest _
    split
    · exact h.stop _
    · rename_i fn _
      split
      · rw [List.append_nil]; exact h
      · rename_i e he
        obtain ⟨h1, _⟩ := getItem_mem he
        obtain ⟨h2, h3, h4⟩ := delItem_props h.keys h1
        simp only
        split
        · exact h.hang h2
        · exact inv_resolve h h2 h1 h3 _
        · exact inv_resolve h h2 h1 h3 _

theorem inv_fail {s : St} {os : List Obs} (h : Inv s os) (e : Exc) : Inv (s.fail e).1 (os ++ (s.fail e).2) := by
  unfold St.fail
  split
  · exact inv_failAll _ h (fun e he => he) fun e he => .inl he
  · exact h.stop _

theorem inv_step {env : Env σ τ} {s s' : St} {os o : List Obs} {e : Event} (h : Inv s os) (hs : s.step env e = some (s', o)) :
    Inv s' (os ++ o) := by
  cases e with
  | call fn args w => simp only [St.step, Option.some.injEq] at hs; have := inv_call (env := env) h fn args w; rw [hs] at this; exact this
  | cancel d =>
    simp only [St.step] at hs
    split at hs
    · rename_i hd
      split at hs
      · cases hs
        rw [List.append_nil]
        exact h
      · rename_i hn
        cases hs
        exact h.settle _ hd hn
    · cases hs
  | frame b =>
    simp only [St.step] at hs
    split at hs
    · simp only [Option.some.injEq] at hs
      have := inv_frame (env := env) h b
      rw [hs] at this
      exact this
    · cases hs
  | fail e =>
    simp only [St.step] at hs
    split at hs
    · simp only [Option.some.injEq] at hs
      have := inv_fail h e
      rw [hs] at this
      exact this
    · cases hs

theorem run_cons {env : Env σ τ} {s s' : St} {e : Event} {es : List Event} {os : List Obs} (h : s.run env (e :: es) = some (s', os)) :
    ∃ s₁ o os', s.step env e = some (s₁, o) ∧ s₁.run env es = some (s', os') ∧ os = o ++ os' := by
  simp only [St.run] at h
  cases h1 : s.step env e with
  | none => rw [h1] at h; cases h
  | some r =>
    rw [h1] at h
    simp only at h
    cases h2 : r.1.run env es with
    | none => rw [h2] at h; cases h
    | some r' =>
      rw [h2] at h
      cases h
      exact ⟨r.1, r.2, r'.2, rfl, h2, rfl⟩

theorem inv_run {env : Env σ τ} : ∀ {es : List Event} {s s' : St} {os₀ os : List Obs}, Inv s os₀ → s.run env es = some (s', os) →
    Inv s' (os₀ ++ os)
  | [], s, s', os₀, os, h, hr => by
    cases hr
    rw [List.append_nil]
    exact h
  | e :: es, s, s', os₀, os, h, hr => by
    obtain ⟨s₁, o, os', h1, h2, rfl⟩ := run_cons hr
    rw [← List.append_assoc]
    exact inv_run (inv_step h h1) h2

/-- While `_start_receiving` runs, only cancelled futures are done and in `_reqs`. -/
def Canc (s : St) (os : List Obs) : Prop :=
  s.receiving = true → ∀ e ∈ s.reqs, e.2 ∈ s.done → (e.2, .cancelled) ∈ resolutions os

theorem canc_init : Canc {} [] := by
  intro _ e he
  cases he

theorem failAll_receiving (t : Int) : ∀ (l : List (Nat × Nat)) (s : St), (St.failAll t l s).1.receiving = false
  | [], _ => rfl
  | e :: es, s => by
    unfold St.failAll
    split
    · rfl
    · exact failAll_receiving t es _

theorem canc_step {env : Env σ τ} {s s' : St} {os o : List Obs} {e : Event} (hi : Inv s os) (h : Canc s os)
    (hs : s.step env e = some (s', o)) : Canc s' (os ++ o) := by
  have mono : ∀ {x}, x ∈ resolutions os → x ∈ resolutions (os ++ o) := fun hx => by simp [resolutions_append, hx]
  cases e with
  | call fn args w =>
    simp only [St.step, Option.some.injEq] at hs
    have key : s'.receiving = s.receiving ∧ s'.done = s.done ∧ (s'.reqs = s.reqs ∨ s'.reqs = s.reqs ++ [(s.seqid + 1, s.made)]) := by
      rw [show s' = (s.call env fn args w).1 by rw [hs]]
      unfold St.call
      simp only [setItem_fresh hi.fresh]
      cases fn.oneway with
      | true =>
        simp only [if_true]
        split
        · exact ⟨rfl, rfl, .inl rfl⟩
        · split <;> exact ⟨rfl, rfl, .inl rfl⟩
      | false =>
        simp only [Bool.false_eq_true, if_false]
        split
        · exact ⟨rfl, rfl, .inr rfl⟩
        · split <;> exact ⟨rfl, rfl, .inr rfl⟩
    intro hr e he hd
    rw [key.1] at hr
    rw [key.2.1] at hd
    rcases key.2.2 with h1 | h1
    · rw [h1] at he
      exact mono (h hr e he hd)
    · rw [h1] at he
      rcases List.mem_append.1 he with h2 | h2
      · exact mono (h hr e h2 hd)
      · simp at h2
        subst h2
        have := hi.made _ hd
        simp at this
  | cancel d =>
    simp only [St.step] at hs
    split at hs
    · split at hs
      · cases hs
        rw [List.append_nil]
        exact h
      · cases hs
        intro hr e he hd
        rcases List.mem_cons.1 hd with h1 | h1
        · rw [resolutions_append, h1]
          simp [resolutions]
        · exact mono (h hr e he h1)
    · cases hs
  | fail e =>
    simp only [St.step] at hs
    split at hs
    · simp only [Option.some.injEq] at hs
      intro hr
      rw [show s' = (s.fail e).1 by rw [hs]] at hr
      unfold St.fail at hr
      split at hr
      · rw [failAll_receiving] at hr
        cases hr
      · cases hr
    · cases hs
  | frame b =>
    simp only [St.step] at hs
    split at hs
    · rename_i hrec
      simp only [Option.some.injEq] at hs
      have key : s'.receiving = false ∨ (s' = s) ∨ ∃ e ∈ s.reqs, s'.reqs = delItem e.1 s.reqs ∧ s'.done = e.2 :: s.done := by
        rw [show s' = (s.frame env b).1 by rw [hs]]
        unfold St.frame
        split
        · exact .inl rfl
        · exact .inl rfl
        · split
          · exact .inl rfl
          · split
            · exact .inr (.inl rfl)
            · rename_i e he
              have h1 := (getItem_mem he).1
              dsimp only
              split
              · exact .inl rfl
              · unfold St.resolve
                split
                · exact .inl rfl
                · exact .inr (.inr ⟨e, h1, rfl, rfl⟩)
              · unfold St.resolve
                split
                · exact .inl rfl
                · exact .inr (.inr ⟨e, h1, rfl, rfl⟩)
      intro hr
      rcases key with h1 | h1 | ⟨e, h1, h2, h3⟩
      · rw [h1] at hr; cases hr
      · subst h1
        exact fun e he hd => mono (h hr e he hd)
      · intro x hx hd
        rw [h2] at hx
        rw [h3] at hd
        have hx' : x ∈ s.reqs := (List.mem_filter.1 hx).1
        have hne : x.1 ≠ e.1 := by simpa using (List.mem_filter.1 hx).2
        rcases List.mem_cons.1 hd with h4 | h4
        · have hv := hi.values
          rw [List.nodup_map_iff_inj_on (List.Nodup.of_map _ hv)] at hv
          exact (hne (by rw [hv x hx' e h1 h4])).elim
        · exact mono (h hrec x hx' h4)
    · cases hs

theorem canc_run {env : Env σ τ} : ∀ {es : List Event} {s s' : St} {os₀ os : List Obs}, Inv s os₀ → Canc s os₀ →
    s.run env es = some (s', os) → Canc s' (os₀ ++ os)
  | [], s, s', os₀, os, _, h, hr => by
    cases hr
    rw [List.append_nil]
    exact h
  | e :: es, s, s', os₀, os, hi, h, hr => by
    obtain ⟨s₁, o, os', h1, h2, rfl⟩ := run_cons hr
    rw [← List.append_assoc]
    exact canc_run (inv_step hi h1) (canc_step hi h h1) h2

end
end Thrift.TornadoClient
