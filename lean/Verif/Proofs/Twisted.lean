import Verif.Spec.Twisted
import Verif.Proofs.Exec
import Mathlib.Data.List.Nodup
/-
The invariant of a Twisted client.
-/

namespace Thrift.Twisted
open Spec.Twisted Rpc

theorem issued_append (a b : List Obs) : issued (a ++ b) = issued a ++ issued b := by simp [issued]
theorem firings_append (a b : List Obs) : firings (a ++ b) = firings a ++ firings b := by simp [firings]

theorem setItem_fresh {k v : Nat} : ∀ {m : List (Nat × Nat)}, (∀ e ∈ m, e.1 ≠ k) → setItem k v m = m ++ [(k, v)]
  | [], _ => rfl
  | (k', v') :: m, h => by
    have h1 : k' ≠ k := h (k', v') (by simp)
    simp only [setItem, if_neg h1, List.cons_append]
    rw [setItem_fresh fun e he => h e (by simp [he])]

theorem delItem_fresh {k v : Nat} {m : List (Nat × Nat)} (h : ∀ e ∈ m, e.1 ≠ k) : delItem k (m ++ [(k, v)]) = m := by
  simp only [delItem, List.filter_append]
  rw [List.filter_eq_self.2 (by simpa using fun a b hab => h (a, b) hab)]
  simp

structure Inv (s : St) (os : List Obs) : Prop where
  ids : (issued os).map (·.1) = List.range s.made
  seqs : ((issued os).map (·.2)).Pairwise (· < ·)
  last : ∀ e ∈ issued os, e.2 ≤ s.seqid
  reqs : (s.reqs.map Prod.swap).Sublist (issued os)
  called : ∀ d, d ∈ s.called ↔ d ∈ (firings os).map (·.1)
  once : ((firings os).map (·.1)).Nodup
  supp : ∀ e ∈ s.reqs, e.2 ∈ s.called → e.2 ∈ s.suppress
  made : ∀ d ∈ s.called, d < s.made
  already : ∀ d, .already d ∉ os
  gone : s.phase = .gone → s.reqs = []
  account : (∀ e, .raised e ∉ os) → .hangs ∉ os → ∀ e ∈ issued os, e.swap ∈ s.reqs ∨ e.1 ∈ s.called

theorem inv_init : Inv {} [] := by
  constructor <;> simp [issued, firings]

theorem Inv.idsNodup {s : St} {os : List Obs} (h : Inv s os) : ((issued os).map (·.1)).Nodup := by
  rw [h.ids]; exact List.nodup_range

theorem Inv.seqsNodup {s : St} {os : List Obs} (h : Inv s os) : ((issued os).map (·.2)).Nodup :=
  h.seqs.imp fun h => Nat.ne_of_lt h

theorem Inv.keys {s : St} {os : List Obs} (h : Inv s os) : (s.reqs.map (·.1)).Nodup := by
  have := (h.reqs.map (·.2)).nodup h.seqsNodup
  simpa [List.map_map, Function.comp_def] using this

theorem Inv.values {s : St} {os : List Obs} (h : Inv s os) : (s.reqs.map (·.2)).Nodup := by
  have := (h.reqs.map (·.1)).nodup h.idsNodup
  simpa [List.map_map, Function.comp_def] using this

theorem Inv.mem {s : St} {os : List Obs} (h : Inv s os) {e : Nat × Nat} (he : e ∈ s.reqs) : (e.2, e.1) ∈ issued os :=
  h.reqs.subset (List.mem_map.2 ⟨e, he, rfl⟩)

theorem Inv.fresh {s : St} {os : List Obs} (h : Inv s os) : ∀ e ∈ s.reqs, e.1 ≠ s.seqid + 1 := by
  intro e he h1
  have := h.last _ (h.mem he)
  simp only at this
  omega

theorem Inv.valueLt {s : St} {os : List Obs} (h : Inv s os) {e : Nat × Nat} (he : e ∈ s.reqs) : e.2 < s.made := by
  have := List.mem_map_of_mem (f := Prod.fst) (h.mem he)
  rw [h.ids] at this
  simpa using this

/-- Firing a `Deferred` that is not in `_reqs`. -/
theorem Inv.fire {s : St} {os : List Obs} (h : Inv s os) {d : Nat} (r : Fired) (hd : d < s.made)
    (hr : ∀ e ∈ s.reqs, e.2 ≠ d) (hs : d ∈ s.called → d ∈ s.suppress) :
    Inv (s.fire d r).1 (os ++ (s.fire d r).2) := by
  unfold St.fire
  by_cases hc : d ∈ s.called
  · simp only [if_pos hc, if_pos (hs hc), List.append_nil]
    refine { h with supp := ?_ }
    intro e he hec
    have := h.supp e he hec
    simp [this, hr e he]
  · simp only [if_neg hc]
    have hi : issued (os ++ [.fired d r]) = issued os := by simp [issued_append, issued]
    have hf : (firings (os ++ [.fired d r])).map (·.1) = (firings os).map (·.1) ++ [d] := by
      simp [firings_append, firings]
    refine ⟨by rw [hi]; exact h.ids, by rw [hi]; exact h.seqs, by rw [hi]; exact h.last, by rw [hi]; exact h.reqs, ?_, ?_, ?_, ?_, ?_,
      h.gone, ?_⟩
    · intro d'
      rw [hf]
      simp [h.called d', or_comm]
    · rw [hf, List.nodup_append]
      refine ⟨h.once, by simp, ?_⟩
      intro a ha b hb hab
      simp at hb
      subst hb hab
      exact hc ((h.called _).2 ha)
    · intro e he hec
      rcases List.mem_cons.1 hec with h1 | h1
      · exact (hr e he h1).elim
      · exact h.supp e he h1
    · intro d' hd'
      rcases List.mem_cons.1 hd' with h1 | h1
      · subst h1; exact hd
      · exact h.made d' h1
    · intro d' hd'
      simp at hd'
      exact h.already d' hd'
    · intro h1 h2 e he
      rw [hi] at he
      rcases h.account (fun x hx => h1 x (by simp [hx])) (fun hx => h2 (by simp [hx])) e he with h3 | h3
      · exact .inl h3
      · exact .inr (by simp [h3])

/-- Entering a new `Deferred`. -/
theorem Inv.enter {s : St} {os : List Obs} (h : Inv s os) (hp : s.phase ≠ .gone) (w : Bytes) :
    Inv { s with seqid := s.seqid + 1, made := s.made + 1, reqs := s.reqs ++ [(s.seqid + 1, s.made)], wbuf := w }
      (os ++ [.issued s.made (s.seqid + 1)]) := by
  have hi : issued (os ++ [.issued s.made (s.seqid + 1)]) = issued os ++ [(s.made, s.seqid + 1)] := by
    simp [issued_append, issued]
  have hf : firings (os ++ [.issued s.made (s.seqid + 1)]) = firings os := by simp [firings_append, firings]
  refine ⟨?_, ?_, ?_, ?_, ?_, ?_, ?_, ?_, ?_, fun h => (hp h).elim, ?_⟩
  · rw [hi, List.map_append, h.ids, List.range_succ]; simp
  · rw [hi, List.map_append, List.pairwise_append]
    refine ⟨h.seqs, by simp, ?_⟩
    intro a ha b hb
    obtain ⟨e, he, rfl⟩ := List.mem_map.1 ha
    simp at hb
    have := h.last e he
    omega
  · rw [hi]
    intro e he
    rcases List.mem_append.1 he with h1 | h1
    · have := h.last e h1
      simp only
      omega
    · simp at h1
      subst h1
      simp
  · rw [hi, List.map_append]
    exact h.reqs.append (by simp)
  · rw [hf]; exact h.called
  · rw [hf]; exact h.once
  · intro e he hec
    rcases List.mem_append.1 he with h1 | h1
    · exact h.supp e h1 hec
    · simp at h1
      subst h1
      have := h.made _ hec
      simp at this
  · intro d hd
    have := h.made d hd
    simp only
    omega
  · intro d hd
    simp at hd
    exact h.already d hd
  · intro h1 h2 e he
    rw [hi] at he
    rcases List.mem_append.1 he with h3 | h3
    · rcases h.account (fun x hx => h1 x (by simp [hx])) (fun hx => h2 (by simp [hx])) e h3 with h4 | h4
      · exact .inl (by simp [h4])
      · exact .inr h4
    · simp at h3
      subst h3
      exact .inl (by simp)

/-- Removing an entry: it has to be fired next, or an exception to be seen. -/
theorem Inv.remove {s : St} {os : List Obs} (h : Inv s os) {reqs' : List (Nat × Nat)} (hs : reqs'.Sublist s.reqs) :
    (∀ e ∈ s.reqs, e ∈ reqs' ∨ e.2 ∈ s.called) → Inv { s with reqs := reqs' } os := fun hc =>
  { h with
    reqs := (hs.map _).trans h.reqs
    supp := fun e he => h.supp e (hs.subset he)
    gone := fun hp => by
      have := h.gone hp
      rw [this] at hs
      exact List.sublist_nil.1 hs
    account := fun h1 h2 e he => by
      rcases h.account h1 h2 e he with h3 | h3
      · rcases hc _ h3 with h4 | h4
        · exact .inl h4
        · exact .inr h4
      · exact .inr h3 }

/-- An observation that says nothing about `Deferred`s. -/
theorem Inv.other {s : St} {os : List Obs} (h : Inv s os) {o : Obs} (h1 : ∀ d n, o ≠ .issued d n) (h2 : ∀ d r, o ≠ .fired d r)
    (h3 : ∀ d, o ≠ .already d) : Inv s (os ++ [o]) := by
  have hi : issued (os ++ [o]) = issued os := by
    rw [issued_append]
    cases o <;> simp_all [issued]
  have hf : firings (os ++ [o]) = firings os := by
    rw [firings_append]
    cases o <;> simp_all [firings]
  refine ⟨by rw [hi]; exact h.ids, by rw [hi]; exact h.seqs, by rw [hi]; exact h.last, by rw [hi]; exact h.reqs, by rw [hf]; exact h.called,
    by rw [hf]; exact h.once, h.supp, h.made, ?_, h.gone, ?_⟩
  · intro d hd
    rcases List.mem_append.1 hd with h4 | h4
    · exact h.already d h4
    · simp at h4
      exact h3 d h4.symm
  · intro h4 h5
    rw [hi]
    exact h.account (fun x hx => h4 x (by simp [hx])) (fun hx => h5 (by simp [hx]))

/-- `stringReceived` raises or hangs after it has removed an entry. -/
theorem Inv.drop {s : St} {os : List Obs} (h : Inv s os) {reqs' : List (Nat × Nat)} (hs : reqs'.Sublist s.reqs) {o : Obs}
    (ho : (∃ e, o = .raised e) ∨ o = .hangs) : Inv { s with reqs := reqs' } (os ++ [o]) := by
  have hi : issued (os ++ [o]) = issued os := by
    rw [issued_append]
    rcases ho with ⟨e, rfl⟩ | rfl <;> simp [issued]
  have hf : firings (os ++ [o]) = firings os := by
    rw [firings_append]
    rcases ho with ⟨e, rfl⟩ | rfl <;> simp [firings]
  refine ⟨by rw [hi]; exact h.ids, by rw [hi]; exact h.seqs, by rw [hi]; exact h.last, ?_, by rw [hf]; exact h.called,
    by rw [hf]; exact h.once, fun e he => h.supp e (hs.subset he), h.made, ?_, ?_, ?_⟩
  · rw [hi]; exact (hs.map _).trans h.reqs
  · intro d hd
    rcases List.mem_append.1 hd with h4 | h4
    · exact h.already d h4
    · rcases ho with ⟨e, rfl⟩ | rfl <;> simp at h4
  · intro hp
    have := h.gone hp
    simp only at this ⊢
    rw [this] at hs
    exact List.sublist_nil.1 hs
  · intro h4 h5
    rcases ho with ⟨e, rfl⟩ | rfl
    · exact (h4 e (by simp)).elim
    · exact (h5 (by simp)).elim

/-- Removing an entry and firing its `Deferred`. -/
theorem Inv.removeFire {s : St} {os : List Obs} (h : Inv s os) {reqs' : List (Nat × Nat)} (hs : reqs'.Sublist s.reqs) {e : Nat × Nat}
    (he : e ∈ s.reqs) (hc : ∀ x ∈ s.reqs, x = e ∨ x ∈ reqs') (hn : e ∉ reqs') (r : Fired) :
    Inv ({ s with reqs := reqs' }.fire e.2 r).1 (os ++ ({ s with reqs := reqs' }.fire e.2 r).2) := by
  have hne : ∀ x ∈ reqs', x.2 ≠ e.2 := by
    intro x hx h1
    have hv := h.values
    rw [List.nodup_map_iff_inj_on (List.Nodup.of_map _ hv)] at hv
    have := hv x (hs.subset hx) e he h1
    subst this
    exact hn hx
  by_cases hec : e.2 ∈ s.called
  · refine (h.remove hs ?_).fire r (h.valueLt he) hne (fun _ => h.supp e he hec)
    intro x hx
    rcases hc x hx with h1 | h1
    · subst h1; exact .inr hec
    · exact .inl h1
  · -- fire first, then remove
    have hfire : ({ s with reqs := reqs' }.fire e.2 r) = ({ s with reqs := reqs', called := e.2 :: s.called }, [.fired e.2 r]) := by
      simp [St.fire, hec]
    rw [hfire]
    have hi : issued (os ++ [.fired e.2 r]) = issued os := by simp [issued_append, issued]
    have hf : (firings (os ++ [.fired e.2 r])).map (·.1) = (firings os).map (·.1) ++ [e.2] := by
      simp [firings_append, firings]
    refine ⟨by rw [hi]; exact h.ids, by rw [hi]; exact h.seqs, by rw [hi]; exact h.last, ?_, ?_, ?_, ?_, ?_, ?_, ?_, ?_⟩
    · rw [hi]; exact (hs.map _).trans h.reqs
    · intro d'
      rw [hf]
      simp [h.called d', or_comm]
    · rw [hf, List.nodup_append]
      refine ⟨h.once, by simp, ?_⟩
      intro a ha b hb hab
      simp at hb
      subst hb hab
      exact hec ((h.called _).2 ha)
    · intro x hx hxc
      rcases List.mem_cons.1 hxc with h1 | h1
      · exact (hne x hx h1).elim
      · exact h.supp x (hs.subset hx) h1
    · intro d' hd'
      rcases List.mem_cons.1 hd' with h1 | h1
      · subst h1; exact h.valueLt he
      · exact h.made d' h1
    · intro d' hd'
      simp at hd'
      exact h.already d' hd'
    · intro hp
      have := h.gone hp
      simp only at this ⊢
      rw [this] at hs
      exact List.sublist_nil.1 hs
    · intro h1 h2 x hx
      rw [hi] at hx
      rcases h.account (fun y hy => h1 y (by simp [hy])) (fun hy => h2 (by simp [hy])) x hx with h3 | h3
      · rcases hc _ h3 with h4 | h4
        · refine .inr ?_
          have : x.1 = e.2 := by rw [← h4]; rfl
          simp [this]
        · exact .inl h4
      · exact .inr (by simp [h3])

theorem getItem_mem {k : Int} {m : List (Nat × Nat)} {e : Nat × Nat} (h : getItem k m = some e) : e ∈ m ∧ (e.1 : Int) = k := by
  have h1 := List.mem_of_find?_eq_some h
  have h2 := List.find?_some h
  exact ⟨h1, by simpa using h2⟩

theorem delItem_props {m : List (Nat × Nat)} {e : Nat × Nat} (hk : (m.map (·.1)).Nodup) (he : e ∈ m) :
    (delItem e.1 m).Sublist m ∧ (∀ x ∈ m, x = e ∨ x ∈ delItem e.1 m) ∧ e ∉ delItem e.1 m := by
  refine ⟨List.filter_sublist, ?_, by simp [delItem]⟩
  intro x hx
  by_cases h : x.1 = e.1
  · rw [List.nodup_map_iff_inj_on (List.Nodup.of_map _ hk)] at hk
    exact .inl (hk x hx e he h)
  · exact .inr (by simp [delItem, hx, h])

theorem dropLast_props {m : List (Nat × Nat)} {e : Nat × Nat} (hk : (m.map (·.1)).Nodup) (he : m.getLast? = some e) :
    m.dropLast.Sublist m ∧ (∀ x ∈ m, x = e ∨ x ∈ m.dropLast) ∧ e ∉ m.dropLast := by
  obtain ⟨ys, rfl⟩ := List.getLast?_eq_some_iff.1 he
  simp only [List.dropLast_concat]
  refine ⟨by simp, ?_, ?_⟩
  · intro x hx
    simpa [or_comm] using hx
  · intro h
    rw [List.map_append, List.nodup_append] at hk
    exact hk.2.2 e.1 (List.mem_map_of_mem h) e.1 (by simp) rfl

section
variable {σ τ : Type} [HasDepth σ] [HasDepth τ]

theorem inv_call {env : Env σ τ} {s : St} {os : List Obs} (h : Inv s os) (fn : Fn) (args : List (Option Val)) :
    Inv (s.call env fn args).1 (os ++ (s.call env fn args).2) := by
  unfold St.call
  by_cases hp : s.phase = .gone
  · simp only [if_pos hp]
    have : Inv { s with seqid := s.seqid + 1 } os := { h with last := fun e he => Nat.le_succ_of_le (h.last e he) }
    exact this.other (by simp) (by simp) (by simp)
  · simp only [if_neg hp, setItem_fresh h.fresh, delItem_fresh h.fresh]
    have fin : ∀ (w : Bytes) (r : Fired) (os' : List Obs),
        Inv { s with seqid := s.seqid + 1, made := s.made + 1, reqs := s.reqs ++ [(s.seqid + 1, s.made)], wbuf := w } os' →
        Inv ({ s with seqid := s.seqid + 1, made := s.made + 1, reqs := s.reqs, wbuf := w }.fire s.made r).1
          (os' ++ ({ s with seqid := s.seqid + 1, made := s.made + 1, reqs := s.reqs, wbuf := w }.fire s.made r).2) := by
      intro w r os' h'
      have := h'.removeFire (reqs' := s.reqs) (e := (s.seqid + 1, s.made)) (by simp) (by simp)
        (by intro x hx; simpa [or_comm] using hx) (fun hm => h.fresh _ hm rfl) r
      exact this
    split
    · rename_i e _ b _
      have := fin b (.unsent e) _ (h.enter hp b)
      simpa using this
    · rename_i b _
      split
      · have := fin [] .sent _ ((h.enter hp []).other (o := .string b) (by simp) (by simp) (by simp))
        simpa using this
      · have := (h.enter hp []).other (o := .string b) (by simp) (by simp) (by simp)
        simpa using this

theorem inv_frame {env : Env σ τ} {s : St} {os : List Obs} (h : Inv s os) (b : Bytes) :
    Inv (s.frame env b).1 (os ++ (s.frame env b).2) := by
  unfold St.frame
  split
  · exact h.other (by simp) (by simp) (by simp)
  · exact h.other (by simp) (by simp) (by simp)
  · rename_i m i rest _
    split
    · exact h.other (by simp) (by simp) (by simp)
    · rename_i fn _
      split
      · exact h.other (by simp) (by simp) (by simp)
      · rename_i e he
        obtain ⟨h1, _⟩ := getItem_mem he
        obtain ⟨h2, h3, h4⟩ := delItem_props h.keys h1
        simp only
        split
        · exact h.drop h2 (.inr rfl)
        · exact h.drop h2 (.inl ⟨_, rfl⟩)
        · exact h.removeFire h2 h1 h3 h4 _

theorem inv_pop {s : St} {os : List Obs} (h : Inv s os) : Inv s.pop.1 (os ++ s.pop.2) := by
  unfold St.pop
  split
  · rename_i hn
    rw [List.getLast?_eq_none_iff] at hn
    rw [List.append_nil]
    exact { h with gone := fun _ => hn }
  · rename_i e he
    obtain ⟨h2, h3, h4⟩ := dropLast_props h.keys he
    exact h.removeFire h2 (List.mem_of_getLast? he) h3 h4 _

theorem inv_cancel {s : St} {os : List Obs} (h : Inv s os) {d : Nat} (hd : d < s.made) : Inv (s.cancel d).1 (os ++ (s.cancel d).2) := by
  unfold St.cancel
  by_cases hc : d ∈ s.called
  · simp only [if_pos hc, List.append_nil]; exact h
  · simp only [if_neg hc, St.fire]
    have hi : issued (os ++ [.fired d .cancelled]) = issued os := by simp [issued_append, issued]
    have hf : (firings (os ++ [.fired d .cancelled])).map (·.1) = (firings os).map (·.1) ++ [d] := by
      simp [firings_append, firings]
    refine ⟨by rw [hi]; exact h.ids, by rw [hi]; exact h.seqs, by rw [hi]; exact h.last, by rw [hi]; exact h.reqs, ?_, ?_, ?_, ?_, ?_,
      h.gone, ?_⟩
    · intro d'
      rw [hf]
      simp [h.called d', or_comm]
    · rw [hf, List.nodup_append]
      refine ⟨h.once, by simp, ?_⟩
      intro a ha b hb hab
      simp at hb
      subst hb hab
      exact hc ((h.called _).2 ha)
    · intro e he hec
      rcases List.mem_cons.1 hec with h1 | h1
      · exact List.mem_cons.2 (.inl h1)
      · exact List.mem_cons.2 (.inr (h.supp e he h1))
    · intro d' hd'
      rcases List.mem_cons.1 hd' with h1 | h1
      · subst h1; exact hd
      · exact h.made d' h1
    · intro d' hd'
      simp at hd'
      exact h.already d' hd'
    · intro h1 h2 e he
      rw [hi] at he
      rcases h.account (fun x hx => h1 x (by simp [hx])) (fun hx => h2 (by simp [hx])) e he with h3 | h3
      · exact .inl h3
      · exact .inr (by simp [h3])

theorem inv_step {env : Env σ τ} {s s' : St} {os o : List Obs} {e : Event} (h : Inv s os) (hs : s.step env e = some (s', o)) :
    Inv s' (os ++ o) := by
  cases e with
  | call fn args => simp only [St.step, Option.some.injEq] at hs; have := inv_call (env := env) h fn args; rw [hs] at this; exact this
  | cancel d =>
    simp only [St.step] at hs
    split at hs
    · rename_i hd
      simp only [Option.some.injEq] at hs
      have := inv_cancel h hd
      rw [hs] at this
      exact this
    · cases hs
  | frame b =>
    simp only [St.step] at hs
    split at hs
    · simp only [Option.some.injEq] at hs
      have := inv_frame (env := env) h b
      rw [hs] at this
      exact this
    · cases hs
  | lose =>
    simp only [St.step] at hs
    split at hs
    · simp only [Option.some.injEq, Prod.mk.injEq] at hs
      obtain ⟨rfl, rfl⟩ := hs
      rw [List.append_nil]
      exact { h with gone := fun h => by cases h }
    · cases hs
  | pop =>
    simp only [St.step] at hs
    split at hs
    · simp only [Option.some.injEq] at hs
      have := inv_pop h
      rw [hs] at this
      exact this
    · cases hs

theorem run_cons {env : Env σ τ} {s s' : St} {e : Event} {es : List Event} {os : List Obs} (h : s.run env (e :: es) = some (s', os)) :
    ∃ s₁ o os', s.step env e = some (s₁, o) ∧ s₁.run env es = some (s', os') ∧ os = o ++ os' := by
  simp only [St.run] at h
  cases h1 : s.step env e with
  | none => rw [h1] at h; cases h
  | some r =>
    rw [h1] at h
    simp only at h
    cases h2 : r.1.run env es with
    | none => rw [h2] at h; cases h
    | some r' =>
      rw [h2] at h
      cases h
      exact ⟨r.1, r.2, r'.2, rfl, h2, rfl⟩

theorem inv_run {env : Env σ τ} : ∀ {es : List Event} {s s' : St} {os₀ os : List Obs}, Inv s os₀ → s.run env es = some (s', os) →
    Inv s' (os₀ ++ os)
  | [], s, s', os₀, os, h, hr => by
    cases hr
    rw [List.append_nil]
    exact h
  | e :: es, s, s', os₀, os, h, hr => by
    obtain ⟨s₁, o, os', h1, h2, rfl⟩ := run_cons hr
    rw [← List.append_assoc]
    exact inv_run (inv_step h h1) h2

end
end Thrift.Twisted
