import Verif.Spec.FrozenDict
import Mathlib.Data.List.Perm.Basic
import Mathlib.Data.List.Perm.Subperm
/-
C46: equality and hashes of `TFrozenDict`; C57: what can change one.
-/

namespace Thrift.FrozenDict
open Spec.FrozenDict

variable {K V : Type} {ops : Ops K V} {sort : SortFn}

/-! ## `dict` -/

theorem keys_setItem (k : K) (v : V) : ∀ d : List (K × V),
    (setItem ops k v d).map (·.1) = if d.any (fun p => ops.eqK k p.1) then d.map (·.1) else d.map (·.1) ++ [k]
  | [] => by simp [setItem]
  | (k', v') :: d => by
    simp only [setItem, List.any_cons]
    by_cases h : ops.eqK k k' = true
    · simp [h]
    · simp only [h, List.map_cons, Bool.false_or, Bool.false_eq_true, if_false, keys_setItem k v d]
      split <;> simp

theorem setItem_new {k : K} {v : V} : ∀ {d : List (K × V)}, (∀ p ∈ d, ops.eqK k p.1 = false) → setItem ops k v d = d ++ [(k, v)]
  | [], _ => rfl
  | (k', v') :: d, h => by
    have h1 := h (k', v') (by simp)
    simp only at h1
    have ih := setItem_new (v := v) (d := d) fun p hp => h p (List.mem_cons_of_mem _ hp)
    simp [setItem, h1, ih]

theorem distinct_keys (d : List (K × V)) : Distinct ops d ↔ (d.map (·.1)).Pairwise fun a b => ops.eqK a b = false := by
  rw [List.pairwise_map]; rfl

theorem eqK_false_symm (hl : Lawful ops) {a b : K} (h : ops.eqK a b = false) : ops.eqK b a = false := by
  cases h' : ops.eqK b a with
  | false => rfl
  | true => rw [hl.symmK _ _ h'] at h; simp at h

theorem distinct_setItem (hl : Lawful ops) (k : K) (v : V) {d : List (K × V)} (h : Distinct ops d) : Distinct ops (setItem ops k v d) := by
  rw [distinct_keys] at h ⊢
  rw [keys_setItem]
  split
  · exact h
  · rename_i hn
    rw [List.pairwise_append]
    refine ⟨h, by simp, ?_⟩
    intro a ha b hb
    simp only [List.mem_singleton] at hb
    subst hb
    simp only [List.mem_map] at ha
    obtain ⟨p, hp, rfl⟩ := ha
    simp only [List.any_eq_true, not_exists, not_and, Bool.not_eq_true] at hn
    exact eqK_false_symm hl (hn p hp)

theorem distinct_foldl (hl : Lawful ops) : ∀ (ps d : List (K × V)), Distinct ops d →
    Distinct ops (ps.foldl (fun d p => setItem ops p.1 p.2 d) d)
  | [], _, h => h
  | p :: ps, _, h => distinct_foldl hl ps _ (distinct_setItem hl p.1 p.2 h)

theorem distinct_dictOf (hl : Lawful ops) (ps : List (K × V)) : Distinct ops (dictOf ops ps) := distinct_foldl hl ps [] List.Pairwise.nil

theorem foldl_setItem_distinct (hl : Lawful ops) : ∀ (ps d : List (K × V)), Distinct ops (d ++ ps) →
    ps.foldl (fun d p => setItem ops p.1 p.2 d) d = d ++ ps
  | [], d, _ => by simp
  | p :: ps, d, h => by
    have h1 : setItem ops p.1 p.2 d = d ++ [p] := setItem_new fun q hq => by
      have := (List.pairwise_append.1 h).2.2 q hq p (by simp)
      exact eqK_false_symm hl this
    simp only [List.foldl_cons, h1]
    rw [foldl_setItem_distinct hl ps (d ++ [p]) (by simpa using h)]
    simp

theorem dictOf_distinct (hl : Lawful ops) {ps : List (K × V)} (h : Distinct ops ps) : dictOf ops ps = ps :=
  foldl_setItem_distinct hl ps [] h

theorem lookup_of_mem (hl : Lawful ops) {d : List (K × V)} (h : Distinct ops d) {p : K × V} (hp : p ∈ d) :
    ∀ {k : K}, ops.eqK k p.1 = true → lookup ops k d = some p.2 := by
  intro k hk
  unfold lookup
  induction d with
  | nil => simp at hp
  | cons q d ih =>
    obtain ⟨h1, h2⟩ := List.pairwise_cons.1 h
    rcases List.mem_cons.1 hp with rfl | hp
    · simp [hk]
    · have : ops.eqK k q.1 = false := by
        cases h' : ops.eqK k q.1 with
        | false => rfl
        | true =>
          have := hl.transK _ _ _ (hl.symmK _ _ h') hk
          rw [h1 p hp] at this
          simp at this
      rw [List.find?_cons_of_neg (by simp [this])]
      exact ih h2 hp

theorem lookup_setItem (hl : Lawful ops) (k : K) (v : V) (k' : K) : ∀ d : List (K × V),
    lookup ops k' (setItem ops k v d) = if ops.eqK k' k then some v else lookup ops k' d
  | [] => by simp [setItem, lookup, List.find?_cons]; split <;> simp_all
  | (k₀, v₀) :: d => by
    have ih := lookup_setItem hl k v k' d
    simp only [lookup] at ih ⊢
    simp only [setItem]
    by_cases h : ops.eqK k k₀ = true
    · rw [if_pos h]
      simp only [List.find?_cons]
      cases h1 : ops.eqK k' k₀ with
      | true =>
        have : ops.eqK k' k = true := hl.transK _ _ _ h1 (hl.symmK _ _ h)
        simp [this]
      | false =>
        have : ops.eqK k' k = false := by
          cases h2 : ops.eqK k' k with
          | false => rfl
          | true => rw [hl.transK _ _ _ h2 h] at h1; cases h1
        simp [this]
    · rw [if_neg h]
      simp only [List.find?_cons]
      cases h1 : ops.eqK k' k₀ with
      | true =>
        have : ops.eqK k' k = false := by
          cases h2 : ops.eqK k' k with
          | false => rfl
          | true => exact (h (hl.transK _ _ _ (hl.symmK _ _ h2) h1)).elim
        simp [this]
      | false => simpa using ih

theorem lookup_foldl (hl : Lawful ops) (k : K) : ∀ (ps d : List (K × V)),
    lookup ops k (ps.foldl (fun d p => setItem ops p.1 p.2 d) d)
      = ((ps.reverse.find? fun p => ops.eqK k p.1).map (·.2)).or (lookup ops k d)
  | [], d => by simp
  | p :: ps, d => by
    rw [List.foldl_cons, lookup_foldl hl k ps, lookup_setItem hl, List.reverse_cons, List.find?_append]
    cases List.find? (fun p => ops.eqK k p.1) ps.reverse with
    | some q => simp
    | none =>
      cases h : ops.eqK k p.1 <;> simp [h]

theorem mem_of_lookup {d : List (K × V)} {k : K} {v : V} (h : lookup ops k d = some v) : ∃ p ∈ d, ops.eqK k p.1 = true ∧ p.2 = v := by
  unfold lookup at h
  cases hf : d.find? (fun p => ops.eqK k p.1) with
  | none => rw [hf] at h; simp at h
  | some p =>
    rw [hf] at h
    simp at h
    exact ⟨p, List.mem_of_find?_eq_some hf, List.find?_some (p := fun p : K × V => ops.eqK k p.1) hf, h⟩

/-! ## Ordered items -/

theorem itemLt_distinct {p q : K × V} (h : ops.eqK p.1 q.1 = false) : itemLt ops p q = ops.ltK p.1 q.1 := by
  simp [itemLt, h]

theorem lt_ne (hn : Linear ops) {a b : K} (h : ops.ltK a b = .ok true) : ops.eqK a b = false := by
  cases h' : ops.eqK a b with
  | false => rfl
  | true => rw [hn.irrefl _ _ h'] at h; simp at h

theorem lt_congr_right (hl : Lawful ops) (hn : Linear ops) {a b c : K} (h : ops.ltK a b = .ok true) (e : ops.eqK b c = true) :
    ops.ltK a c = .ok true := by
  have h1 : ops.eqK a c = false := by
    cases h' : ops.eqK a c with
    | false => rfl
    | true =>
      have := hl.transK _ _ _ h' (hl.symmK _ _ e)
      rw [lt_ne hn h] at this
      simp at this
  rcases hn.tri _ _ h1 with h2 | h2
  · exact h2.1
  · have h3 := hn.trans _ _ _ h2.2 h
    rw [hn.irrefl _ _ (hl.symmK _ _ e)] at h3
    simp at h3

theorem lt_congr_left (hl : Lawful ops) (hn : Linear ops) {a b c : K} (h : ops.ltK a b = .ok true) (e : ops.eqK a c = true) :
    ops.ltK c b = .ok true := by
  have h1 : ops.eqK c b = false := by
    cases h' : ops.eqK c b with
    | false => rfl
    | true =>
      have := hl.transK _ _ _ e h'
      rw [lt_ne hn h] at this
      simp at this
  rcases hn.tri _ _ h1 with h2 | h2
  · exact h2.1
  · have h3 := hn.trans _ _ _ h h2.2
    rw [hn.irrefl _ _ e] at h3
    simp at h3

/-- `sorted(d.items())` for linearly ordered keys. -/
theorem sorted_items (hs : Sorts sort) (hl : Lawful ops) (hn : Linear ops) {d : List (K × V)} (h : Distinct ops d) :
    ∃ ys, sort (itemLt ops) d = .ok ys ∧ ys.Perm d ∧ ys.Pairwise (fun a b => ops.ltK a.1 b.1 = .ok true) := by
  have hlt : ∀ {p q : K × V}, itemLt ops p q = .ok true → ops.eqK p.1 q.1 = false → ops.ltK p.1 q.1 = .ok true := by
    intro p q h1 h2
    rwa [itemLt_distinct h2] at h1
  -- two elements of `d` are the same element or have different keys
  have hdis : ∀ p ∈ d, ∀ q ∈ d, p ≠ q → ops.eqK p.1 q.1 = false := by
    intro p hp q hq hne
    exact List.Pairwise.forall_of_forall_of_flip (R := fun p q => p ≠ q → ops.eqK p.1 q.1 = false)
      (fun x _ hx => absurd rfl hx) (by refine List.Pairwise.imp ?_ h; intro a b h _; exact h)
      (by refine List.Pairwise.imp ?_ h; intro a b h _; exact eqK_false_symm hl h) hp hq hne
  obtain ⟨ys, h1, h2, h3⟩ := hs.linear (itemLt ops) d (List.Pairwise.imp (fun {a b} hab => by
      rw [itemLt_distinct hab, itemLt_distinct (eqK_false_symm hl hab)]
      exact hn.tri _ _ hab) h) (by
    intro a ha b hb c hc h1 h2
    by_cases hab : a = b
    · subst hab; exact h2
    by_cases hbc : b = c
    · subst hbc; exact h1
    have e1 := hlt h1 (hdis a ha b hb hab)
    have e2 := hlt h2 (hdis b hb c hc hbc)
    have e3 := hn.trans _ _ _ e1 e2
    rw [itemLt_distinct (lt_ne hn e3)]
    exact e3)
  refine ⟨ys, h1, h2, ?_⟩
  have hd' : Distinct ops ys := (List.Perm.pairwise_iff (fun {a b} h => eqK_false_symm hl h) h2).2 h
  exact (h3.and hd').imp fun {a b} hab => hlt hab.1 hab.2

theorem hashItems_congr (hl : Lawful ops) : ∀ {xs ys : List (K × V)},
    List.Forall₂ (fun p q => ops.eqK p.1 q.1 = true ∧ ops.eqV p.2 q.2 = true) xs ys → hashItems ops xs = hashItems ops ys
  | _, _, .nil => rfl
  | _, _, .cons h t => by
    simp only [hashItems, hashItem, hl.hashK _ _ h.1, hl.hashV _ _ h.2, hashItems_congr hl t]

/-- Two ascending lists of items, each of the first having its counterpart in the second, of the same length: they match in order. -/
theorem match_sorted (hl : Lawful ops) (hn : Linear ops) {xs ys : List (K × V)}
    (hx : xs.Pairwise (fun a b => ops.ltK a.1 b.1 = .ok true)) (hy : ys.Pairwise (fun a b => ops.ltK a.1 b.1 = .ok true))
    (hlen : xs.length = ys.length) (hm : ∀ p ∈ xs, ∃ q ∈ ys, ops.eqK p.1 q.1 = true ∧ ops.eqV p.2 q.2 = true) :
    List.Forall₂ (fun p q => ops.eqK p.1 q.1 = true ∧ ops.eqV p.2 q.2 = true) xs ys := by
  -- the list of counterparts
  obtain ⟨zs, hz⟩ : ∃ zs, List.Forall₂ (fun p q => q ∈ ys ∧ ops.eqK p.1 q.1 = true ∧ ops.eqV p.2 q.2 = true) xs zs := by
    clear hx hlen hy
    induction xs with
    | nil => exact ⟨[], .nil⟩
    | cons p xs ih =>
      obtain ⟨zs, hz⟩ := ih fun p hp => hm p (by simp [hp])
      obtain ⟨q, hq⟩ := hm p (by simp)
      exact ⟨q :: zs, .cons hq hz⟩
  have hzs : zs.Pairwise (fun a b => ops.ltK a.1 b.1 = .ok true) := by
    clear hlen hm hy
    induction hz with
    | nil => exact .nil
    | cons h t ih =>
      rename_i p q xs zs
      obtain ⟨h1, h2⟩ := List.pairwise_cons.1 hx
      refine List.pairwise_cons.2 ⟨?_, ih h2⟩
      intro r hr
      obtain ⟨s, hs, hsr⟩ : ∃ s ∈ xs, ops.eqK s.1 r.1 = true := by
        clear ih hx h1 h2 h
        induction t with
        | nil => simp at hr
        | cons h t ih =>
          rcases List.mem_cons.1 hr with rfl | hr
          · exact ⟨_, by simp, h.2.1⟩
          · obtain ⟨s, hs, he⟩ := ih hr
            exact ⟨s, by simp [hs], he⟩
      exact lt_congr_left hl hn (lt_congr_right hl hn (h1 s hs) hsr) h.2.1
  have hsub : zs ⊆ ys := by
    intro r hr
    clear hlen hm hy hx hzs
    induction hz with
    | nil => simp at hr
    | cons h t ih =>
      rcases List.mem_cons.1 hr with rfl | hr
      · exact h.1
      · exact ih hr
  have hirr : ∀ {a : K × V}, ¬ ops.ltK a.1 a.1 = .ok true := fun {a} h => by
    rw [hn.irrefl _ _ (hl.reflK _)] at h; simp at h
  have hnd : zs.Nodup := hzs.imp fun {a b} h e => by subst e; exact hirr h
  have hperm : zs.Perm ys := (List.subperm_of_subset hnd hsub).perm_of_length_le (by rw [← hlen, hz.length_eq]; exact Nat.le_refl _)
  have heq : zs = ys := hperm.eq_of_pairwise (fun a b _ _ h1 h2 => absurd (hn.trans _ _ _ h1 h2) hirr) hzs hy
  subst heq
  exact hz.imp fun _ _ h => h.2

/-! ## The properties -/

/-- C46: two `TFrozenDict`s built from the same pairs with distinct keys, in any order, compare equal. -/
theorem frozendict_equal (hl : Lawful ops) {ps qs : List (K × V)} (hd : Distinct ops ps) (hp : ps.Perm qs) {f g : FD K V}
    (hf : FD.make ops sort ps = .ok f) (hg : FD.make ops sort qs = .ok g) : f.eq ops g = true := by
  have hd' : Distinct ops qs := (List.Perm.pairwise_iff (fun {a b} h => eqK_false_symm hl h) hp).1 hd
  have items : ∀ {ps : List (K × V)} {f : FD K V}, Distinct ops ps → FD.make ops sort ps = .ok f → f.items = ps := by
    intro ps f hd hf
    simp only [FD.make, dictOf_distinct hl hd] at hf
    split at hf
    · simp at hf
    · split at hf
      · simp at hf
      · simp only [Except.ok.injEq] at hf
        subst hf
        rfl
  rw [FD.eq, items hd hf, items hd' hg]
  simp only [dictEq, hp.length_eq, beq_self_eq_true, Bool.true_and, List.all_eq_true]
  intro p h
  rw [lookup_of_mem hl hd' (hp.subset h) (hl.reflK _)]
  exact hl.reflV _

/-- C46, partial: `TFrozenDict`s that compare equal have the same hash, whatever they were built from, if the keys are linearly
ordered. What is missing: other keys; it is false, see `frozendict_hash_differs`. -/
theorem frozendict_hash_partial (hs : Sorts sort) (hl : Lawful ops) (hn : Linear ops) {ps qs : List (K × V)} {f g : FD K V}
    (hf : FD.make ops sort ps = .ok f) (hg : FD.make ops sort qs = .ok g) (he : f.eq ops g = true) : f.hash = g.hash := by
  have key : ∀ {ps : List (K × V)} {f : FD K V}, FD.make ops sort ps = .ok f → ∃ ys hs, ys.Perm f.items ∧ Distinct ops f.items ∧
      ys.Pairwise (fun a b => ops.ltK a.1 b.1 = .ok true) ∧ hashItems ops ys = .ok hs ∧ f.hashval = ops.hashClass ^^^ hashTuple hs := by
    intro ps f hf
    have hd := distinct_dictOf hl ps
    obtain ⟨ys, h1, h2, h3⟩ := sorted_items hs hl hn hd
    simp only [FD.make, h1] at hf
    split at hf
    · simp at hf
    · rename_i hs' hh
      simp only [Except.ok.injEq] at hf
      subst hf
      exact ⟨ys, hs', h2, hd, h3, hh, rfl⟩
  obtain ⟨xs, hx, p1, d1, s1, e1, v1⟩ := key hf
  obtain ⟨ys, hy, p2, d2, s2, e2, v2⟩ := key hg
  simp only [FD.eq, dictEq, Bool.and_eq_true, beq_iff_eq, List.all_eq_true] at he
  have hm := match_sorted hl hn s1 s2 (by rw [p1.length_eq, p2.length_eq, he.1]) (fun p hp => by
    have h1 := he.2 p (p1.subset hp)
    split at h1
    · rename_i v hv
      obtain ⟨q, hq, hk, rfl⟩ := mem_of_lookup hv
      exact ⟨q, p2.symm.subset hq, hk, h1⟩
    · simp at h1)
  have := hashItems_congr hl hm
  rw [e1, e2] at this
  cases this
  rw [FD.hash, FD.hash, v1, v2]

/-- C46: with linearly ordered keys a `TFrozenDict` can be built in one order exactly if it can be built in any other (it cannot if a
value cannot be hashed). -/
theorem frozendict_builds (hs : Sorts sort) (hl : Lawful ops) (hn : Linear ops) {ps qs : List (K × V)} (hd : Distinct ops ps)
    (hp : ps.Perm qs) {f : FD K V} (hf : FD.make ops sort ps = .ok f) : ∃ g, FD.make ops sort qs = .ok g ∧ f.eq ops g = true ∧ f.hash = g.hash := by
  have hd' : Distinct ops qs := (List.Perm.pairwise_iff (fun {a b} h => eqK_false_symm hl h) hp).1 hd
  obtain ⟨xs, a1, a2, a3⟩ := sorted_items hs hl hn hd
  obtain ⟨ys, b1, b2, b3⟩ := sorted_items hs hl hn hd'
  have hirr : ∀ {a : K × V}, ¬ ops.ltK a.1 a.1 = .ok true := fun {a} h => by
    rw [hn.irrefl _ _ (hl.reflK _)] at h; simp at h
  have hxy : xs = ys := (a2.trans (hp.trans b2.symm)).eq_of_pairwise (fun a b _ _ h1 h2 => absurd (hn.trans _ _ _ h1 h2) hirr) a3 b3
  subst hxy
  have hf' := hf
  simp only [FD.make, dictOf_distinct hl hd, a1] at hf'
  split at hf'
  · simp at hf'
  · rename_i hh he
    obtain ⟨g, hg⟩ : ∃ g, FD.make ops sort qs = .ok g := by
      simp only [FD.make, dictOf_distinct hl hd', b1, he]
      exact ⟨_, rfl⟩
    have h1 := frozendict_equal hl hd hp hf hg
    exact ⟨g, hg, h1, frozendict_hash_partial hs hl hn hf hg h1⟩

/-! ## A `sorted` that meets the contract -/

def insertE {α : Type} (lt : α → α → Except Exc Bool) (x : α) : List α → Except Exc (List α)
  | [] => .ok [x]
  | y :: ys =>
    match lt x y with
    | .error e => .error e
    | .ok true => .ok (x :: y :: ys)
    | .ok false =>
      match insertE lt x ys with
      | .error e => .error e
      | .ok zs => .ok (y :: zs)

def sortE {α : Type} (lt : α → α → Except Exc Bool) : List α → List α → Except Exc (List α)
  | acc, [] => .ok acc
  | acc, x :: xs =>
    match insertE lt x acc with
    | .error e => .error e
    | .ok acc' => sortE lt acc' xs

/-- Insertion sort. -/
def insertionSort : SortFn := fun lt xs => sortE lt [] xs

theorem insertE_linear {α : Type} (lt : α → α → Except Exc Bool) (x : α) : ∀ ys : List α,
    (∀ y ∈ ys, (lt y x = .ok true ∧ lt x y = .ok false) ∨ (lt y x = .ok false ∧ lt x y = .ok true)) →
    (∀ a ∈ x :: ys, ∀ b ∈ x :: ys, ∀ c ∈ x :: ys, lt a b = .ok true → lt b c = .ok true → lt a c = .ok true) →
    ys.Pairwise (fun a b => lt a b = .ok true) →
    ∃ zs, insertE lt x ys = .ok zs ∧ zs.Perm (x :: ys) ∧ zs.Pairwise (fun a b => lt a b = .ok true)
  | [], _, _, _ => ⟨[x], rfl, .refl _, by simp⟩
  | y :: ys, h, ht, hp => by
    obtain ⟨p1, p2⟩ := List.pairwise_cons.1 hp
    rcases h y (by simp) with ⟨h1, h2⟩ | ⟨h1, h2⟩
    · obtain ⟨zs, e1, e2, e3⟩ := insertE_linear lt x ys (fun z hz => h z (by simp [hz]))
        (fun a ha b hb c hc => ht a (by simp at ha ⊢; tauto) b (by simp at hb ⊢; tauto) c (by simp at hc ⊢; tauto)) p2
      refine ⟨y :: zs, by simp [insertE, h2, e1], (e2.cons y).trans (List.Perm.swap x y ys), List.pairwise_cons.2 ⟨?_, e3⟩⟩
      intro z hz
      rcases List.mem_cons.1 (e2.subset hz) with rfl | hz
      · exact h1
      · exact p1 z hz
    · refine ⟨x :: y :: ys, by simp [insertE, h2], .refl _, List.pairwise_cons.2 ⟨?_, hp⟩⟩
      intro z hz
      rcases List.mem_cons.1 hz with rfl | hz'
      · exact h2
      · exact ht x (by simp) y (by simp) z (by simp [hz']) h2 (p1 z hz')

theorem sortE_linear {α : Type} (lt : α → α → Except Exc Bool) : ∀ xs acc : List α,
    (acc ++ xs).Pairwise (fun a b => (lt a b = .ok true ∧ lt b a = .ok false) ∨ (lt a b = .ok false ∧ lt b a = .ok true)) →
    (∀ a ∈ acc ++ xs, ∀ b ∈ acc ++ xs, ∀ c ∈ acc ++ xs, lt a b = .ok true → lt b c = .ok true → lt a c = .ok true) →
    acc.Pairwise (fun a b => lt a b = .ok true) →
    ∃ ys, sortE lt acc xs = .ok ys ∧ ys.Perm (acc ++ xs) ∧ ys.Pairwise (fun a b => lt a b = .ok true)
  | [], acc, _, _, hp => ⟨acc, rfl, by simp, hp⟩
  | x :: xs, acc, h, ht, hp => by
    obtain ⟨zs, e1, e2, e3⟩ := insertE_linear lt x acc (fun y hy => (List.pairwise_append.1 h).2.2 y hy x (by simp))
      (fun a ha b hb c hc => ht a (by simp at ha ⊢; tauto) b (by simp at hb ⊢; tauto) c (by simp at hc ⊢; tauto)) hp
    have hperm : (zs ++ xs).Perm (acc ++ x :: xs) := (e2.append_right xs).trans (by simpa using List.perm_middle.symm)
    obtain ⟨ys, g1, g2, g3⟩ := sortE_linear lt xs zs
      ((List.Perm.pairwise_iff (fun {a b} h => by tauto) hperm).2 h)
      (fun a ha b hb c hc => ht a (hperm.subset ha) b (hperm.subset hb) c (hperm.subset hc)) e3
    exact ⟨ys, by simp [sortE, e1, g1], g2.trans hperm, g3⟩

theorem insertionSort_sorts : Sorts insertionSort where
  linear lt xs h ht := by
    obtain ⟨ys, h1, h2, h3⟩ := sortE_linear lt xs [] (by simpa using h) (by simpa using ht) .nil
    exact ⟨ys, h1, by simpa using h2, h3⟩
  short lt xs h := by
    match xs, h with
    | [], _ => rfl
    | [x], _ => rfl
  two lt x y := by
    simp only [insertionSort, sortE, insertE]
    cases lt y x with
    | error e => rfl
    | ok b => cases b <;> rfl

/-! ## Numbers as keys -/

/-- Keys and values are small numbers: their own hash. -/
def numbers : Ops Nat Nat where
  eqK a b := a == b
  ltK a b := .ok (decide (a < b))
  eqV a b := a == b
  ltV a b := .ok (decide (a < b))
  hashK := UInt64.ofNat
  hashV n := .ok (UInt64.ofNat n)
  hashClass := 12345

theorem numbers_lawful : Lawful numbers where
  reflK a := by simp [numbers]
  symmK a b h := by simp_all [numbers]
  transK a b c h1 h2 := by simp_all [numbers]
  reflV a := by simp [numbers]
  hashK a b h := by simp_all [numbers]
  hashV a b h := by simp_all [numbers]

theorem numbers_linear : Linear numbers where
  tri a b h := by simp [numbers] at h ⊢; omega
  trans a b c h1 h2 := by simp [numbers] at h1 h2 ⊢; omega
  irrefl a b h := by simp [numbers] at h ⊢; omega

/-- Three pairs, in two orders. -/
example : ∃ f g, FD.make numbers insertionSort [(3, 1), (1, 5), (2, 1)] = .ok f ∧ FD.make numbers insertionSort [(2, 1), (3, 1), (1, 5)] = .ok g ∧
    f.eq numbers g = true ∧ f.hash = g.hash ∧ Distinct numbers [(3, 1), (1, 5), (2, 1)] :=
  ⟨_, _, rfl, rfl, by decide +kernel, by decide +kernel, by simp [Distinct, numbers]⟩

/-! ## Where it fails -/

/-- Sets of numbers as keys, as in `map<set<i32>, i32>`: `frozenset`s, given by the ascending lists of their elements. `<` is proper
inclusion. The hashes of `frozenset({1})` and `frozenset({2})` are those of CPython 3.11; those of other sets do not matter. -/
def sets : Ops (List Nat) Nat where
  eqK a b := a == b
  ltK a b := .ok (a.all (· ∈ b) && !b.all (· ∈ a))
  eqV a b := a == b
  ltV a b := .ok (decide (a < b))
  hashK a := if a = [1] then 17888679592432856338 else if a = [2] then 4774279697163166305 else 0
  hashV n := .ok (UInt64.ofNat n)
  hashClass := 12345

theorem sets_lawful : Lawful sets where
  reflK a := by simp [sets]
  symmK a b h := by simp_all [sets]
  transK a b c h1 h2 := by simp_all [sets]
  reflV a := by simp [sets]
  hashK a b h := by simp_all [sets]
  hashV a b h := by simp_all [sets]

/-- C46 is false: two `TFrozenDict`s built from the same two pairs in different orders, whose keys are sets. They compare equal and
have different hashes: a set or a `dict` that holds one of them does not find the other. -/
theorem frozendict_hash_differs (hs : Sorts sort) : ∃ f g,
    FD.make sets sort [([1], 1), ([2], 2)] = .ok f ∧ FD.make sets sort [([2], 2), ([1], 1)] = .ok g ∧
    Distinct sets [([1], 1), ([2], 2)] ∧ f.eq sets g = true ∧ f.hash ≠ g.hash := by
  have d1 : Distinct sets [([1], 1), ([2], 2)] := by simp [Distinct, sets]
  have d2 : Distinct sets [([2], 2), ([1], 1)] := by simp [Distinct, sets]
  have h1 := hs.two (itemLt sets) ([1], 1) ([2], 2)
  have h2 := hs.two (itemLt sets) ([2], 2) ([1], 1)
  rw [show itemLt sets ([2], 2) ([1], 1) = .ok false by decide +kernel] at h1
  rw [show itemLt sets ([1], 1) ([2], 2) = .ok false by decide +kernel] at h2
  have e : ∀ ps : List (List Nat × Nat), dictOf sets ps = ps → sort (itemLt sets) ps = .ok ps → ∀ hh, hashItems sets ps = .ok hh →
      FD.make sets sort ps = .ok { items := ps, hashval := sets.hashClass ^^^ hashTuple hh } := by
    intro ps a b hh c
    simp [FD.make, a, b, c]
  refine ⟨_, _, e _ (dictOf_distinct sets_lawful d1) h1 _ rfl, e _ (dictOf_distinct sets_lawful d2) h2 _ rfl, d1, by decide +kernel, by decide +kernel⟩

/-- C46: where `<` is not defined on the keys, as on structs, a `TFrozenDict` with two items cannot be built; with one item it can. -/
theorem frozendict_unordered (hs : Sorts sort) (hl : Lawful ops) (hlt : ∀ a b, ops.ltK a b = .error .typeError) (p q : K × V)
    (hpq : ops.eqK q.1 p.1 = false) (hh : ∃ h, ops.hashV p.2 = .ok h) :
    FD.make ops sort [p, q] = .error .typeError ∧ ∃ f, FD.make ops sort [p] = .ok f := by
  have hd : Distinct ops [p, q] := by simpa [Distinct] using eqK_false_symm hl hpq
  constructor
  · have h1 := hs.two (itemLt ops) p q
    rw [itemLt_distinct hpq, hlt] at h1
    simp [FD.make, dictOf_distinct hl hd, h1]
  · obtain ⟨h, hh⟩ := hh
    have h1 := hs.short (itemLt ops) [p] (by simp)
    simp [FD.make, dictOf_distinct hl (ps := [p]) (by simp [Distinct]), h1, hashItems, hashItem, hh]

/-- Structs: different objects have no order. -/
example : ∃ ops : Ops Nat Nat, Lawful ops ∧ (∀ a b, ops.ltK a b = .error .typeError) ∧ ops.eqK 1 2 = false :=
  ⟨{ numbers with ltK := fun _ _ => .error .typeError },
    ⟨numbers_lawful.1, numbers_lawful.2, numbers_lawful.3, numbers_lawful.4, numbers_lawful.5, numbers_lawful.6⟩, fun _ _ => rfl, rfl⟩

/-! ## C57: changes -/

/-- C57, partial: assignment to and deletion of items raise `TypeError` and change nothing. What is missing: the other methods that
change a `dict`. -/
theorem frozendict_frozen_partial (f : FD K V) (k : K) (v : V) :
    f.mutate ops (.setitem k v) = (.error .typeError, f) ∧ f.mutate ops (.delitem k) = (.error .typeError, f) := ⟨rfl, rfl⟩

/-- C57, partial: whatever is called, the hash stays. -/
theorem frozendict_hash_stays_partial (f : FD K V) (m : Mut K V) : (f.mutate ops m).2.hash = f.hash := by
  cases m <;> simp only [FD.mutate] <;> (try split) <;> rfl

/-- C57 is false: `update` adds an item, and `pop` and `clear` remove some. The hash stays, so that afterwards two `TFrozenDict`s that
compare equal have different hashes, even with numbers as keys. -/
theorem frozendict_not_frozen (hs : Sorts sort) : ∃ f g,
    FD.make numbers sort [(1, 1)] = .ok f ∧ FD.make numbers sort [] = .ok g ∧ (f.mutate numbers (.pop 1)).1 = .ok () ∧
    (f.mutate numbers (.pop 1)).2.eq numbers f = false ∧
    (f.mutate numbers (.pop 1)).2.eq numbers g = true ∧ (f.mutate numbers (.pop 1)).2.hash ≠ g.hash ∧
    (g.mutate numbers (.update [(1, 1)])).2.eq numbers f = true ∧ (g.mutate numbers (.update [(1, 1)])).2.hash ≠ f.hash ∧
    (f.mutate numbers .clear).2.eq numbers g = true := by
  have e : ∀ ps : List (Nat × Nat), dictOf numbers ps = ps → sort (itemLt numbers) ps = .ok ps → ∀ hh, hashItems numbers ps = .ok hh →
      FD.make numbers sort ps = .ok { items := ps, hashval := numbers.hashClass ^^^ hashTuple hh } := by
    intro ps a b hh c
    simp [FD.make, a, b, c]
  refine ⟨_, _, e _ rfl (hs.short _ _ (by simp)) _ rfl, e _ rfl (hs.short _ _ (by simp)) _ rfl, ?_⟩
  decide +kernel

/-- C46: the dictionary holds, for every key, the value of the last pair with an equal key. -/
theorem frozendict_items {ops : Ops K V} (hl : Lawful ops) (sort : SortFn) (pairs : List (K × V)) (f : FD K V)
    (h : FD.make ops sort pairs = .ok f) (k : K) :
    lookup ops k f.items = (pairs.reverse.find? fun p => ops.eqK k p.1).map (·.2) := by
  have hf : f.items = dictOf ops pairs := by
    unfold FD.make at h
    dsimp only at h
    split at h
    · cases h
    · split at h
      · cases h
      · cases h; rfl
  rw [hf, dictOf, lookup_foldl hl]
  simp [lookup]

end Thrift.FrozenDict
