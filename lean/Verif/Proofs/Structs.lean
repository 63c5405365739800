import Verif.Spec.Structs

namespace Thrift.Structs
open Rpc Spec Spec.Structs
variable {T : Type}

theorem int32_range (i : Int) : InRange 32 (int32 i) := by
  unfold InRange int32; constructor <;> simp <;> omega

theorem int32_mod (i : Int) : (int32 i - i) % 2 ^ 32 = 0 := by
  unfold int32; simp; omega

theorem int32_id {i : Int} (h : InRange 32 i) : int32 i = i := by
  unfold InRange at h; unfold int32; simp at *; omega

theorem wraps_int32 (i : Int) : Wraps i (int32 i) := ⟨int32_range i, int32_mod i⟩

/-- What a field list is made into, from `y_field_val = y` on -/
def built (neg : Bool) : Int → List (Decl T) → List (Member T)
  | _, [] => []
  | y, d :: ds =>
    let i := identify neg d.id y
    { key := i.1.value, req := d.req, ty := d.ty, name := d.name, value := d.value } :: built neg i.2 ds

/-- The vectors of a struct -/
structure Inv (s : TStruct T) : Prop where
  same : s.sorted.Perm s.members
  ordered : s.sorted.Pairwise fun m n => m.key < n.key
  named : (s.members.map (·.name)).Nodup

theorem inv_empty : Inv ({} : TStruct T) := ⟨.refl _, .nil, .nil⟩

theorem keys_nodup {l : List (Member T)} (h : l.Pairwise fun m n => m.key < n.key) : (l.map (·.key)).Nodup := by
  rw [List.Nodup, List.pairwise_map]
  exact h.imp fun h e => by omega

theorem Inv.keys {s : TStruct T} (h : Inv s) : (s.members.map (·.key)).Nodup :=
  (h.same.map _).nodup_iff.1 (keys_nodup h.ordered)

theorem inserted_ordered (m : Member T) : ∀ l : List (Member T), (l.Pairwise fun m n => m.key < n.key) → (∀ x ∈ l, x.key ≠ m.key) →
    (l.takeWhile (fun x => x.key ≤ m.key) ++ m :: l.dropWhile (fun x => x.key ≤ m.key)).Pairwise fun m n => m.key < n.key
  | [], _, _ => by simp
  | x :: l, h, hn => by
    have ⟨h1, h2⟩ := List.pairwise_cons.1 h
    have hx := hn x (by simp)
    by_cases hle : x.key ≤ m.key
    · rw [List.takeWhile_cons_of_pos (by simpa using hle), List.dropWhile_cons_of_pos (by simpa using hle), List.cons_append]
      refine List.pairwise_cons.2 ⟨fun a ha => ?_, inserted_ordered m l h2 fun a ha => hn a (List.mem_cons_of_mem _ ha)⟩
      rcases List.mem_append.1 ha with ha | ha
      · exact h1 _ ((List.takeWhile_sublist _).subset ha)
      · rcases List.mem_cons.1 ha with rfl | ha
        · omega
        · exact h1 _ ((List.dropWhile_sublist _).subset ha)
    · rw [List.takeWhile_cons_of_neg (by simpa using hle), List.dropWhile_cons_of_neg (by simpa using hle), List.nil_append]
      refine List.pairwise_cons.2 ⟨fun a ha => ?_, h⟩
      rcases List.mem_cons.1 ha with rfl | ha
      · omega
      · have := h1 a ha; omega

theorem append_ok {m : Member T} {s : TStruct T} (h : Inv s) (hk : m.key ∉ s.members.map (·.key)) (hn : m.name ∉ s.members.map (·.name)) :
    ∃ s', append m s = some s' ∧ s'.members = s.members ++ [m] ∧ Inv s' := by
  have hk' : ∀ x ∈ s.sorted, x.key ≠ m.key := fun x hx e => hk (List.mem_map.2 ⟨x, h.same.mem_iff.1 hx, e⟩)
  have hn' : ∀ x ∈ s.sorted, x.name ≠ m.name := fun x hx e => hn (List.mem_map.2 ⟨x, h.same.mem_iff.1 hx, e⟩)
  unfold append
  rw [if_neg (by simpa using hk'), if_neg (by simpa using hn')]
  refine ⟨_, rfl, rfl, ?_, inserted_ordered m _ h.ordered hk', ?_⟩
  · refine (List.perm_middle.trans ?_)
    rw [List.takeWhile_append_dropWhile]
    exact ((List.Perm.cons m h.same).trans (List.perm_append_singleton m s.members).symm)
  · rw [List.map_append, List.nodup_append]
    refine ⟨h.named, by simp, ?_⟩
    intro a ha b hb e
    simp only [List.map_cons, List.map_nil, List.mem_singleton] at hb
    subst hb e
    exact hn ha

theorem append_none {m : Member T} {s : TStruct T} (h : Inv s) (hk : m.key ∈ s.members.map (·.key) ∨ m.name ∈ s.members.map (·.name)) :
    append m s = none := by
  unfold append
  by_cases hc : s.sorted.any (fun x => x.key == m.key) = true
  · rw [if_pos hc]
  · rw [if_neg hc, if_pos]
    rcases hk with hk | hk
    · obtain ⟨x, hx, e⟩ := List.mem_map.1 hk
      exact absurd (List.any_eq_true.2 ⟨x, h.same.mem_iff.2 hx, by simpa using e⟩) hc
    · obtain ⟨x, hx, e⟩ := List.mem_map.1 hk
      exact List.any_eq_true.2 ⟨x, h.same.mem_iff.2 hx, by simpa using e⟩

theorem append_some {m : Member T} {s s' : TStruct T} (h : Inv s) (e : append m s = some s') :
    m.key ∉ s.members.map (·.key) ∧ m.name ∉ s.members.map (·.name) ∧ s'.members = s.members ++ [m] ∧ Inv s' := by
  by_cases hk : m.key ∈ s.members.map (·.key)
  · rw [append_none h (.inl hk)] at e; cases e
  by_cases hn : m.name ∈ s.members.map (·.name)
  · rw [append_none h (.inr hn)] at e; cases e
  obtain ⟨s'', e', h1, h2⟩ := append_ok h hk hn
  rw [e] at e'; cases e'
  exact ⟨hk, hn, h1, h2⟩

/-- Is the key assigned by the compiler? -/
def auto (neg : Bool) (d : Decl T) : Bool := (identify neg d.id 0).1.auto_

theorem auto_eq (neg : Bool) (d : Decl T) (y : Int) : (identify neg d.id y).1.auto_ = auto neg d := by
  unfold auto identify; split
  · split
    · split <;> rfl
    · rfl
  · rfl

theorem auto_iff (neg : Bool) (d : Decl T) : auto neg d = true ↔ Numbered neg d := by
  unfold auto identify Numbered
  cases h : d.id with
  | none => simp
  | some n =>
    simp only [Option.some.injEq, forall_eq']
    by_cases h1 : n ≤ 0
    · rw [if_pos h1]; cases neg <;> simp [h1]
    · rw [if_neg h1]; simp [h1]

theorem simple_iff (n : PyStr) : simple n = true ↔ NoDot n := by
  unfold simple NoDot; simp

theorem fieldList_ok {o : Options} {ds : List (Decl T)} {y : Int} {s s' : TStruct T} (h : Inv s) (e : fieldList o ds y s = .ok s') :
    s'.members = s.members ++ built o.allowNeg y ds ∧ Inv s' ∧ (192 ≤ o.strict → ∀ d ∈ ds, ¬ Numbered o.allowNeg d) ∧ (∀ d ∈ ds, NoDot d.name) := by
  induction ds generalizing y s with
  | nil =>
    cases e
    exact ⟨by simp [built], h, by simp, by simp⟩
  | cons d ds ih =>
    rw [fieldList] at e
    simp only [auto_eq] at e
    split at e
    · cases e
    · rename_i ha
      split at e
      · cases e
      · rename_i hs
        split at e
        · cases e
        · rename_i s₁ e₁
          obtain ⟨_, _, hm, hi⟩ := append_some h e₁
          obtain ⟨h1, h2, h3, h4⟩ := ih hi e
          refine ⟨?_, h2, ?_, ?_⟩
          · rw [h1, hm, built]; simp
          · intro hst x hx
            rcases List.mem_cons.1 hx with rfl | hx
            · rw [← auto_iff]; intro hc; exact ha (by simp [hc, hst])
            · exact h3 hst x hx
          · intro x hx
            rcases List.mem_cons.1 hx with rfl | hx
            · rw [← simple_iff]; simpa using hs
            · exact h4 x hx

theorem fieldList_accepts {o : Options} {ds : List (Decl T)} {y : Int} {s : TStruct T} (h : Inv s) (ha : 192 ≤ o.strict → ∀ d ∈ ds, ¬ Numbered o.allowNeg d)
    (hd : ∀ d ∈ ds, NoDot d.name) (hk : ((s.members ++ built o.allowNeg y ds).map (·.key)).Nodup)
    (hn : ((s.members ++ built o.allowNeg y ds).map (·.name)).Nodup) : ∃ s', fieldList o ds y s = .ok s' := by
  induction ds generalizing y s with
  | nil => exact ⟨s, rfl⟩
  | cons d ds ih =>
    rw [fieldList]
    simp only [auto_eq]
    rw [if_neg, if_neg]
    · rw [built] at hk hn
      obtain ⟨s', e, hm, hi⟩ := append_ok (m := { key := (identify o.allowNeg d.id y).1.value, req := d.req, ty := d.ty, name := d.name, value := d.value }) h
        (by
          rw [List.map_append, List.nodup_append] at hk
          exact fun hc => hk.2.2 _ hc _ (by simp) rfl)
        (by
          rw [List.map_append, List.nodup_append] at hn
          exact fun hc => hn.2.2 _ hc _ (by simp) rfl)
      rw [e]
      refine ih hi (fun hst x hx => ha hst x (List.mem_cons_of_mem _ hx)) (fun x hx => hd x (List.mem_cons_of_mem _ hx)) ?_ ?_
      · rw [hm]; simpa using hk
      · rw [hm]; simpa using hn
    · have := (simple_iff d.name).2 (hd d (by simp)); simp [this]
    · intro hc
      simp only [Bool.and_eq_true, decide_eq_true_eq] at hc
      exact ha hc.2 d (by simp) ((auto_iff _ _).1 hc.1)

/-! ### Numbers -/

theorem identify_wraps (neg : Bool) (before : List (Decl T)) (d : Decl T) {y : Int} (hy : Wraps (lowest neg before.reverse - 1) y) :
    Wraps (number neg before d) (identify neg d.id y).1.value ∧ Wraps (lowest neg (before ++ [d]).reverse - 1) (identify neg d.id y).2 := by
  have hdec : Wraps (lowest neg before.reverse - 1 - 1) (int32 (y - 1)) := by
    refine ⟨int32_range _, ?_⟩
    have := int32_mod (y - 1); have := hy.2; simp at *; omega
  rw [List.reverse_append, List.reverse_singleton, List.singleton_append]
  unfold identify number
  rw [lowest]
  cases d.id with
  | none => exact ⟨hy, hdec⟩
  | some n =>
    dsimp only
    by_cases h : n ≤ 0
    · rw [if_pos h, if_neg (c := 0 < n) (by omega)]
      cases neg with
      | true => simp only [if_true, or_true]; exact ⟨wraps_int32 n, wraps_int32 _⟩
      | false => simp only [Bool.false_eq_true, or_false]; rw [if_neg (by simp <;> omega), if_neg (by simp <;> omega), if_neg (by simp <;> omega)]; exact ⟨hy, hdec⟩
    · rw [if_neg h, if_pos (.inl (by omega)), if_pos (by omega)]
      exact ⟨wraps_int32 n, hy⟩

theorem built_length (neg : Bool) (y : Int) (ds : List (Decl T)) : (built neg y ds).length = ds.length := by
  induction ds generalizing y with
  | nil => rfl
  | cons d ds ih => rw [built, List.length_cons, List.length_cons, ih]

theorem built_names (neg : Bool) (y : Int) (ds : List (Decl T)) : (built neg y ds).map (·.name) = ds.map (·.name) := by
  induction ds generalizing y with
  | nil => rfl
  | cons d ds ih => rw [built, List.map_cons, List.map_cons, ih]

theorem built_values (neg : Bool) (y : Int) (ds : List (Decl T)) : (built neg y ds).map (·.value) = ds.map (·.value) := by
  induction ds generalizing y with
  | nil => rfl
  | cons d ds ih => rw [built, List.map_cons, List.map_cons, ih]

theorem built_each (neg : Bool) (before : List (Decl T)) {y : Int} (hy : Wraps (lowest neg before.reverse - 1) y) (a : List (Decl T)) (d : Decl T) (b : List (Decl T)) :
    ∃ m, (built neg y (a ++ d :: b))[a.length]? = some m ∧ Declares neg (before ++ a) d m ∧ m.req = d.req := by
  induction a generalizing before y with
  | nil =>
    refine ⟨_, rfl, ⟨rfl, rfl, rfl, ?_⟩, rfl⟩
    rw [List.append_nil]
    exact (identify_wraps neg before d hy).1
  | cons x a ih =>
    obtain ⟨m, h1, h2, h3⟩ := ih (before ++ [x]) (identify_wraps neg before x hy).2
    refine ⟨m, ?_, ?_, h3⟩
    · rw [List.cons_append, built, List.length_cons, List.getElem?_cons_succ]; exact h1
    · rw [List.append_assoc, List.singleton_append] at h2; exact h2

theorem start_wraps (neg : Bool) : Wraps (lowest neg ([] : List (Decl T)).reverse - 1) (-1) := ⟨by decide, by simp [lowest]⟩

theorem fields_made {o : Options} {ds : List (Decl T)} {s : TStruct T} (e : fields o ds = .ok s) : Made o.allowNeg id ds s ∧ FieldsAccepted o ds := by
  obtain ⟨h1, h2, h3, h4⟩ := fieldList_ok inv_empty e
  rw [List.nil_append] at h1
  have each := fun (a : List (Decl T)) d b => built_each (T := T) o.allowNeg [] (start_wraps _) a d b
  simp only [List.nil_append] at each
  refine ⟨⟨by rw [h1, built_length], ?_, h2.same, h2.ordered, h2.named⟩, h3, h4, ?_, ?_⟩
  · intro a d b hd; rw [h1, hd]; exact each a d b
  · rw [← built_names o.allowNeg (-1), ← h1]; exact h2.named
  · rintro ⟨a, d, b, x, c, hd, hm⟩
    obtain ⟨m, hm1, hm2, _⟩ := each a d (b ++ x :: c)
    obtain ⟨n, hn1, hn2, _⟩ := each (a ++ d :: b) x c
    rw [show a ++ d :: (b ++ x :: c) = ds by rw [hd]; simp, ← h1] at hm1
    rw [← hd, ← h1] at hn1
    have hnd := h2.keys
    rw [List.nodup_iff_pairwise_ne, List.pairwise_iff_getElem] at hnd
    obtain ⟨hl1, hm1⟩ := List.getElem?_eq_some_iff.1 hm1
    obtain ⟨hl2, hn1⟩ := List.getElem?_eq_some_iff.1 hn1
    refine hnd a.length (a ++ d :: b).length (by simpa using hl1) (by simpa using hl2) (by simp) ?_
    rw [List.getElem_map, List.getElem_map, hm1, hn1]
    have h1 := hm2.key; have h2 := hn2.key
    unfold Wraps InRange at h1 h2; simp at *; omega

theorem fields_accepts {o : Options} {ds : List (Decl T)} (h : FieldsAccepted o ds) : ∃ s, fields o ds = .ok s := by
  refine fieldList_accepts inv_empty h.strict h.dots ?_ ?_
  · rw [List.nil_append, List.nodup_iff_pairwise_ne, List.pairwise_iff_getElem]
    intro i j hi hj hij hc
    simp only [List.length_map, built_length] at hi hj
    have hj' : ds.take j = ds.take i ++ ds[i] :: (ds.drop (i + 1)).take (j - i - 1) := by
      conv => lhs; rw [show j = i + (j - i) by omega, List.take_add, List.drop_eq_getElem_cons hi, show j - i = j - i - 1 + 1 by omega, List.take_succ_cons]
    have hd1 : ds = ds.take i ++ ds[i] :: ds.drop (i + 1) := by rw [← List.drop_eq_getElem_cons hi, List.take_append_drop]
    have hd2 : ds = ds.take j ++ ds[j] :: ds.drop (j + 1) := by rw [← List.drop_eq_getElem_cons hj, List.take_append_drop]
    obtain ⟨m, hm1, hm2, _⟩ := built_each o.allowNeg [] (start_wraps _) (ds.take i) ds[i] (ds.drop (i + 1))
    obtain ⟨n, hn1, hn2, _⟩ := built_each o.allowNeg [] (start_wraps _) (ds.take j) ds[j] (ds.drop (j + 1))
    rw [← hd1, List.length_take_of_le (by omega)] at hm1
    rw [← hd2, List.length_take_of_le (by omega)] at hn1
    obtain ⟨hl1, hm1⟩ := List.getElem?_eq_some_iff.1 hm1
    obtain ⟨hl2, hn1⟩ := List.getElem?_eq_some_iff.1 hn1
    rw [List.getElem_map, List.getElem_map, hm1, hn1] at hc
    rw [List.nil_append] at hm2 hn2
    refine h.numbers ⟨ds.take i, ds[i], (ds.drop (i + 1)).take (j - i - 1), ds[j], ds.drop (j + 1), ?_, ?_⟩
    · rw [← hj']; exact hd2
    · rw [← hj']
      have h1 := hm2.key.2; have h2 := hn2.key.2
      simp at *; omega
  · rw [List.nil_append, built_names]; exact h.names

/-! ### Structs -/

theorem _root_.Thrift.Spec.Structs.Made.each_map {neg : Bool} {r r' : Req → Req} {ds : List (Decl T)} {s : TStruct T} (h : Made neg r ds s) (f : Member T → Member T)
    (hf : ∀ m, f m = { m with req := r' m.req }) : Made neg (fun x => r' (r x)) ds (s.each f) := by
  have hf' : f = fun m => { m with req := r' m.req } := funext hf
  subst hf'
  refine ⟨by simpa [TStruct.each] using h.length, ?_, h.same.map _, List.pairwise_map.2 h.ordered, ?_⟩
  · intro a d b hd
    obtain ⟨m, h1, h2, h3⟩ := h.each a d b hd
    refine ⟨{ m with req := r' m.req }, ?_, ⟨h2.name, h2.type, h2.value, h2.key⟩, by dsimp only; rw [h3]⟩
    show (s.members.map _)[a.length]? = _
    rw [List.getElem?_map, h1]; rfl
  · simpa [TStruct.each, Function.comp_def] using h.named

theorem values_perm {neg : Bool} {ds : List (Decl T)} {s : TStruct T} (h : s.members = built neg (-1) ds) (hp : s.sorted.Perm s.members) :
    (s.sorted.filter (·.value.isSome)).length = (ds.filter (·.value.isSome)).length := by
  rw [(hp.filter _).length_eq, h, ← List.countP_eq_length_filter, ← List.countP_eq_length_filter]
  have h1 := List.countP_map (p := Option.isSome) (f := Member.value) (l := built neg (-1) ds)
  have h2 := List.countP_map (p := Option.isSome) (f := Decl.value) (l := ds)
  rw [built_values] at h1
  rw [h2] at h1
  exact h1.symm

theorem struct_cases (o : Options) (d : StructDecl T) :
    (∃ e, struct o d = .error e ∧ ¬ (FieldsAccepted o d.fields ∧ NoDot d.name ∧ (d.kind = .union → (d.fields.filter (·.value.isSome)).length ≤ 1))) ∨
    (∃ s, struct o d = .ok s ∧ Made o.allowNeg (if d.kind = .union then fun _ => .optional else id) d.fields s ∧
      FieldsAccepted o d.fields ∧ NoDot d.name ∧ (d.kind = .union → (d.fields.filter (·.value.isSome)).length ≤ 1)) := by
  unfold struct
  cases e : fields o d.fields with
  | error x =>
    refine .inl ⟨x, rfl, fun h => ?_⟩
    obtain ⟨s, h⟩ := fields_accepts h.1
    rw [e] at h; cases h
  | ok s =>
    obtain ⟨hm, ha⟩ := fields_made e
    have hv := values_perm (by simpa using (fieldList_ok inv_empty e).1) hm.same
    dsimp only
    by_cases hs : simple d.name = true
    · rw [if_neg (by simp [hs])]
      have hn := (simple_iff _).1 hs
      by_cases hu : d.kind = .union
      · rw [if_pos hu]
        by_cases hc : 1 < (s.sorted.filter (·.value.isSome)).length
        · rw [if_pos hc]; exact .inl ⟨_, rfl, fun h => by have := h.2.2 hu; omega⟩
        · rw [if_neg hc]
          refine .inr ⟨_, rfl, ?_, ha, hn, fun _ => by omega⟩
          rw [if_pos hu]
          exact hm.each_map (r' := fun _ => .optional) _ fun _ => rfl
      · rw [if_neg hu]
        refine .inr ⟨_, rfl, ?_, ha, hn, fun h => absurd h hu⟩
        rw [if_neg hu]; exact hm
    · rw [if_pos (by simp [hs])]
      exact .inl ⟨_, rfl, fun h => hs ((simple_iff _).2 h.2.1)⟩

theorem lowest_count (before : List (Decl T)) : lowest false before = -(before.countP implicit : Int) := by
  induction before with
  | nil => rfl
  | cons d before ih =>
    rw [lowest, List.countP_cons, ih]
    cases e : d.id with
    | none => rw [show implicit d = true by unfold implicit; rw [e]]; simp; omega
    | some n =>
      by_cases h : 0 < n
      · rw [show implicit d = false by unfold implicit; rw [e]; simp; omega]; simp [h]
      · rw [show implicit d = true by unfold implicit; rw [e]; simp; omega]; simp [h]; omega

theorem number_written {neg : Bool} {before : List (Decl T)} {d : Decl T} {n : Int} (h : d.id = some n) (hn : 0 < n) : number neg before d = n := by
  unfold number; rw [h]; simp [hn]

theorem number_counted {before : List (Decl T)} {d : Decl T} (h : implicit d = true) : number false before d = -(before.countP implicit : Int) - 1 := by
  unfold number
  rw [lowest_count, List.countP_reverse]
  unfold implicit at h
  cases e : d.id with
  | none => rfl
  | some n => rw [e] at h; simp at h; simp [show ¬ 0 < n by omega]

theorem wraps_eq {n k : Int} (h : Wraps n k) (hr : InRange 32 n) : k = n := by
  unfold Wraps InRange at *; simp at *; omega

/-- Every field of a struct was declared. -/
theorem _root_.Thrift.Spec.Structs.Made.from {neg : Bool} {r : Req → Req} {ds : List (Decl T)} {s : TStruct T} (h : Made neg r ds s) {m : Member T} (hm : m ∈ s.members) :
    ∃ a d b, ds = a ++ d :: b ∧ s.members[a.length]? = some m ∧ Declares neg a d m ∧ m.req = r d.req := by
  obtain ⟨i, hi, rfl⟩ := List.mem_iff_getElem.1 hm
  have hi' : i < ds.length := h.length ▸ hi
  have hd : ds = ds.take i ++ ds[i] :: ds.drop (i + 1) := by rw [← List.drop_eq_getElem_cons hi', List.take_append_drop]
  obtain ⟨m, h1, h2, h3⟩ := h.each _ _ _ hd
  have hl : (ds.take i).length = i := List.length_take_of_le (by omega)
  refine ⟨_, _, _, hd, ?_⟩
  rw [hl] at h1 ⊢
  rw [List.getElem?_eq_getElem hi] at h1 ⊢
  cases h1
  exact ⟨rfl, h2, h3⟩

theorem _root_.Thrift.Spec.Structs.Made.fieldsOK {neg : Bool} {r : Req → Req} {ds : List (Decl Ty)} {s : TStruct Ty} (h : Made neg r ds s)
    (hr : ∀ a d b, ds = a ++ d :: b → InRange 16 (number neg a d)) : FieldsOK s.schema := by
  refine ⟨List.pairwise_map.2 h.ordered, fun f hf => ?_⟩
  obtain ⟨m, hm, rfl⟩ := List.mem_map.1 hf
  obtain ⟨a, d, b, hd, _, h2, _⟩ := h.from (h.same.mem_iff.1 hm)
  have := hr a d b hd
  rw [wraps_eq h2.key (by unfold InRange at *; simp at *; omega)]
  exact this

theorem _root_.Thrift.Spec.Structs.Made.positive {neg : Bool} {r : Req → Req} {ds : List (Decl Ty)} {s : TStruct Ty} (h : Made neg r ds s) (he : Explicit ds) :
    FieldsOK s.schema ∧ (∀ f ∈ s.schema, 0 < f.fid) ∧ ∀ m ∈ s.members, 0 < m.key := by
  have hk : ∀ m ∈ s.members, 0 < m.key := by
    intro m hm
    obtain ⟨a, d, b, hd, _, h2, _⟩ := h.from hm
    obtain ⟨n, h3, h4, h5⟩ := he d (by rw [hd]; simp)
    have hk := h2.key
    rw [number_written h3 h4] at hk
    rw [wraps_eq hk (by unfold InRange; simp; omega)]; exact h4
  refine ⟨h.fieldsOK fun a d b hd => ?_, fun f hf => ?_, hk⟩
  · obtain ⟨n, h1, h2, h3⟩ := he d (by rw [hd]; simp)
    rw [number_written h1 h2]
    unfold InRange; simp; omega
  · obtain ⟨m, hm, rfl⟩ := List.mem_map.1 hf
    exact hk m (h.same.mem_iff.1 hm)

/-! ### Order -/

theorem sorted_eq {l₁ l₂ : List (Member T)} (h1 : l₁.Pairwise fun m n => m.key < n.key) (h2 : l₂.Pairwise fun m n => m.key < n.key) (h : l₁.Perm l₂) : l₁ = l₂ :=
  h.eq_of_pairwise (le := fun m n : Member T => m.key < n.key) (fun a b _ _ h h' => by omega) h1 h2

/-- Fields whose numbers are written are made into the same fields wherever they stand. -/
theorem built_explicit {neg : Bool} {ds : List (Decl T)} (h : ∀ d ∈ ds, ∃ n, d.id = some n ∧ 0 < n) (y : Int) :
    built neg y ds = ds.map fun d => { key := int32 (d.id.getD 0), req := d.req, ty := d.ty, name := d.name, value := d.value } := by
  induction ds generalizing y with
  | nil => rfl
  | cons d ds ih =>
    obtain ⟨n, hn, hp⟩ := h d (by simp)
    have hi : identify neg d.id y = ({ value := int32 n, auto_ := false }, y) := by
      unfold identify; rw [hn]; simp [show ¬ n ≤ 0 by omega]
    rw [built, hi, List.map_cons, ih fun x hx => h x (List.mem_cons_of_mem _ hx), hn]
    rfl

/-- What is made of the fields after one whose number is written does not depend on it. -/
theorem built_insert {neg : Bool} (a b : List (Decl T)) (d : Decl T) (n : Int) (hd : d.id = some n) (hn : 0 < n) (y : Int) :
    ∃ l₁ l₂, built neg y (a ++ b) = l₁ ++ l₂ ∧ l₁.length = a.length ∧
      built neg y (a ++ d :: b) = l₁ ++ { key := int32 n, req := d.req, ty := d.ty, name := d.name, value := d.value } :: l₂ := by
  induction a generalizing y with
  | nil =>
    refine ⟨[], built neg y b, rfl, rfl, ?_⟩
    have hi : identify neg d.id y = ({ value := int32 n, auto_ := false }, y) := by
      unfold identify; rw [hd]; simp [show ¬ n ≤ 0 by omega]
    rw [List.nil_append, built, hi]; rfl
  | cons x a ih =>
    obtain ⟨l₁, l₂, h1, h2, h3⟩ := ih (identify neg x.id y).2
    refine ⟨{ key := (identify neg x.id y).1.value, req := x.req, ty := x.ty, name := x.name, value := x.value } :: l₁, l₂, ?_, ?_, ?_⟩
    · rw [List.cons_append, built, h1]; rfl
    · rw [List.length_cons, List.length_cons, h2]
    · rw [List.cons_append, built, h3]; rfl

/-! ### Functions -/

theorem function_cases (o : Options) (isExc : T → Bool) (d : FnDecl T) :
    (∃ e, function o isExc d = .error e ∧ ¬ (FieldsAccepted o d.args ∧ FieldsAccepted o d.throws ∧ NoDot d.name ∧ (∀ x ∈ d.throws, isExc x.ty = true) ∧
      (d.oneway = true → d.throws = []))) ∨
    (∃ f, function o isExc d = .ok f ∧ f.oneway = d.oneway ∧ f.returns = d.returns ∧ f.name = d.name ∧ Made o.allowNeg id d.args f.args ∧
      Made o.allowNeg (fun r => if r = .required then .default_ else r) d.throws f.xceptions ∧
      (FieldsAccepted o d.args ∧ FieldsAccepted o d.throws ∧ NoDot d.name ∧ (∀ x ∈ d.throws, isExc x.ty = true) ∧ (d.oneway = true → d.throws = []))) := by
  unfold function
  cases ea : fields o d.args with
  | error x =>
    refine .inl ⟨x, rfl, fun h => ?_⟩
    obtain ⟨s, h⟩ := fields_accepts h.1
    rw [ea] at h; cases h
  | ok a =>
    obtain ⟨ham, haa⟩ := fields_made ea
    dsimp only
    cases ex : fields o d.throws with
    | error x =>
      refine .inl ⟨x, rfl, fun h => ?_⟩
      obtain ⟨s, h⟩ := fields_accepts h.2.1
      rw [ex] at h; cases h
    | ok x =>
      obtain ⟨hxm, hxa⟩ := fields_made ex
      dsimp only
      have ht : throwsOk isExc x = true ↔ ∀ x ∈ d.throws, isExc x.ty = true := by
        unfold throwsOk
        rw [List.all_eq_true]
        constructor
        · intro h t htm
          obtain ⟨u, v, rfl'⟩ := List.append_of_mem htm
          obtain ⟨m, h1, h2, _⟩ := hxm.each _ _ _ rfl'
          rw [← h2.type]
          exact h m (List.mem_of_getElem? h1)
        · intro h m hm
          obtain ⟨u, t, v, he, _, h2, _⟩ := hxm.from hm
          rw [h2.type]
          exact h t (by rw [he]; simp)
      have hempty : x.members.isEmpty = true ↔ d.throws = [] := by
        rw [List.isEmpty_iff, ← List.length_eq_zero_iff, hxm.length, List.length_eq_zero_iff]
      by_cases h1 : throwsOk isExc x = true
      · rw [if_neg (by simp [h1])]
        by_cases h2 : simple d.name = true
        · rw [if_neg (by simp [h2])]
          by_cases h3 : (d.oneway && !x.members.isEmpty) = true
          · rw [if_pos h3]
            refine .inl ⟨_, rfl, fun h => ?_⟩
            rw [Bool.and_eq_true] at h3
            have := hempty.2 (h.2.2.2.2 h3.1)
            rw [this] at h3; exact absurd h3.2 (by simp)
          · rw [if_neg h3]
            refine .inr ⟨_, rfl, rfl, rfl, rfl, ham, hxm.each_map (r' := fun r => if r = .required then .default_ else r) _ fun _ => rfl, haa, hxa, (simple_iff _).1 h2, ht.1 h1, fun hw => ?_⟩
            rw [hw] at h3
            exact hempty.1 (by simpa using h3)
        · rw [if_pos (by simp [h2])]
          exact .inl ⟨_, rfl, fun h => h2 ((simple_iff _).2 h.2.2.1)⟩
      · rw [if_pos (by simp [h1])]
        exact .inl ⟨_, rfl, fun h => h1 (ht.2 h.2.2.2.1)⟩

theorem foldl_appends (l : List (Member T)) (s : TStruct T) (h : Inv s) (hk : ((s.members ++ l).map (·.key)).Nodup) (hn : ((s.members ++ l).map (·.name)).Nodup) :
    (l.foldl (fun s m => tryAppend m s) s).members = s.members ++ l ∧ Inv (l.foldl (fun s m => tryAppend m s) s) := by
  induction l generalizing s with
  | nil => exact ⟨by simp, h⟩
  | cons m l ih =>
    obtain ⟨s', e, hm, hi⟩ := append_ok (m := m) h
      (by
        rw [List.map_append, List.nodup_append] at hk
        exact fun hc => hk.2.2 _ hc _ (by simp) rfl)
      (by
        rw [List.map_append, List.nodup_append] at hn
        exact fun hc => hn.2.2 _ hc _ (by simp) rfl)
    rw [List.foldl_cons, show tryAppend m s = s' by unfold tryAppend; rw [e]; rfl]
    have := ih s' hi (by rw [hm]; simpa using hk) (by rw [hm]; simpa using hn)
    rw [hm] at this
    exact ⟨by rw [this.1]; simp, this.2⟩

/-- The field of the result -/
def successMember (ty : T) : Member T := { key := 0, req := .default_, ty := ty, name := successField, value := none }

theorem result_sorted {neg : Bool} {r : Req → Req} {ds : List (Decl T)} (f : Function T) (h : Made neg r ds f.xceptions) (hpos : ∀ m ∈ f.xceptions.members, 0 < m.key)
    (hsucc : ∀ x ∈ ds, x.name ≠ pyStr "success") :
    (resultStruct f).sorted = (match f.returns with | some ty => [successMember ty] | none => []) ++ f.xceptions.sorted := by
  have hi : Inv f.xceptions := ⟨h.same, h.ordered, h.named⟩
  unfold resultStruct
  cases f.returns with
  | none =>
    dsimp only
    obtain ⟨h1, h2⟩ := foldl_appends f.xceptions.members {} inv_empty (by simpa using hi.keys) (by simpa using hi.named)
    refine sorted_eq h2.ordered h.ordered (h2.same.trans ?_)
    rw [h1]; exact h.same.symm
  | some ty =>
    have e : tryAppend (successMember ty) {} = { members := [successMember ty], sorted := [successMember ty] } := rfl
    have hs : Inv { members := [successMember ty], sorted := [successMember ty] } := ⟨.refl _, by simp, by simp⟩
    dsimp only
    show ((f.xceptions.members.foldl (fun s m => tryAppend m s) (tryAppend (successMember ty) {})).sorted) = _
    rw [e]
    obtain ⟨h1, h2⟩ := foldl_appends f.xceptions.members _ hs
      (by
        rw [List.singleton_append, List.map_cons, List.nodup_cons]
        refine ⟨fun hc => ?_, hi.keys⟩
        obtain ⟨m, hm, hm0⟩ := List.mem_map.1 hc
        have := hpos m hm
        rw [show (successMember ty).key = 0 from rfl] at hm0
        omega)
      (by
        rw [List.singleton_append, List.map_cons, List.nodup_cons]
        refine ⟨fun hc => ?_, hi.named⟩
        obtain ⟨m, hm, hm0⟩ := List.mem_map.1 hc
        obtain ⟨a, d, b, hd, _, h2, _⟩ := h.from hm
        exact hsucc d (by rw [hd]; simp) (by rw [← h2.name, hm0]; rfl))
    refine sorted_eq h2.ordered ?_ (h2.same.trans ?_)
    · rw [List.singleton_append, List.pairwise_cons]
      exact ⟨fun m hm => hpos m (h.same.mem_iff.1 hm), h.ordered⟩
    · rw [h1]; exact (List.Perm.refl _).append h.same.symm

/-! ### Programs -/

theorem functions_ok {o : Options} {isExc : T → Bool} {ds : List (FnDecl T)} {acc fs : List (Function T)} (e : functions o isExc ds acc = .ok fs)
    (hn : (acc.map (·.name)).Nodup) :
    ∃ gs, fs = acc ++ gs ∧ gs.length = ds.length ∧ (∀ (i : Nat) d, ds[i]? = some d → ∃ f, gs[i]? = some f ∧ function o isExc d = .ok f) ∧ (fs.map (·.name)).Nodup := by
  induction ds generalizing acc with
  | nil => cases e; exact ⟨[], by simp, rfl, by simp, hn⟩
  | cons d ds ih =>
    rw [functions] at e
    cases ef : function o isExc d with
    | error x => rw [ef] at e; cases e
    | ok f =>
      rw [ef] at e
      dsimp only at e
      split at e
      · cases e
      · rename_i hc
        obtain ⟨gs, h1, h2, h3, h4⟩ := ih e (by
          rw [List.map_append, List.nodup_append]
          refine ⟨hn, by simp, fun a ha b hb hab => ?_⟩
          simp only [List.map_cons, List.map_nil, List.mem_singleton] at hb
          subst hb hab
          obtain ⟨g, hg, hgn⟩ := List.mem_map.1 ha
          exact hc (List.any_eq_true.2 ⟨g, hg, by simpa using hgn⟩))
        refine ⟨f :: gs, by rw [h1]; simp, by simp [h2], fun i x hx => ?_, h4⟩
        cases i with
        | zero => rw [List.getElem?_cons_zero] at hx; cases hx; exact ⟨f, rfl, ef⟩
        | succ i => exact h3 i x (by simpa using hx)

theorem functions_accepts {o : Options} {isExc : T → Bool} {ds : List (FnDecl T)} {acc : List (Function T)} (h : ∀ d ∈ ds, ∃ f, function o isExc d = .ok f)
    (hn : (acc.map (·.name) ++ ds.map (·.name)).Nodup) : ∃ fs, functions o isExc ds acc = .ok fs := by
  induction ds generalizing acc with
  | nil => exact ⟨acc, rfl⟩
  | cons d ds ih =>
    obtain ⟨f, ef⟩ := h d (by simp)
    have hname : f.name = d.name := by
      rcases function_cases o isExc d with ⟨e, he, _⟩ | ⟨g, hg, _, _, h3, _⟩
      · rw [ef] at he; cases he
      · rw [ef] at hg; cases hg; exact h3
    rw [functions, ef]
    dsimp only
    rw [if_neg]
    · exact ih (fun x hx => h x (List.mem_cons_of_mem _ hx)) (by simpa [hname] using hn)
    · intro hc
      obtain ⟨g, hg, hgn⟩ := List.any_eq_true.1 hc
      rw [List.map_cons, List.nodup_append] at hn
      exact hn.2.2 g.name (List.mem_map_of_mem hg) d.name (by simp) (by rw [← hname]; simpa using hgn)

theorem structs_ok {o : Options} {ds : List StructDecl} {ss : List TStruct} (e : structs o ds = .ok ss) :
    ss.length = ds.length ∧ ∀ (i : Nat) d, ds[i]? = some d → ∃ s, ss[i]? = some s ∧ struct o d = .ok s := by
  induction ds generalizing ss with
  | nil => cases e; exact ⟨rfl, by simp⟩
  | cons d ds ih =>
    rw [structs] at e
    cases es : struct o d with
    | error x => rw [es] at e; cases e
    | ok s =>
      rw [es] at e
      dsimp only at e
      cases et : structs o ds with
      | error x => rw [et] at e; cases e
      | ok tt =>
        rw [et] at e; cases e
        obtain ⟨h1, h2⟩ := ih et
        refine ⟨by simp [h1], fun i x hx => ?_⟩
        cases i with
        | zero => rw [List.getElem?_cons_zero] at hx; cases hx; exact ⟨s, rfl, es⟩
        | succ i => exact h2 i x (by simpa using hx)

theorem structs_accepts {o : Options} {ds : List StructDecl} (h : ∀ d ∈ ds, ∃ s, struct o d = .ok s) : ∃ ss, structs o ds = .ok ss := by
  induction ds with
  | nil => exact ⟨[], rfl⟩
  | cons d ds ih =>
    obtain ⟨s, es⟩ := h d (by simp)
    obtain ⟨ss, et⟩ := ih fun x hx => h x (List.mem_cons_of_mem _ hx)
    rw [structs, es]; dsimp only; rw [et]; exact ⟨_, rfl⟩

theorem pairs_get {α β : Type} (a b : α → β) (l : List α) (i : Nat) :
    (l.flatMap fun f => [a f, b f])[2 * i]? = l[i]?.map a ∧ (l.flatMap fun f => [a f, b f])[2 * i + 1]? = l[i]?.map b := by
  induction l generalizing i with
  | nil => simp
  | cons x l ih =>
    rw [List.flatMap_cons]
    cases i with
    | zero => simp
    | succ i =>
      have := ih i
      rw [show 2 * (i + 1) = 2 * i + 1 + 1 by omega]
      simpa using this

theorem fnsFrom_get (n : Nat) (fs : List Function) (i : Nat) : (fnsFrom n fs)[i]? = fs[i]?.map fun f => f.fn (n + 2 * i) (n + 2 * i + 1) := by
  induction fs generalizing n i with
  | nil => simp [fnsFrom]
  | cons f fs ih =>
    rw [fnsFrom]
    cases i with
    | zero => simp
    | succ i =>
      rw [List.getElem?_cons_succ, List.getElem?_cons_succ, ih, show n + 2 + 2 * i = n + 2 * (i + 1) by omega]

theorem classes_fn (ss : List TStruct) (fs : List Function) (i : Nat) :
    (classes ss fs)[ss.length + 2 * i]? = fs[i]?.map (·.args) ∧ (classes ss fs)[ss.length + 2 * i + 1]? = fs[i]?.map resultStruct := by
  unfold classes
  obtain ⟨h1, h2⟩ := pairs_get (fun f : Function => f.args) resultStruct fs i
  constructor
  · rw [List.getElem?_append_right (by omega), Nat.add_sub_cancel_left]; exact h1
  · rw [List.getElem?_append_right (by omega), show ss.length + 2 * i + 1 - ss.length = 2 * i + 1 by omega]; exact h2

end Thrift.Structs
