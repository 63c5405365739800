import Verif.Spec.Audit
import Verif.Proofs.Structs
import Verif.Proofs.Versions
/-
Lemmas about the audit.
-/

namespace Thrift.Audit
open Rpc Spec Spec.Audit Spec.Structs
open Thrift.Structs hiding Program

/-! ### Types -/

theorem base_name (a b : Base) : a.name = b.name ↔ a = b ∨ (Text a ∧ Text b) := by
  unfold Text
  cases a <;> cases b <;> decide

theorem base_ne_nil (a : Base) : a.name ≠ [] := by cases a <;> decide

theorem base_named {b : Base} {n : PyStr} (h : Identifier n) : b.name ≠ n := by
  rintro rfl
  exact h.2 (by cases b <;> decide)

theorem names_iff (a b : Written) : (if a.name = [] ∧ b.name = [] then false else a.name == b.name) = true ↔ a.name ≠ [] ∧ a.name = b.name := by
  by_cases h : a.name = [] ∧ b.name = []
  · rw [if_pos h]; simp [h.1]
  · rw [if_neg h, beq_iff_eq]
    exact ⟨fun e => ⟨fun ha => h ⟨ha, e ▸ ha⟩, e⟩, fun e => e.2⟩

theorem compareType_iff (a b : Written) (ha : Lexed a) (hb : Lexed b) : compareType a b = true ↔ Same a b := by
  induction a generalizing b with
  | base x =>
    cases b <;> simp only [compareType, names_iff] <;> simp only [Written.name, Same, ne_eq, base_ne_nil, not_false_eq_true, true_and, base_name]
    rename_i n
    exact iff_of_false (base_named hb) id
  | named m =>
    cases b <;> simp only [compareType, names_iff] <;> simp only [Written.name, Same, ne_eq]
    · rename_i y
      exact iff_of_false (fun h => base_named ha h.2.symm) id
    · exact ⟨fun h => h.2, fun h => ⟨ha.1, h⟩⟩
    all_goals exact iff_of_false (fun h => h.1 h.2) id
  | list x ih =>
    cases b <;> simp only [compareType, names_iff] <;> simp only [Written.name, Same, ne_eq, not_true_eq_false, false_and]
    exact ih _ ha hb
  | set x ih =>
    cases b <;> simp only [compareType, names_iff] <;> simp only [Written.name, Same, ne_eq, not_true_eq_false, false_and]
    exact ih _ ha hb
  | map x y ih1 ih2 =>
    cases b <;> simp only [compareType, names_iff] <;> simp only [Written.name, Same, ne_eq, not_true_eq_false, false_and, Bool.and_eq_true]
    rw [ih1 _ ha.1 hb.1, ih2 _ ha.2 hb.2]

theorem same_refl (w : Written) : Same w w := by
  induction w with
  | base b => exact .inl rfl
  | named n => rfl
  | list e ih => exact ih
  | set e ih => exact ih
  | map k v ih1 ih2 => exact ⟨ih1, ih2⟩

theorem compareReturn_iff (a b : Option Written) (ha : ∀ w, a = some w → Lexed w) (hb : ∀ w, b = some w → Lexed w) :
    compareReturn a b = true ↔ SameReturn a b := by
  have void : ∀ w, Lexed w → w.name ≠ pyStr "void" := by
    intro w hw
    cases w with
    | base b => cases b <;> decide
    | named n => exact fun h => hw.2 (by rw [show n = pyStr "void" from h]; decide)
    | _ => exact (by decide : ([] : PyStr) ≠ pyStr "void")
  cases a <;> cases b <;> simp only [compareReturn, SameReturn]
  · simp only [beq_iff_eq, iff_false]
    exact fun h => void _ (hb _ rfl) h.symm
  · simp only [beq_iff_eq, iff_false]
    exact void _ (ha _ rfl)
  · exact compareType_iff _ _ (ha _ rfl) (hb _ rfl)

/-! ### Fields -/

theorem compareField_iff (s : PyStr) (n o : Member Written) (hn : Lexed n.ty) (ho : Lexed o.ty) :
    compareField s n o = [] ↔ Same n.ty o.ty ∧ (n.req = .required ↔ o.req = .required) := by
  unfold compareField
  rw [List.append_eq_nil_iff, ← compareType_iff _ _ hn ho]
  apply and_congr
  · cases compareType n.ty o.ty <;> simp
  · by_cases h1 : n.req = .required <;> by_cases h2 : o.req = .required <;> simp [h1, h2]

theorem compareStruct_iff (s : PyStr) (new old : List (Member Written)) (hn : new.Pairwise fun m n => m.key < n.key) (ho : old.Pairwise fun m n => m.key < n.key)
    (hln : ∀ m ∈ new, Lexed m.ty) (hlo : ∀ m ∈ old, Lexed m.ty) : compareStruct s new old = [] ↔ Keeps new old := by
  fun_induction compareStruct s new old with
  | case1 => simp only [true_iff]; exact ⟨by simp, by simp⟩
  | case2 o os ih =>
    simp only [reduceCtorEq, false_iff]
    intro h
    obtain ⟨n, hn, _⟩ := h.kept o (by simp)
    cases hn
  | case3 n ns ih =>
    rw [List.append_eq_nil_iff, ih (List.pairwise_cons.1 hn).2 ho (fun m hm => hln m (List.mem_cons_of_mem _ hm)) hlo]
    constructor
    · rintro ⟨h1, h2⟩
      refine ⟨by simp, fun x hx _ => ?_⟩
      rcases List.mem_cons.1 hx with rfl | hx
      · refine ⟨fun hc => ?_, by simp⟩
        rw [if_pos hc] at h1; cases h1
      · exact h2.added x hx (by simp)
    · intro h
      refine ⟨if_neg (h.added n (by simp) (by simp)).1, by simp, fun x hx _ => h.added x (List.mem_cons_of_mem _ hx) (by simp)⟩
  | case4 n ns o os hk ih =>
    have hn' := List.pairwise_cons.1 hn
    have ho' := List.pairwise_cons.1 ho
    rw [List.append_eq_nil_iff, compareField_iff _ _ _ (hln n (by simp)) (hlo o (by simp)),
      ih hn'.2 ho'.2 (fun m hm => hln m (List.mem_cons_of_mem _ hm)) (fun m hm => hlo m (List.mem_cons_of_mem _ hm))]
    constructor
    · rintro ⟨⟨h1, h2⟩, h3⟩
      refine ⟨fun x hx => ?_, fun x hx hno => ?_⟩
      · rcases List.mem_cons.1 hx with rfl | hx
        · exact ⟨n, by simp, hk, h1, h2⟩
        · obtain ⟨y, hy, h⟩ := h3.kept x hx
          exact ⟨y, List.mem_cons_of_mem _ hy, h⟩
      · rcases List.mem_cons.1 hx with rfl | hx
        · exact absurd hk.symm (hno o (by simp))
        · obtain ⟨h4, h5⟩ := h3.added x hx fun y hy => hno y (List.mem_cons_of_mem _ hy)
          refine ⟨h4, fun y hy => ?_⟩
          rcases List.mem_cons.1 hy with rfl | hy
          · have := hn'.1 x hx; omega
          · exact h5 y hy
    · intro h
      refine ⟨?_, fun x hx => ?_, fun x hx hno => ?_⟩
      · obtain ⟨y, hy, h1, h2⟩ := h.kept o (by simp)
        rcases List.mem_cons.1 hy with rfl | hy
        · exact h2
        · have := hn'.1 y hy; omega
      · obtain ⟨y, hy, h1, h2⟩ := h.kept x (List.mem_cons_of_mem _ hx)
        rcases List.mem_cons.1 hy with rfl | hy
        · have := ho'.1 x hx; omega
        · exact ⟨y, hy, h1, h2⟩
      · obtain ⟨h1, h2⟩ := h.added x (List.mem_cons_of_mem _ hx) (by
          intro y hy
          rcases List.mem_cons.1 hy with rfl | hy
          · have := hn'.1 x hx; omega
          · exact hno y hy)
        exact ⟨h1, fun y hy => h2 y (List.mem_cons_of_mem _ hy)⟩
  | case5 n ns o os hk hlt ih =>
    simp only [reduceCtorEq, false_iff]
    intro h
    have ho' := List.pairwise_cons.1 ho
    have := (h.added n (by simp) (by
      intro y hy
      rcases List.mem_cons.1 hy with rfl | hy
      · omega
      · have := ho'.1 y hy; omega)).2 o (by simp)
    omega
  | case6 n ns o os hk hlt ih =>
    simp only [reduceCtorEq, false_iff]
    intro h
    have hn' := List.pairwise_cons.1 hn
    obtain ⟨y, hy, h1, _⟩ := h.kept o (by simp)
    rcases List.mem_cons.1 hy with rfl | hy
    · omega
    · have := hn'.1 y hy; omega

theorem keeps_congr {a b c d : List (Member Written)} (h1 : ∀ m, m ∈ a ↔ m ∈ c) (h2 : ∀ m, m ∈ b ↔ m ∈ d) (h : Keeps a b) : Keeps c d where
  kept o ho := by
    obtain ⟨n, hn, h⟩ := h.kept o ((h2 o).2 ho)
    exact ⟨n, (h1 n).1 hn, h⟩
  added n hn hno := by
    obtain ⟨h3, h4⟩ := h.added n ((h1 n).2 hn) fun o ho => hno o ((h2 o).1 ho)
    exact ⟨h3, fun o ho => h4 o ((h2 o).2 ho)⟩

/-! ### Names -/

section
variable {α : Type} {name : α → PyStr} {l : List α}

theorem eq_of_name (h : (l.map name).Nodup) {x y : α} (hx : x ∈ l) (hy : y ∈ l) (e : name x = name y) : x = y := by
  induction l with
  | nil => cases hx
  | cons a l ih =>
    rw [List.map_cons, List.nodup_cons] at h
    rcases List.mem_cons.1 hx with rfl | hx' <;> rcases List.mem_cons.1 hy with rfl | hy'
    · rfl
    · exact absurd (List.mem_map.2 ⟨y, hy', e.symm⟩) h.1
    · exact absurd (List.mem_map.2 ⟨x, hx', e⟩) h.1
    · exact ih h.2 hx' hy'

theorem find_iff (h : (l.map name).Nodup) {n : PyStr} {x : α} : (l.find? fun y => name y == n) = some x ↔ x ∈ l ∧ name x = n := by
  constructor
  · intro e
    exact ⟨List.mem_of_find?_eq_some e, by simpa using List.find?_some e⟩
  · rintro ⟨h1, rfl⟩
    cases e : l.find? fun y => name y == name x with
    | none => exact absurd (List.find?_eq_none.1 e x h1) (by simp)
    | some y => rw [eq_of_name h (List.mem_of_find?_eq_some e) h1 (by simpa using List.find?_some e)]

theorem byName_iff (h : (l.map name).Nodup) {n : PyStr} {x : α} : byName name l n = some x ↔ x ∈ l ∧ name x = n := by
  unfold byName
  rw [find_iff (by rw [List.map_reverse]; exact (List.reverse_perm _).nodup_iff.2 h), List.mem_reverse]

theorem byName_none {n : PyStr} : byName name l n = none ↔ ∀ x ∈ l, name x ≠ n := by
  simp [byName]

end

/-- A struct as the parser makes it -/
structure Tidy (s : TStruct Written) : Prop where
  same : s.sorted.Perm s.members
  ordered : s.sorted.Pairwise fun m n => m.key < n.key
  lexed : ∀ m ∈ s.members, Lexed m.ty

theorem struct_iff (name : PyStr) {n o : TStruct Written} (hn : Tidy n) (ho : Tidy o) : compareStruct name n.sorted o.sorted = [] ↔ Keeps n.members o.members := by
  rw [compareStruct_iff name _ _ hn.ordered ho.ordered (fun m hm => hn.lexed m (hn.same.mem_iff.1 hm)) (fun m hm => ho.lexed m (ho.same.mem_iff.1 hm))]
  exact ⟨keeps_congr (fun _ => hn.same.mem_iff) fun _ => ho.same.mem_iff, keeps_congr (fun _ => hn.same.mem_iff.symm) fun _ => ho.same.mem_iff.symm⟩

/-- A function as the parser makes it -/
structure TidyFn (f : Function Written) : Prop where
  args : Tidy f.args
  xceptions : Tidy f.xceptions
  returns : ∀ w, f.returns = some w → Lexed w

/-- A program as the parser makes it -/
structure TidyProgram (p : Program) : Prop where
  structs : (p.structs.map Struct.name).Nodup
  xceptions : (p.xceptions.map Struct.name).Nodup
  enums : (p.enums.map Enum.name).Nodup
  services : (p.services.map Service.name).Nodup
  fns : ∀ s ∈ p.services, (s.fns.map Function.name).Nodup
  struct : ∀ s ∈ p.structs ++ p.xceptions, Tidy s.made
  fn : ∀ s ∈ p.services, ∀ f ∈ s.fns, TidyFn f

theorem compareStructs_iff {new old : List Struct} (hn : (new.map Struct.name).Nodup) (h1 : ∀ s ∈ new, Tidy s.made) (h2 : ∀ s ∈ old, Tidy s.made) :
    compareStructs new old = [] ↔ ∀ o ∈ old, ∃ n ∈ new, n.name = o.name ∧ Keeps n.made.members o.made.members := by
  unfold compareStructs
  rw [List.flatMap_eq_nil_iff]
  refine forall_congr' fun o => forall_congr' fun ho => ?_
  cases e : byName Struct.name new o.name with
  | none =>
    simp only [reduceCtorEq, false_iff]
    rintro ⟨n, hm, h, _⟩
    exact byName_none.1 e n hm h
  | some n =>
    obtain ⟨hm, hname⟩ := (byName_iff hn).1 e
    dsimp only
    rw [struct_iff _ (h1 n hm) (h2 o ho)]
    constructor
    · exact fun h => ⟨n, hm, hname, h⟩
    · rintro ⟨n', hm', h, hk⟩
      rwa [eq_of_name hn hm hm' (hname.trans h.symm)]

theorem compareEnums_iff {new old : List Enum} (hn : (new.map Enum.name).Nodup) :
    compareEnums new old = [] ↔ ∀ o ∈ old, ∀ n ∈ new, n.name = o.name → ∀ v ∈ o.values, v ∈ n.values := by
  unfold compareEnums
  rw [List.flatMap_eq_nil_iff]
  refine forall_congr' fun o => forall_congr' fun ho => ?_
  cases e : byName Enum.name new o.name with
  | none =>
    simp only [true_iff]
    exact fun n hm h => absurd h (byName_none.1 e n hm)
  | some n =>
    obtain ⟨hm, hname⟩ := (byName_iff hn).1 e
    dsimp only
    have : compareEnum n o = [] ↔ ∀ v ∈ o.values, v ∈ n.values := by
      unfold compareEnum
      rw [List.flatMap_eq_nil_iff]
      refine forall_congr' fun v => forall_congr' fun _ => ?_
      by_cases hv : v ∈ n.values <;> simp [hv]
    rw [this]
    constructor
    · intro h n' hm' h'
      rwa [eq_of_name hn hm' hm (h'.trans hname.symm)]
    · exact fun h => h n hm hname

theorem compareFunction_iff {n o : Function Written} (hname : n.name = o.name) (hn : TidyFn n) (ho : TidyFn o) : compareFunction n o = [] ↔ KeepsFunction n o := by
  unfold compareFunction
  rw [List.append_eq_nil_iff, List.append_eq_nil_iff, List.append_eq_nil_iff, struct_iff _ hn.args ho.args, struct_iff _ hn.xceptions ho.xceptions]
  have h1 : (if n.oneway = o.oneway then [] else [Failure.oneway o.name]) = [] ↔ n.oneway = o.oneway := by split <;> simp [*]
  have h2 : (if compareReturn n.returns o.returns = true then [] else [Failure.returnType o.name]) = [] ↔ SameReturn n.returns o.returns := by
    rw [← compareReturn_iff _ _ hn.returns ho.returns]; split <;> simp [*]
  rw [h1, h2]
  exact ⟨fun ⟨⟨⟨a, b⟩, c⟩, d⟩ => ⟨hname, a, b, c, d⟩, fun h => ⟨⟨⟨h.oneway, h.returns⟩, h.args⟩, h.throws⟩⟩

theorem compareFunctions_iff {new old : List (Function Written)} (hn : (new.map Function.name).Nodup) (h1 : ∀ f ∈ new, TidyFn f) (h2 : ∀ f ∈ old, TidyFn f) :
    compareFunctions new old = [] ↔ ∀ f ∈ old, ∃ g ∈ new, KeepsFunction g f := by
  unfold compareFunctions
  rw [List.flatMap_eq_nil_iff]
  refine forall_congr' fun o => forall_congr' fun ho => ?_
  cases e : byName Function.name new o.name with
  | none =>
    simp only [reduceCtorEq, false_iff]
    rintro ⟨n, hm, h⟩
    exact byName_none.1 e n hm h.name
  | some n =>
    obtain ⟨hm, hname⟩ := (byName_iff hn).1 e
    dsimp only
    rw [compareFunction_iff hname (h1 n hm) (h2 o ho)]
    constructor
    · exact fun h => ⟨n, hm, h⟩
    · rintro ⟨n', hm', h⟩
      rwa [eq_of_name hn hm hm' (hname.trans h.name.symm)]

theorem compareExtends_iff (s : PyStr) (new old : Option PyStr) : compareExtends s new old = [] ↔ ∀ e, old = some e → new = some e := by
  cases old <;> cases new <;> simp [compareExtends]

theorem compareServices_iff {new old : List Service} (hn : (new.map Service.name).Nodup) (hf : ∀ s ∈ new, (s.fns.map Function.name).Nodup)
    (h1 : ∀ s ∈ new, ∀ f ∈ s.fns, TidyFn f) (h2 : ∀ s ∈ old, ∀ f ∈ s.fns, TidyFn f) :
    compareServices new old = [] ↔ ∀ o ∈ old, ∃ n ∈ new, n.name = o.name ∧ (∀ e, o.extends_ = some e → n.extends_ = some e) ∧ ∀ f ∈ o.fns, ∃ g ∈ n.fns, KeepsFunction g f := by
  unfold compareServices
  rw [List.flatMap_eq_nil_iff]
  refine forall_congr' fun o => forall_congr' fun ho => ?_
  cases e : byName Service.name new o.name with
  | none =>
    simp only [reduceCtorEq, false_iff]
    rintro ⟨n, hm, h, _⟩
    exact byName_none.1 e n hm h
  | some n =>
    obtain ⟨hm, hname⟩ := (byName_iff hn).1 e
    dsimp only
    rw [List.append_eq_nil_iff, compareExtends_iff, compareFunctions_iff (hf n hm) (h1 n hm) (h2 o ho)]
    constructor
    · exact fun h => ⟨n, hm, hname, h⟩
    · rintro ⟨n', hm', h, hk⟩
      rwa [eq_of_name hn hm hm' (hname.trans h.symm)]

theorem audit_tidy {new old : Program} (hn : TidyProgram new) (ho : TidyProgram old) : audit new old = [] ↔ Passes new old := by
  unfold audit
  rw [List.append_eq_nil_iff, List.append_eq_nil_iff, List.append_eq_nil_iff,
    compareServices_iff hn.services hn.fns hn.fn ho.fn, compareEnums_iff hn.enums,
    compareStructs_iff hn.structs (fun s hs => hn.struct s (by simp [hs])) (fun s hs => ho.struct s (by simp [hs])),
    compareStructs_iff hn.xceptions (fun s hs => hn.struct s (by simp [hs])) (fun s hs => ho.struct s (by simp [hs]))]
  exact ⟨fun ⟨⟨⟨a, b⟩, c⟩, d⟩ => ⟨c, d, b, a⟩, fun h => ⟨⟨⟨h.services, h.enums⟩, h.structs⟩, h.xceptions⟩⟩

/-! ### Parsing -/

/-- The struct was made from the declaration. -/
structure FromStruct (o : Options) (d : StructDecl Written) (s : Struct) : Prop where
  name : s.name = d.name
  kind : s.kind = d.kind
  made : struct o d = .ok s.made

/-- The service was made from the declaration. -/
structure FromService (o : Options) (isExc : Written → Bool) (d : ServiceDecl) (s : Service) : Prop where
  name : s.name = d.name
  extends_ : s.extends_ = d.extends_
  made : functions o isExc d.fns [] = .ok s.fns

theorem parseStructs_ok {o : Options} {ds : List (StructDecl Written)} {ss : List Struct} (e : parseStructs o ds = some ss) :
    ss.map Struct.name = ds.map StructDecl.name ∧ (∀ s ∈ ss, ∃ d ∈ ds, FromStruct o d s) ∧ ∀ d ∈ ds, ∃ s ∈ ss, FromStruct o d s := by
  induction ds generalizing ss with
  | nil => cases e; simp
  | cons d ds ih =>
    rw [parseStructs] at e
    cases h1 : struct o d with
    | error x => rw [h1] at e; cases e
    | ok m =>
      cases h2 : parseStructs o ds with
      | none => rw [h1, h2] at e; cases e
      | some l =>
        rw [h1, h2] at e
        cases e
        obtain ⟨i1, i2, i3⟩ := ih h2
        refine ⟨by simp [i1], fun s hs => ?_, fun x hx => ?_⟩
        · rcases List.mem_cons.1 hs with rfl | hs
          · exact ⟨d, by simp, rfl, rfl, h1⟩
          · obtain ⟨x, hx, h⟩ := i2 s hs
            exact ⟨x, List.mem_cons_of_mem _ hx, h⟩
        · rcases List.mem_cons.1 hx with rfl | hx
          · exact ⟨_, List.mem_cons_self, rfl, rfl, h1⟩
          · obtain ⟨s, hs, h⟩ := i3 x hx
            exact ⟨s, List.mem_cons_of_mem _ hs, h⟩

/-- Services, from the last one to the first: what is extended was declared before, and has no function with the same name. -/
def Chain : List Service → Prop
  | [] => True
  | s :: before => (∀ e, s.extends_ = some e → (∃ x ∈ before, x.name = e) ∧ ∀ f ∈ s.fns, ∀ g ∈ inherited before e, g.2.name ≠ f.name) ∧ Chain before

theorem parseServices_ok {o : Options} {isExc : Written → Bool} {ds : List ServiceDecl} {before svs : List Service} (e : parseServices o isExc ds before = some svs)
    (hc : Chain before) : ∃ l, svs = before.reverse ++ l ∧ Chain svs.reverse ∧ l.map Service.name = ds.map ServiceDecl.name ∧
      (∀ s ∈ l, ∃ d ∈ ds, FromService o isExc d s) ∧ ∀ d ∈ ds, ∃ s ∈ l, FromService o isExc d s := by
  induction ds generalizing before with
  | nil => cases e; exact ⟨[], by simp, by simpa using hc, rfl, by simp, by simp⟩
  | cons d ds ih =>
    rw [parseServices] at e
    cases h1 : functions o isExc d.fns [] with
    | error x => rw [h1] at e; cases e
    | ok fs =>
      rw [h1] at e
      dsimp only at e
      have step : ∀ s : Service, FromService o isExc d s → Chain (s :: before) → parseServices o isExc ds (s :: before) = some svs →
          ∃ l, svs = before.reverse ++ l ∧ Chain svs.reverse ∧ l.map Service.name = (d :: ds).map ServiceDecl.name ∧
            (∀ s ∈ l, ∃ d' ∈ d :: ds, FromService o isExc d' s) ∧ ∀ d' ∈ d :: ds, ∃ s ∈ l, FromService o isExc d' s := by
        intro s hs hch e
        obtain ⟨l, i1, i2, i3, i4, i5⟩ := ih e hch
        refine ⟨s :: l, by rw [i1]; simp, i2, by simp [i3, hs.name], fun x hx => ?_, fun x hx => ?_⟩
        · rcases List.mem_cons.1 hx with rfl | hx
          · exact ⟨d, by simp, hs⟩
          · obtain ⟨y, hy, h⟩ := i4 x hx
            exact ⟨y, List.mem_cons_of_mem _ hy, h⟩
        · rcases List.mem_cons.1 hx with rfl | hx
          · exact ⟨s, by simp, hs⟩
          · obtain ⟨y, hy, h⟩ := i5 x hx
            exact ⟨y, List.mem_cons_of_mem _ hy, h⟩
      split at e
      · cases e
      · cases hx : d.extends_ with
        | none =>
          rw [hx] at e
          exact step _ ⟨rfl, hx.symm, h1⟩ ⟨by simp, hc⟩ e
        | some x =>
          rw [hx] at e
          dsimp only at e
          split at e
          · cases e
          · rename_i hin
            split at e
            · cases e
            · rename_i hno
              refine step _ ⟨rfl, hx.symm, h1⟩ ⟨?_, hc⟩ e
              intro y hy
              cases hy
              constructor
              · simpa using hin
              · intro f hf g hg hname
                exact hno (List.any_eq_true.2 ⟨f, hf, List.any_eq_true.2 ⟨g, hg, by simpa using hname⟩⟩)

/-- What is known about a program that was parsed -/
structure Parsed (o : Options) (deep : Nat) (src : Source) (p : Program) : Prop where
  typedefs : p.typedefs = src.typedefs
  enums : p.enums = src.enums
  names : (p.typedefs.map (·.1) ++ p.enums.map Enum.name ++ (p.structs ++ p.xceptions).map Struct.name ++ p.services.map Service.name).Nodup
  structs : ∀ s ∈ p.structs ++ p.xceptions, ∃ d ∈ src.structs, FromStruct o d s
  structs' : ∀ d ∈ src.structs, ∃ s ∈ p.structs ++ p.xceptions, FromStruct o d s
  kind : ∀ s ∈ p.structs, s.kind ≠ .exception
  kind' : ∀ s ∈ p.xceptions, s.kind = .exception
  services : ∀ s ∈ p.services, ∃ d ∈ src.services, FromService o (src.isExc deep) d s
  services' : ∀ d ∈ src.services, ∃ s ∈ p.services, FromService o (src.isExc deep) d s
  chain : Chain p.services.reverse

theorem parse_ok {o : Options} {deep : Nat} {src : Source} {p : Program} (e : parse o deep src = some p) : Parsed o deep src p := by
  unfold parse at e
  split at e
  · cases e
  · rename_i hn
    have hn := Decidable.not_not.1 hn
    cases h1 : parseStructs o src.structs with
    | none => rw [h1] at e; cases e
    | some ss =>
      cases h2 : parseServices o (src.isExc deep) src.services [] with
      | none => rw [h1, h2] at e; cases e
      | some svs =>
        rw [h1, h2] at e
        cases e
        obtain ⟨a1, a2, a3⟩ := parseStructs_ok h1
        obtain ⟨l, b1, b2, b3, b4, b5⟩ := parseServices_ok h2 trivial
        rw [List.reverse_nil, List.nil_append] at b1
        subst b1
        have hp : ((ss.filter fun s => s.kind ≠ .exception) ++ ss.filter fun s => s.kind = .exception).Perm ss := by
          have := List.filter_append_perm (fun s : Struct => decide (s.kind ≠ .exception)) ss
          simpa using this
        refine ⟨rfl, rfl, ?_, fun s hs => a2 s (hp.mem_iff.1 hs), fun d hd => ?_, fun s hs => ?_, fun s hs => ?_, b4, b5, b2⟩
        · unfold Source.names at hn
          rw [← a1, ← b3] at hn
          refine (List.Perm.nodup_iff ?_).2 hn
          exact (List.Perm.append_left _ (hp.map _)).append_right _
        · obtain ⟨s, hs, h⟩ := a3 d hd
          exact ⟨s, hp.mem_iff.2 hs, h⟩
        · simpa using (List.mem_filter.1 hs).2
        · simpa using (List.mem_filter.1 hs).2

/-- The functions of a service that was parsed -/
theorem FromService.fn {o : Options} {isExc : Written → Bool} {d : ServiceDecl} {s : Service} (h : FromService o isExc d s) :
    (s.fns.map Function.name).Nodup ∧ ∀ f ∈ s.fns, ∃ x ∈ d.fns, f.oneway = x.oneway ∧ f.returns = x.returns ∧ f.name = x.name ∧ Made o.allowNeg id x.args f.args ∧
      Made o.allowNeg (fun r => if r = .required then .default_ else r) x.throws f.xceptions ∧ ∀ t ∈ x.throws, isExc t.ty = true := by
  obtain ⟨gs, h1, h2, h3, h4⟩ := functions_ok h.made (by simp)
  rw [List.nil_append] at h1
  subst h1
  refine ⟨h4, fun f hf => ?_⟩
  obtain ⟨i, hi, rfl⟩ := List.mem_iff_getElem.1 hf
  obtain ⟨g, hg, he⟩ := h3 i d.fns[i] (List.getElem?_eq_getElem (h2 ▸ hi))
  rw [List.getElem?_eq_getElem hi] at hg
  cases hg
  refine ⟨_, List.getElem_mem (h2 ▸ hi), ?_⟩
  rcases function_cases o isExc d.fns[i] with ⟨_, hx, _⟩ | ⟨g, hg, c1, c2, c3, c4, c5, _, _, _, c6, _⟩
  · rw [he] at hx; cases hx
  · rw [he] at hg; cases hg
    exact ⟨c1, c2, c3, c4, c5, c6⟩

theorem FromStruct.from {o : Options} {d : StructDecl Written} {s : Struct} (h : FromStruct o d s) :
    Made o.allowNeg (if d.kind = .union then fun _ => .optional else id) d.fields s.made := by
  rcases struct_cases o d with ⟨_, hx, _⟩ | ⟨g, hg, hm, _⟩
  · rw [h.made] at hx; cases hx
  · rw [h.made] at hg; cases hg
    exact hm

theorem made_tidy {neg : Bool} {r : Req → Req} {ds : List (Decl Written)} {s : TStruct Written} (h : Made neg r ds s) (hl : ∀ d ∈ ds, Lexed d.ty) : Tidy s := by
  refine ⟨h.same, h.ordered, fun m hm => ?_⟩
  obtain ⟨a, d, b, hd, _, h2, _⟩ := h.from hm
  rw [h2.type]
  exact hl d (by rw [hd]; simp)

theorem Parsed.tidy {o : Options} {deep : Nat} {src : Source} {p : Program} (h : Parsed o deep src p) (hl : SourceLexed src) : TidyProgram p := by
  have hn := h.names
  rw [List.nodup_append, List.nodup_append, List.nodup_append, List.map_append, List.nodup_append] at hn
  refine ⟨hn.1.2.1.1, hn.1.2.1.2.1, hn.1.1.2.1, hn.2.1, fun s hs => ?_, fun s hs => ?_, fun s hs f hf => ?_⟩
  · obtain ⟨d, hd, hf⟩ := h.services s hs
    exact hf.fn.1
  · obtain ⟨d, hd, hf⟩ := h.structs s hs
    exact made_tidy hf.from (hl.structs d hd)
  · obtain ⟨d, hd, hs⟩ := h.services s hs
    obtain ⟨x, hx, c1, c2, c3, c4, c5, c6⟩ := hs.fn.2 f hf
    exact ⟨made_tidy c4 (hl.args d hd x hx), made_tidy c5 (hl.throws d hd x hx), fun w hw => hl.returns d hd x hx w (c2 ▸ hw)⟩

/-! ### Types by name -/

theorem base_iff (b : Base) (t : Ty) : (b, t) ∈ baseTypes ↔ t = b.ty := by
  cases b <;> simp [baseTypes, Base.ty]

theorem denotes_named {p : Program} {N : Numbering} {n : PyStr} {t : Ty} (h : Denotes p N (.named n) t) :
    (∃ w, (n, w) ∈ p.typedefs ∧ Denotes p N w t) ∨ (∃ e ∈ p.enums, e.name = n ∧ t = .i32) ∨
      ∃ s ∈ p.structs ++ p.xceptions, s.name = n ∧ t = .struct (N.num (.type n)) := by
  generalize hw : Written.named n = w at h
  cases h <;> cases hw
  · exact .inl ⟨_, by assumption, by assumption⟩
  · exact .inr (.inl ⟨_, by assumption, rfl, rfl⟩)
  · exact .inr (.inr ⟨_, by assumption, rfl, rfl⟩)

/-- No name has two meanings. -/
structure Distinct (p : Program) : Prop where
  typedef : ∀ n w w', (n, w) ∈ p.typedefs → (n, w') ∈ p.typedefs → w = w'
  typedefEnum : ∀ n w, (n, w) ∈ p.typedefs → ∀ e ∈ p.enums, e.name ≠ n
  typedefStruct : ∀ n w, (n, w) ∈ p.typedefs → ∀ s ∈ p.structs ++ p.xceptions, s.name ≠ n
  enumStruct : ∀ e ∈ p.enums, ∀ s ∈ p.structs ++ p.xceptions, s.name ≠ e.name
  struct : ((p.structs ++ p.xceptions).map Struct.name).Nodup
  service : (p.services.map Service.name).Nodup

theorem Parsed.distinct {o : Options} {deep : Nat} {src : Source} {p : Program} (h : Parsed o deep src p) : Distinct p := by
  have hn := h.names
  rw [List.nodup_append, List.nodup_append, List.nodup_append] at hn
  obtain ⟨⟨⟨t1, t2, t3⟩, t4, t5⟩, t6, _⟩ := hn
  refine ⟨fun n w w' h1 h2 => ?_, fun n w h1 e he hc => ?_, fun n w h1 s hs hc => ?_, fun e he s hs hc => ?_, t4, t6⟩
  · have := eq_of_name (name := Prod.fst) t1 h1 h2 rfl
    cases this; rfl
  · exact t3 n (List.mem_map.2 ⟨_, h1, rfl⟩) e.name (List.mem_map_of_mem he) hc.symm
  · exact t5 n (List.mem_append.2 (.inl (List.mem_map.2 ⟨_, h1, rfl⟩))) s.name (List.mem_map_of_mem hs) hc.symm
  · exact t5 e.name (List.mem_append.2 (.inr (List.mem_map_of_mem he))) s.name (List.mem_map_of_mem hs) hc.symm

theorem denotes_unique {p : Program} {N : Numbering} (hd : Distinct p) {w : Written} {t t' : Ty} (h : Denotes p N w t) (h' : Denotes p N w t') : t = t' := by
  induction h generalizing t' with
  | base b t hb => cases h' with | base _ _ hb' => rw [(base_iff b t).1 hb, (base_iff b t').1 hb']
  | list e t _ ih => cases h' with | list _ _ h' => rw [ih h']
  | set e t _ ih => cases h' with | set _ _ h' => rw [ih h']
  | map k v s t _ _ ih1 ih2 => cases h' with | map _ _ _ _ h1 h2 => rw [ih1 h1, ih2 h2]
  | typedef n w t hm _ ih =>
    rcases denotes_named h' with ⟨w', h1, h2⟩ | ⟨e, h1, h2, _⟩ | ⟨s, h1, h2, _⟩
    · cases hd.typedef _ _ _ hm h1; exact ih h2
    · exact absurd h2 (hd.typedefEnum _ _ hm e h1)
    · exact absurd h2 (hd.typedefStruct _ _ hm s h1)
  | enum e he =>
    rcases denotes_named h' with ⟨w', h1, h2⟩ | ⟨_, _, _, h3⟩ | ⟨s, h1, h2, _⟩
    · exact absurd rfl (hd.typedefEnum _ _ h1 e he)
    · exact h3.symm
    · exact absurd h2 (hd.enumStruct e he s h1)
  | struct s hs =>
    rcases denotes_named h' with ⟨w', h1, h2⟩ | ⟨e, h1, h2, _⟩ | ⟨_, _, _, h3⟩
    · exact absurd rfl (hd.typedefStruct _ _ h1 s hs)
    · exact absurd h2.symm (hd.enumStruct e h1 s hs)
    · exact h3.symm

theorem resolve_denotes {p : Program} {N : Numbering} {k : Nat} {w : Written} {t : Ty} (h : p.resolve N k w = some t) : Denotes p N w t := by
  induction k generalizing w t with
  | zero => simp [Program.resolve] at h
  | succ k ih =>
    cases w with
    | base b => simp only [Program.resolve, Option.some.injEq] at h; subst h; exact .base b _ ((base_iff b _).2 rfl)
    | list e =>
      simp only [Program.resolve, Option.map_eq_some_iff] at h
      obtain ⟨x, h1, rfl⟩ := h
      exact .list _ _ (ih h1)
    | set e =>
      simp only [Program.resolve, Option.map_eq_some_iff] at h
      obtain ⟨x, h1, rfl⟩ := h
      exact .set _ _ (ih h1)
    | map a b =>
      simp only [Program.resolve] at h
      cases h1 : p.resolve N k a <;> cases h2 : p.resolve N k b <;> rw [h1, h2] at h <;> simp at h
      subst h
      exact .map _ _ _ _ (ih h1) (ih h2)
    | named n =>
      simp only [Program.resolve] at h
      cases h1 : p.typedefs.find? (fun d => d.1 == n) with
      | some d =>
        rw [h1] at h
        have h2 : d.1 = n := by simpa using List.find?_some h1
        have h3 := List.mem_of_find?_eq_some h1
        exact .typedef n d.2 t (by rw [← h2]; exact h3) (ih h)
      | none =>
        rw [h1] at h
        dsimp only at h
        split at h
        · rename_i he
          obtain ⟨e, he, hn⟩ := List.any_eq_true.1 he
          cases h
          rw [← show e.name = n by simpa using hn]
          exact .enum e he
        · split at h
          · rename_i hs
            obtain ⟨s, hs, hn⟩ := List.any_eq_true.1 hs
            cases h
            rw [← show s.name = n by simpa using hn]
            exact .struct s hs
          · cases h

theorem denotes_resolve {p : Program} {N : Numbering} (hd : Distinct p) {w : Written} {t : Ty} (h : Denotes p N w t) : ∃ k, ∀ k', k ≤ k' → p.resolve N k' w = some t := by
  have no : ∀ n : PyStr, (∀ w, (n, w) ∉ p.typedefs) → p.typedefs.find? (fun d => d.1 == n) = none := by
    intro n hn
    rw [List.find?_eq_none]
    rintro ⟨m, w⟩ hm hc
    exact hn w (by rw [← show m = n by simpa using hc]; exact hm)
  induction h with
  | base b t hb =>
    refine ⟨1, fun k' hk => ?_⟩
    obtain ⟨k', rfl⟩ : ∃ j, k' = j + 1 := ⟨k' - 1, by omega⟩
    rw [(base_iff b t).1 hb]
    rfl
  | list e t _ ih =>
    obtain ⟨k, ih⟩ := ih
    refine ⟨k + 1, fun k' hk => ?_⟩
    obtain ⟨k', rfl⟩ : ∃ j, k' = j + 1 := ⟨k' - 1, by omega⟩
    simp only [Program.resolve, ih k' (by omega), Option.map_some]
  | set e t _ ih =>
    obtain ⟨k, ih⟩ := ih
    refine ⟨k + 1, fun k' hk => ?_⟩
    obtain ⟨k', rfl⟩ : ∃ j, k' = j + 1 := ⟨k' - 1, by omega⟩
    simp only [Program.resolve, ih k' (by omega), Option.map_some]
  | map a b s t _ _ ih1 ih2 =>
    obtain ⟨k1, ih1⟩ := ih1
    obtain ⟨k2, ih2⟩ := ih2
    refine ⟨k1 + k2 + 1, fun k' hk => ?_⟩
    obtain ⟨k', rfl⟩ : ∃ j, k' = j + 1 := ⟨k' - 1, by omega⟩
    simp only [Program.resolve, ih1 k' (by omega), ih2 k' (by omega)]
  | typedef n w t hm _ ih =>
    obtain ⟨k, ih⟩ := ih
    refine ⟨k + 1, fun k' hk => ?_⟩
    obtain ⟨k', rfl⟩ : ∃ j, k' = j + 1 := ⟨k' - 1, by omega⟩
    simp only [Program.resolve]
    cases h1 : p.typedefs.find? (fun d => d.1 == n) with
    | none => exact absurd (List.find?_eq_none.1 h1 _ hm) (by simp)
    | some d =>
      obtain ⟨m, w'⟩ := d
      have h2 : m = n := by simpa using List.find?_some h1
      subst h2
      rw [hd.typedef _ _ _ hm (List.mem_of_find?_eq_some h1)] at ih
      exact ih k' (by omega)
  | enum e he =>
    refine ⟨1, fun k' hk => ?_⟩
    obtain ⟨k', rfl⟩ : ∃ j, k' = j + 1 := ⟨k' - 1, by omega⟩
    simp only [Program.resolve]
    rw [no e.name fun w hw => hd.typedefEnum _ _ hw e he rfl]
    dsimp only
    rw [if_pos (List.any_eq_true.2 ⟨e, he, by simp⟩)]
  | struct s hs =>
    refine ⟨1, fun k' hk => ?_⟩
    obtain ⟨k', rfl⟩ : ∃ j, k' = j + 1 := ⟨k' - 1, by omega⟩
    simp only [Program.resolve]
    rw [no s.name fun w hw => hd.typedefStruct _ _ hw s hs rfl]
    dsimp only
    rw [if_neg, if_pos (List.any_eq_true.2 ⟨s, hs, by simp⟩)]
    intro hc
    obtain ⟨e, he, hn⟩ := List.any_eq_true.1 hc
    exact hd.enumStruct e he s hs (by simpa using Eq.symm (by simpa using hn))

/-- What is written means the same in a program that keeps the typedefs, the enums and the structs. -/
theorem denotes_mono {p q : Program} {N : Numbering} (h1 : ∀ d ∈ p.typedefs, d ∈ q.typedefs) (h2 : ∀ e ∈ p.enums, ∃ e' ∈ q.enums, e'.name = e.name)
    (h3 : ∀ s ∈ p.structs ++ p.xceptions, ∃ s' ∈ q.structs ++ q.xceptions, s'.name = s.name) {w : Written} {t : Ty} (h : Denotes p N w t) : Denotes q N w t := by
  induction h with
  | base b t hb => exact .base b t hb
  | list e t _ ih => exact .list _ _ ih
  | set e t _ ih => exact .set _ _ ih
  | map a b s t _ _ ih1 ih2 => exact .map _ _ _ _ ih1 ih2
  | typedef n w t hm _ ih => exact .typedef _ _ _ (h1 _ hm) ih
  | enum e he =>
    obtain ⟨e', he', hn⟩ := h2 e he
    rw [← hn]; exact .enum e' he'
  | struct s hs =>
    obtain ⟨s', hs', hn⟩ := h3 s hs
    rw [← hn]; exact .struct s' hs'

theorem isExc_struct {o : Options} {deep : Nat} {src : Source} {p : Program} {N : Numbering} (h : Parsed o deep src p) {k : Nat} {w : Written} {t : Ty}
    (hx : src.isExc k w = true) (ht : Denotes p N w t) : ∃ n, t = .struct n := by
  have hd := h.distinct
  induction k generalizing w with
  | zero => simp [Source.isExc] at hx
  | succ k ih =>
    cases w with
    | named n =>
      simp only [Source.isExc] at hx
      cases h1 : src.typedefs.find? (fun d => d.1 == n) with
      | some d =>
        rw [h1] at hx
        obtain ⟨m, w'⟩ := d
        have h2 : m = n := by simpa using List.find?_some h1
        subst h2
        have h3 := List.mem_of_find?_eq_some h1
        rw [← h.typedefs] at h3
        rcases denotes_named ht with ⟨w, h4, h5⟩ | ⟨e, h4, h5, _⟩ | ⟨s, h4, h5, _⟩
        · cases hd.typedef _ _ _ h3 h4
          exact ih hx h5
        · exact absurd h5 (hd.typedefEnum _ _ h3 e h4)
        · exact absurd h5 (hd.typedefStruct _ _ h3 s h4)
      | none =>
        rw [h1] at hx
        obtain ⟨s, hs, hn⟩ := List.any_eq_true.1 hx
        obtain ⟨s', hs', hf⟩ := h.structs' s hs
        have hn : s'.name = n := by rw [hf.name]; rw [Bool.and_eq_true] at hn; exact beq_iff_eq.1 hn.1
        rcases denotes_named ht with ⟨w, h4, h5⟩ | ⟨e, h4, h5, _⟩ | ⟨_, _, _, h5⟩
        · exact absurd hn (hd.typedefStruct _ _ h4 s' hs')
        · exact absurd (hn.trans h5.symm) (hd.enumStruct e h4 s' hs')
        · exact ⟨_, h5⟩
    | _ => simp [Source.isExc] at hx

/-! ### Functions by name -/

theorem function_iff {o : Options} {deep : Nat} {src : Source} {p : Program} (h : Parsed o deep src p) {a b : PyStr} {f : Function Written} :
    p.function a b = some f ↔ ∃ s ∈ p.services, s.name = a ∧ f ∈ s.fns ∧ f.name = b := by
  unfold Program.function
  rw [Option.bind_eq_some_iff]
  constructor
  · rintro ⟨s, h1, h2⟩
    obtain ⟨h3, h4⟩ := (find_iff (name := Service.name) h.distinct.service).1 h1
    obtain ⟨d, _, hf⟩ := h.services s h3
    exact ⟨s, h3, h4, (find_iff (name := Function.name) hf.fn.1).1 h2⟩
  · rintro ⟨s, h1, h2, h3, h4⟩
    obtain ⟨d, _, hf⟩ := h.services s h1
    exact ⟨s, (find_iff (name := Service.name) h.distinct.service).2 ⟨h1, h2⟩, (find_iff (name := Function.name) hf.fn.1).2 ⟨h3, h4⟩⟩

/-- The keys of fields whose numbers are written -/
theorem made_keys {neg : Bool} {r : Req → Req} {ds : List (Decl Written)} {s : TStruct Written} (h : Made neg r ds s) (he : Explicit ds) {m : Member Written} (hm : m ∈ s.members) :
    0 < m.key ∧ m.key < 2 ^ 15 := by
  obtain ⟨a, d, b, hd, _, h2, _⟩ := h.from hm
  obtain ⟨n, h3, h4, h5⟩ := he d (by rw [hd]; simp)
  have hk := h2.key
  rw [number_written h3 h4] at hk
  rw [wraps_eq hk (by unfold InRange; simp; omega)]
  exact ⟨h4, h5⟩

/-- What is known about a function of a program that was parsed -/
structure GoodFn (p : Program) (N : Numbering) (f : Function Written) : Prop where
  args : f.args.sorted.Perm f.args.members ∧ f.args.sorted.Pairwise fun m n => m.key < n.key
  argKeys : ∀ m ∈ f.args.members, 0 < m.key ∧ m.key < 2 ^ 15
  throws : f.xceptions.sorted.Perm f.xceptions.members ∧ f.xceptions.sorted.Pairwise fun m n => m.key < n.key
  throwKeys : ∀ m ∈ f.xceptions.members, 0 < m.key ∧ m.key < 2 ^ 15
  plain : ∀ m ∈ f.xceptions.members, m.req ≠ .required ∧ m.value = none
  exception : ∀ m ∈ f.xceptions.members, ∀ t, Denotes p N m.ty t → ∃ n, t = .struct n
  result : (resultStruct f).sorted = (f.returns.map successMember).toList ++ f.xceptions.sorted

theorem Parsed.good {o : Options} {deep : Nat} {src : Source} {p : Program} (h : Parsed o deep src p) (hok : SourceOK src) (N : Numbering) {s : Service} (hs : s ∈ p.services)
    {f : Function Written} (hf : f ∈ s.fns) : GoodFn p N f := by
  obtain ⟨d, hd, hfrom⟩ := h.services s hs
  obtain ⟨x, hx, c1, c2, c3, c4, c5, c6⟩ := hfrom.fn.2 f hf
  have ht := hok.throws d hd x hx
  refine ⟨⟨c4.same, c4.ordered⟩, fun m hm => made_keys c4 (hok.args d hd x hx) hm, ⟨c5.same, c5.ordered⟩, fun m hm => made_keys c5 ht.explicit hm, fun m hm => ?_,
    fun m hm t hden => ?_, ?_⟩
  · obtain ⟨a, e, b, he, _, h2, h3⟩ := c5.from hm
    refine ⟨?_, by rw [h2.value]; exact ht.plain e (by rw [he]; simp)⟩
    rw [h3]
    split
    · decide
    · assumption
  · obtain ⟨a, e, b, he, _, h2, h3⟩ := c5.from hm
    exact isExc_struct h (c6 e (by rw [he]; simp)) (h2.type ▸ hden)
  · rw [result_sorted f c5 (fun m hm => (made_keys c5 ht.explicit hm).1) ht.success]
    cases f.returns <;> rfl

/-! ### The fields of classes -/

theorem members_declared {o : Options} {deep : Nat} {src : Source} {p : Program} (h : Parsed o deep src p) (hok : SourceOK src) (N : Numbering) {c : Class}
    {ms : List (Member Written)} (e : p.members c = some ms) (m : Member Written) : m ∈ ms ↔ Declared p c m := by
  have htype : ∀ s ∈ p.structs ++ p.xceptions, s.made.sorted.Perm s.made.members := by
    intro s hs
    obtain ⟨d, hd, hf⟩ := h.structs s hs
    exact hf.from.same
  constructor
  · intro hm
    cases c with
    | type n =>
      simp only [Program.members, Option.map_eq_some_iff] at e
      obtain ⟨s, h1, rfl⟩ := e
      obtain ⟨h2, rfl⟩ := (find_iff (name := Struct.name) h.distinct.struct).1 h1
      exact .field s m h2 ((htype s h2).mem_iff.1 hm)
    | args a b =>
      simp only [Program.members, Option.map_eq_some_iff] at e
      obtain ⟨f, h1, rfl⟩ := e
      obtain ⟨s, h2, rfl, h3, rfl⟩ := (function_iff h).1 h1
      exact .arg s f m h2 h3 ((h.good hok N h2 h3).args.1.mem_iff.1 hm)
    | result a b =>
      simp only [Program.members, Option.map_eq_some_iff] at e
      obtain ⟨f, h1, rfl⟩ := e
      obtain ⟨s, h2, rfl, h3, rfl⟩ := (function_iff h).1 h1
      have hg := h.good hok N h2 h3
      rw [hg.result] at hm
      rcases List.mem_append.1 hm with hm | hm
      · cases hr : f.returns with
        | none => rw [hr] at hm; cases hm
        | some w =>
          rw [hr] at hm
          rw [List.mem_singleton.1 hm]
          exact .success s f w h2 h3 hr
      · exact .thrown s f m h2 h3 (hg.throws.1.mem_iff.1 hm)
  · intro hm
    cases hm with
    | field s m hs hm =>
      simp only [Program.members, (find_iff (name := Struct.name) h.distinct.struct).2 ⟨hs, rfl⟩, Option.map_some, Option.some.injEq] at e
      rw [← e]; exact (htype s hs).mem_iff.2 hm
    | arg s f m hs hf hm =>
      simp only [Program.members, (function_iff h).2 ⟨s, hs, rfl, hf, rfl⟩, Option.map_some, Option.some.injEq] at e
      rw [← e]; exact (h.good hok N hs hf).args.1.mem_iff.2 hm
    | success s f w hs hf hr =>
      simp only [Program.members, (function_iff h).2 ⟨s, hs, rfl, hf, rfl⟩, Option.map_some, Option.some.injEq] at e
      rw [← e, (h.good hok N hs hf).result, hr]
      exact List.mem_append.2 (.inl (List.mem_singleton.2 rfl))
    | thrown s f m hs hf hm =>
      simp only [Program.members, (function_iff h).2 ⟨s, hs, rfl, hf, rfl⟩, Option.map_some, Option.some.injEq] at e
      rw [← e, (h.good hok N hs hf).result]
      exact List.mem_append.2 (.inr ((h.good hok N hs hf).throws.1.mem_iff.2 hm))

theorem members_class {o : Options} {deep : Nat} {src : Source} {p : Program} (h : Parsed o deep src p) {c : Class} : (∃ ms, p.members c = some ms) ↔ HasClass p c := by
  constructor
  · rintro ⟨ms, e⟩
    cases c with
    | type n =>
      simp only [Program.members, Option.map_eq_some_iff] at e
      obtain ⟨s, h1, _⟩ := e
      obtain ⟨h2, rfl⟩ := (find_iff (name := Struct.name) h.distinct.struct).1 h1
      exact .type s h2
    | args a b =>
      simp only [Program.members, Option.map_eq_some_iff] at e
      obtain ⟨f, h1, _⟩ := e
      obtain ⟨s, h2, rfl, h3, rfl⟩ := (function_iff h).1 h1
      exact .args s f h2 h3
    | result a b =>
      simp only [Program.members, Option.map_eq_some_iff] at e
      obtain ⟨f, h1, _⟩ := e
      obtain ⟨s, h2, rfl, h3, rfl⟩ := (function_iff h).1 h1
      exact .result s f h2 h3
  · intro hc
    cases hc with
    | type s hs => exact ⟨_, by simp only [Program.members, (find_iff (name := Struct.name) h.distinct.struct).2 ⟨hs, rfl⟩, Option.map_some]; rfl⟩
    | args s f hs hf => exact ⟨_, by simp only [Program.members, (function_iff h).2 ⟨s, hs, rfl, hf, rfl⟩, Option.map_some]; rfl⟩
    | result s f hs hf => exact ⟨_, by simp only [Program.members, (function_iff h).2 ⟨s, hs, rfl, hf, rfl⟩, Option.map_some]; rfl⟩

theorem classes_iff (p : Program) (c : Class) : c ∈ p.classes ↔ HasClass p c := by
  unfold Program.classes
  constructor
  · intro h
    rcases List.mem_append.1 h with h | h
    · obtain ⟨s, hs, rfl⟩ := List.mem_map.1 h
      exact .type s hs
    · obtain ⟨s, hs, h⟩ := List.mem_flatMap.1 h
      obtain ⟨f, hf, h⟩ := List.mem_flatMap.1 h
      simp only [List.mem_cons, List.not_mem_nil, or_false] at h
      rcases h with rfl | rfl
      · exact .args s f hs hf
      · exact .result s f hs hf
  · intro h
    cases h with
    | type s hs => exact List.mem_append.2 (.inl (List.mem_map.2 ⟨s, hs, rfl⟩))
    | args s f hs hf => exact List.mem_append.2 (.inr (List.mem_flatMap.2 ⟨s, hs, List.mem_flatMap.2 ⟨f, hf, by simp⟩⟩))
    | result s f hs hf => exact List.mem_append.2 (.inr (List.mem_flatMap.2 ⟨s, hs, List.mem_flatMap.2 ⟨f, hf, by simp⟩⟩))

/-- `f` is generated for `m`. -/
structure Generated (p : Program) (N : Numbering) (m : Member Written) (f : Field) : Prop where
  fid : f.fid = m.key
  ty : Denotes p N m.ty f.ty
  required : f.required = decide (m.req = .required)
  dflt : f.dflt = m.value

theorem fields_ok {p : Program} {N : Numbering} {deep : Nat} {ms : List (Member Written)} {fs : List Field} (e : p.fields N deep ms = some fs) :
    fs.map (·.fid) = ms.map (·.key) ∧ (∀ f ∈ fs, ∃ m ∈ ms, Generated p N m f) ∧ ∀ m ∈ ms, ∃ f ∈ fs, Generated p N m f := by
  induction ms generalizing fs with
  | nil => cases e; simp
  | cons m ms ih =>
    rw [Program.fields] at e
    cases h1 : p.resolve N deep m.ty with
    | none => rw [h1] at e; cases e
    | some t =>
      cases h2 : p.fields N deep ms with
      | none => rw [h1, h2] at e; cases e
      | some l =>
        rw [h1, h2] at e
        cases e
        obtain ⟨i1, i2, i3⟩ := ih h2
        have hg : Generated p N m { fid := m.key, ty := t, required := m.req = .required, dflt := m.value } := ⟨rfl, resolve_denotes h1, rfl, rfl⟩
        refine ⟨by simp [i1], fun f hf => ?_, fun x hx => ?_⟩
        · rcases List.mem_cons.1 hf with rfl | hf
          · exact ⟨m, by simp, hg⟩
          · obtain ⟨x, hx, h⟩ := i2 f hf
            exact ⟨x, List.mem_cons_of_mem _ hx, h⟩
        · rcases List.mem_cons.1 hx with rfl | hx
          · exact ⟨_, List.mem_cons_self, hg⟩
          · obtain ⟨f, hf, h⟩ := i3 x hx
            exact ⟨f, List.mem_cons_of_mem _ hf, h⟩

theorem generate_ok {o : Options} {deep : Nat} {src : Source} {p : Program} (h : Parsed o deep src p) {N : Numbering} {k : Nat} {A : Schema} (e : p.generate N k = some A) (i : Nat) :
    (A i = [] ∧ ∀ c, N.dec i = some c → ¬ HasClass p c) ∨ ∃ c ms, N.dec i = some c ∧ p.members c = some ms ∧ p.fields N k ms = some (A i) := by
  unfold Program.generate at e
  split at e
  · rename_i hall
    cases e
    dsimp only
    cases hd : N.dec i with
    | none => exact .inl ⟨rfl, by simp⟩
    | some c =>
      cases hm : p.members c with
      | none =>
        refine .inl ⟨by simp [Program.class_, hm], fun c' hc' hcl => ?_⟩
        cases hc'
        obtain ⟨ms, h1⟩ := (members_class h).2 hcl
        rw [hm] at h1; cases h1
      | some ms =>
        refine .inr ⟨c, ms, rfl, hm, ?_⟩
        have := List.all_eq_true.1 hall c ((classes_iff p c).2 ((members_class h).1 ⟨ms, hm⟩))
        simp only [Program.class_, hm, Option.bind_some] at this ⊢
        obtain ⟨fs, hfs⟩ := Option.isSome_iff_exists.1 this
        rw [hfs]; rfl
  · cases e

theorem declared_type {p : Program} {n : PyStr} {m : Member Written} : Declared p (.type n) m ↔ ∃ s ∈ p.structs ++ p.xceptions, s.name = n ∧ m ∈ s.made.members := by
  constructor
  · intro h
    generalize hc : Class.type n = c at h
    cases h <;> cases hc
    exact ⟨_, by assumption, rfl, by assumption⟩
  · rintro ⟨s, h1, rfl, h2⟩
    exact .field s m h1 h2

theorem declared_args {p : Program} {a b : PyStr} {m : Member Written} :
    Declared p (.args a b) m ↔ ∃ s ∈ p.services, s.name = a ∧ ∃ f ∈ s.fns, f.name = b ∧ m ∈ f.args.members := by
  constructor
  · intro h
    generalize hc : Class.args a b = c at h
    cases h <;> cases hc
    exact ⟨_, by assumption, rfl, _, by assumption, rfl, by assumption⟩
  · rintro ⟨s, h1, rfl, f, h2, rfl, h3⟩
    exact .arg s f m h1 h2 h3

theorem declared_result {p : Program} {a b : PyStr} {m : Member Written} :
    Declared p (.result a b) m ↔ ∃ s ∈ p.services, s.name = a ∧ ∃ f ∈ s.fns, f.name = b ∧ ((∃ w, f.returns = some w ∧ m = successMember w) ∨ m ∈ f.xceptions.members) := by
  constructor
  · intro h
    generalize hc : Class.result a b = c at h
    cases h <;> cases hc
    · exact ⟨_, by assumption, rfl, _, by assumption, rfl, .inl ⟨_, by assumption, rfl⟩⟩
    · exact ⟨_, by assumption, rfl, _, by assumption, rfl, .inr (by assumption)⟩
  · rintro ⟨s, h1, rfl, f, h2, rfl, ⟨w, h3, rfl⟩ | h3⟩
    · exact .success s f w h1 h2 h3
    · exact .thrown s f m h1 h2 h3

theorem declared_class {p : Program} {c : Class} {m : Member Written} (h : Declared p c m) : HasClass p c := by
  cases h with
  | field s m hs _ => exact .type s hs
  | arg s f m hs hf _ => exact .args s f hs hf
  | success s f w hs hf _ => exact .result s f hs hf
  | thrown s f m hs hf _ => exact .result s f hs hf

/-- A function is determined by its name and the one of its service. -/
theorem function_unique {o : Options} {deep : Nat} {src : Source} {p : Program} (h : Parsed o deep src p) {s s' : Service} {f f' : Function Written} (hs : s ∈ p.services)
    (hs' : s' ∈ p.services) (hf : f ∈ s.fns) (hf' : f' ∈ s'.fns) (e : s.name = s'.name) (e' : f.name = f'.name) : f = f' := by
  have h1 := (function_iff h).2 ⟨s, hs, rfl, hf, rfl⟩
  have h2 := (function_iff h).2 ⟨s', hs', e.symm, hf', e'.symm⟩
  rw [h1] at h2
  exact Option.some.inj h2

theorem declared_key {o : Options} {deep : Nat} {src : Source} {p : Program} (h : Parsed o deep src p) (hok : SourceOK src) (N : Numbering) {c : Class} {m : Member Written}
    (hm : Declared p c m) : 0 ≤ m.key ∧ m.key < 2 ^ 15 := by
  cases hm with
  | field s m hs hm =>
    obtain ⟨d, hd, hf⟩ := h.structs s hs
    have := made_keys hf.from (hok.structs d hd) hm
    omega
  | arg s f m hs hf hm => have := (h.good hok N hs hf).argKeys m hm; omega
  | success s f w hs hf hm => exact ⟨Int.le_refl 0, by show (0 : Int) < 2 ^ 15; decide⟩
  | thrown s f m hs hf hm => have := (h.good hok N hs hf).throwKeys m hm; omega

theorem result_ordered {p : Program} {N : Numbering} {f : Function Written} (hg : GoodFn p N f) : (resultStruct f).sorted.Pairwise fun m n => m.key < n.key := by
  rw [hg.result]
  cases f.returns with
  | none => exact hg.throws.2
  | some w => exact List.pairwise_cons.2 ⟨fun m hm => (hg.throwKeys m (hg.throws.1.mem_iff.1 hm)).1, hg.throws.2⟩

theorem members_sorted {o : Options} {deep : Nat} {src : Source} {p : Program} (h : Parsed o deep src p) (hok : SourceOK src) (N : Numbering) {c : Class}
    {ms : List (Member Written)} (e : p.members c = some ms) : ms.Pairwise fun m n => m.key < n.key := by
  cases c with
  | type n =>
    simp only [Program.members, Option.map_eq_some_iff] at e
    obtain ⟨s, h1, rfl⟩ := e
    obtain ⟨h2, rfl⟩ := (find_iff (name := Struct.name) h.distinct.struct).1 h1
    obtain ⟨d, hd, hf⟩ := h.structs s h2
    exact hf.from.ordered
  | args a b =>
    simp only [Program.members, Option.map_eq_some_iff] at e
    obtain ⟨f, h1, rfl⟩ := e
    obtain ⟨s, h2, rfl, h3, rfl⟩ := (function_iff h).1 h1
    exact (h.good hok N h2 h3).args.2
  | result a b =>
    simp only [Program.members, Option.map_eq_some_iff] at e
    obtain ⟨f, h1, rfl⟩ := e
    obtain ⟨s, h2, rfl, h3, rfl⟩ := (function_iff h).1 h1
    exact result_ordered (h.good hok N h2 h3)

section
variable {o : Options} {deep : Nat} {src : Source} {p : Program} (h : Parsed o deep src p) (hok : SourceOK src) {N : Numbering} {k : Nat} {A : Schema} (e : p.generate N k = some A)
include h hok e

theorem field_declared {i : Nat} {f : Field} (hf : f ∈ A i) : ∃ c m, N.dec i = some c ∧ Declared p c m ∧ Generated p N m f := by
  rcases generate_ok h e i with ⟨h1, _⟩ | ⟨c, ms, h1, h2, h3⟩
  · rw [h1] at hf; cases hf
  · obtain ⟨m, hm, hg⟩ := (fields_ok h3).2.1 f hf
    exact ⟨c, m, h1, (members_declared h hok N h2 m).1 hm, hg⟩

theorem declared_field {i : Nat} {c : Class} {m : Member Written} (hc : N.dec i = some c) (hm : Declared p c m) : ∃ f ∈ A i, Generated p N m f := by
  rcases generate_ok h e i with ⟨_, h1⟩ | ⟨c', ms, h1, h2, h3⟩
  · exact absurd (declared_class hm) (h1 c hc)
  · rw [hc] at h1; cases h1
    exact (fields_ok h3).2.2 m ((members_declared h hok N h2 m).2 hm)

theorem generate_fieldsOK (i : Nat) : FieldsOK (A i) ∧ ∀ f ∈ A i, 0 ≤ f.fid := by
  have hk : ∀ f ∈ A i, 0 ≤ f.fid ∧ f.fid < 2 ^ 15 := by
    intro f hf
    obtain ⟨c, m, _, h1, h2⟩ := field_declared h hok e hf
    rw [h2.fid]; exact declared_key h hok N h1
  refine ⟨⟨?_, fun f hf => ?_⟩, fun f hf => (hk f hf).1⟩
  · rcases generate_ok h e i with ⟨h1, _⟩ | ⟨c, ms, h1, h2, h3⟩
    · rw [h1]; exact .nil
    · have := List.pairwise_map.2 (members_sorted h hok N h2)
      rw [← (fields_ok h3).1] at this
      exact List.pairwise_map.1 this
  · have := hk f hf
    unfold InRange; simp; omega

theorem generate_schemaOK (mode : Mode) : SchemaOK mode A := fun i => ⟨(generate_fieldsOK h hok e i).1, fun _ => (generate_fieldsOK h hok e i).2⟩

omit h hok e in
theorem field_unique {fs : List Field} (h : fs.Pairwise fun f g => f.fid < g.fid) {f g : Field} (hf : f ∈ fs) (hg : g ∈ fs) (he : f.fid = g.fid) : f = g := by
  induction fs with
  | nil => cases hf
  | cons x xs ih =>
    have h' := List.pairwise_cons.1 h
    rcases List.mem_cons.1 hf with rfl | hf' <;> rcases List.mem_cons.1 hg with rfl | hg'
    · rfl
    · have := h'.1 g hg'; omega
    · have := h'.1 f hf'; omega
    · exact ih h'.2 hf' hg'

/-- The class of the results of a function -/
theorem result_class {s : Service} (hs : s ∈ p.services) {f : Function Written} (hf : f ∈ s.fns) :
    ∃ excs, (excs.map fun x : Field => x.ty) = (p.fn N k s.name f).throws.map .struct ∧
      ((f.returns.isSome = true ∧ ∃ ty, A (N.num (.result s.name f.name)) = { fid := 0, ty := ty } :: excs) ∨
        (f.returns.isSome = false ∧ A (N.num (.result s.name f.name)) = excs)) := by
  have hg := h.good hok N hs hf
  have hm : p.members (.result s.name f.name) = some (resultStruct f).sorted := by
    simp only [Program.members, (function_iff h).2 ⟨s, hs, rfl, hf, rfl⟩, Option.map_some]
  have hfields : p.fields N k (resultStruct f).sorted = some (A (N.num (.result s.name f.name))) := by
    rcases generate_ok h e (N.num (.result s.name f.name)) with ⟨_, h1⟩ | ⟨c, ms, h1, h2, h3⟩
    · exact absurd (.result s f hs hf) (h1 _ (N.ok _))
    · rw [N.ok] at h1; cases h1
      rw [hm] at h2; cases h2
      exact h3
  have hx : ∀ (ms : List (Member Written)) (fs : List Field), (∀ m ∈ ms, m ∈ f.xceptions.members) → p.fields N k ms = some fs →
      (fs.map fun x : Field => x.ty) = (ms.map fun m => ((p.resolve N k m.ty).map classOf).getD 0).map .struct := by
    intro ms
    induction ms with
    | nil => intro fs _ e; cases e; rfl
    | cons m ms ih =>
      intro fs hin e
      rw [Program.fields] at e
      cases h1 : p.resolve N k m.ty with
      | none => rw [h1] at e; cases e
      | some t =>
        cases h2 : p.fields N k ms with
        | none => rw [h1, h2] at e; cases e
        | some l =>
          rw [h1, h2] at e
          cases e
          obtain ⟨n, rfl⟩ := hg.exception m (hin m (by simp)) t (resolve_denotes h1)
          simp only [List.map_cons, h1, Option.map_some, Option.getD_some, classOf]
          rw [ih l (fun x hx => hin x (List.mem_cons_of_mem _ hx)) h2]
  rw [hg.result] at hfields
  have hin : ∀ m ∈ f.xceptions.sorted, m ∈ f.xceptions.members := fun m hm => hg.throws.1.mem_iff.1 hm
  cases hr : f.returns with
  | none =>
    rw [hr] at hfields
    exact ⟨_, hx _ _ hin hfields, .inr ⟨rfl, rfl⟩⟩
  | some w =>
    rw [hr] at hfields
    simp only [Option.map_some, Option.toList_some, List.singleton_append] at hfields
    rw [Program.fields] at hfields
    cases h1 : p.resolve N k (successMember w).ty with
    | none => rw [h1] at hfields; cases hfields
    | some t =>
      cases h2 : p.fields N k f.xceptions.sorted with
      | none => rw [h1, h2] at hfields; cases hfields
      | some l =>
        rw [h1, h2] at hfields
        have hfields := (Option.some.inj hfields).symm
        refine ⟨l, hx _ _ hin h2, .inl ⟨rfl, t, ?_⟩⟩
        rw [hfields]
        rfl

theorem generate_resultOK {s : Service} (hs : s ∈ p.services) {f : Function Written} (hf : f ∈ s.fns) : ResultOK A (p.fn N k s.name f) where
  shape := result_class h hok e hs hf
  optional x hx := by
    obtain ⟨c, m, h1, h2, h3⟩ := field_declared h hok e (show x ∈ A (N.num (.result s.name f.name)) from hx)
    rw [N.ok] at h1; cases h1
    obtain ⟨s', hs', e1, f', hf', e2, ⟨w, _, rfl⟩ | hm⟩ := declared_result.1 h2
    · exact ⟨h3.required, h3.dflt⟩
    · obtain ⟨h4, h5⟩ := (h.good hok N hs' hf').plain m hm
      exact ⟨by rw [h3.required]; simp [h4], by rw [h3.dflt, h5]⟩
  ids x hx h0 := by
    obtain ⟨c, m, h1, h2, h3⟩ := field_declared h hok e (show x ∈ A (N.num (.result s.name f.name)) from hx)
    rw [N.ok] at h1; cases h1
    obtain ⟨s', hs', e1, f', hf', e2, ⟨w, hw, rfl⟩ | hm⟩ := declared_result.1 h2
    · rw [← function_unique h hs' hs hf' hf e1 e2]
      show f'.returns.isSome = true
      rw [hw]; rfl
    · have := (h.good hok N hs' hf').throwKeys m hm
      rw [h3.fid] at h0; omega
  sorted := (generate_fieldsOK h hok e _).1.1

end

/-! ### Inheritance -/

theorem chain_before {l : List Service} (hc : Chain l) {s : Service} (hs : s ∈ l) {e : PyStr} (he : s.extends_ = some e) : ∃ x ∈ l, x.name = e := by
  induction l with
  | nil => cases hs
  | cons a l ih =>
    rcases List.mem_cons.1 hs with rfl | hs
    · obtain ⟨x, hx, h⟩ := (hc.1 e he).1
      exact ⟨x, List.mem_cons_of_mem _ hx, h⟩
    · obtain ⟨x, hx, h⟩ := ih hc.2 hs
      exact ⟨x, List.mem_cons_of_mem _ hx, h⟩

theorem inherited_skip {a : Service} {l : List Service} (hn : ((a :: l).map Service.name).Nodup) {n : PyStr} (h : ∃ x ∈ l, x.name = n) : inherited (a :: l) n = inherited l n := by
  obtain ⟨x, hx, rfl⟩ := h
  rw [inherited, if_neg]
  intro e
  rw [List.map_cons, List.nodup_cons] at hn
  exact hn.1 (List.mem_map.2 ⟨x, hx, e.symm⟩)

theorem inherited_eq {l : List Service} (hc : Chain l) (hn : (l.map Service.name).Nodup) {s : Service} (hs : s ∈ l) :
    inherited l s.name = (match s.extends_ with | none => [] | some e => inherited l e) ++ s.fns.map fun f => (s.name, f) := by
  induction l with
  | nil => cases hs
  | cons a l ih =>
    have hn' : (l.map Service.name).Nodup := (List.nodup_cons.1 hn).2
    rcases List.mem_cons.1 hs with rfl | hs'
    · rw [inherited, if_pos rfl]
      cases he : s.extends_ with
      | none => rfl
      | some e =>
        dsimp only
        rw [inherited_skip hn (hc.1 e he).1]
    · rw [inherited_skip hn ⟨s, hs', rfl⟩, ih hc.2 hn' hs']
      cases he : s.extends_ with
      | none => rfl
      | some e =>
        dsimp only
        rw [inherited_skip hn (chain_before hc.2 hs' he)]

theorem inherited_offers {o : Options} {deep : Nat} {src : Source} {p : Program} (h : Parsed o deep src p) (n svc : PyStr) (f : Function Written) :
    (svc, f) ∈ inherited p.services.reverse n ↔ Offers p n svc f := by
  constructor
  · have : ∀ l : List Service, (∀ s ∈ l, s ∈ p.services) → ∀ n, (svc, f) ∈ inherited l n → Offers p n svc f := by
      intro l
      induction l with
      | nil => intro _ n hm; cases hm
      | cons a l ih =>
        intro hl n hm
        have hl' := fun s hs => hl s (List.mem_cons_of_mem _ hs)
        rw [inherited] at hm
        split at hm
        · rename_i hname
          subst hname
          rcases List.mem_append.1 hm with hm | hm
          · cases he : a.extends_ with
            | none => rw [he] at hm; cases hm
            | some e =>
              rw [he] at hm
              exact .inherits a e svc f (hl a (by simp)) he (ih hl' e hm)
          · obtain ⟨g, hg, hgf⟩ := List.mem_map.1 hm
            cases hgf
            exact .own a _ (hl a (by simp)) hg
        · exact ih hl' n hm
    exact this _ (fun s hs => List.mem_reverse.1 hs) n
  · intro ho
    have hn : (p.services.reverse.map Service.name).Nodup := by
      rw [List.map_reverse]; exact (List.reverse_perm _).nodup_iff.2 h.distinct.service
    induction ho with
    | own s f hs hf =>
      rw [inherited_eq h.chain hn (List.mem_reverse.2 hs)]
      exact List.mem_append.2 (.inr (List.mem_map.2 ⟨f, hf, rfl⟩))
    | inherits s e svc f hs he _ ih =>
      rw [inherited_eq h.chain hn (List.mem_reverse.2 hs), he]
      exact List.mem_append.2 (.inl ih)

theorem inherited_nodup {l : List Service} (hc : Chain l) (hf : ∀ s ∈ l, (s.fns.map Function.name).Nodup) (n : PyStr) : ((inherited l n).map fun x => x.2.name).Nodup := by
  induction l generalizing n with
  | nil => exact .nil
  | cons a l ih =>
    have ih := ih hc.2 fun s hs => hf s (List.mem_cons_of_mem _ hs)
    rw [inherited]
    split
    · rw [List.map_append, List.nodup_append]
      refine ⟨?_, ?_, ?_⟩
      · cases a.extends_ with
        | none => exact .nil
        | some e => exact ih e
      · rw [List.map_map]; exact hf a (by simp)
      · intro x hx y hy hxy
        rw [List.map_map] at hy
        obtain ⟨f, hfm, rfl⟩ := List.mem_map.1 hy
        cases he : a.extends_ with
        | none => rw [he] at hx; cases hx
        | some e =>
          rw [he] at hx
          obtain ⟨g, hg, rfl⟩ := List.mem_map.1 hx
          exact (hc.1 e he).2 f hfm g hg hxy
    · exact ih n

theorem offers_declared {p : Program} {n svc : PyStr} {f : Function Written} (h : Offers p n svc f) : ∃ s ∈ p.services, s.name = svc ∧ f ∈ s.fns := by
  induction h with
  | own s f hs hf => exact ⟨s, hs, rfl, hf⟩
  | inherits _ _ _ _ _ _ _ ih => exact ih

theorem processor_serves {o : Options} {deep : Nat} {src : Source} {p : Program} (h : Parsed o deep src p) (N : Numbering) (k : Nat) {n svc : PyStr} {f : Function Written}
    (ho : Offers p n svc f) : Serves (p.processor N k n) f.name (p.fn N k svc f) := by
  refine ⟨rfl, ?_⟩
  have hm := (inherited_offers h n svc f).2 ho
  have hn := inherited_nodup h.chain (fun s hs => by
    obtain ⟨d, _, hf⟩ := h.services s (List.mem_reverse.1 hs)
    exact hf.fn.1) n
  obtain ⟨a, b, hab⟩ := List.append_of_mem hm
  refine ⟨a.map fun x => p.fn N k x.1 x.2, b.map fun x => p.fn N k x.1 x.2, by unfold Program.processor; rw [hab]; simp, fun g hg hname => ?_⟩
  obtain ⟨x, hx, rfl⟩ := List.mem_map.1 hg
  rw [hab, List.map_append, List.map_cons, List.nodup_append, List.nodup_cons] at hn
  exact hn.2.1.1 (List.mem_map.2 ⟨x, hx, hname⟩)

/-! ### Programs that pass the audit -/

section
variable {oo on : Options} {dO dN : Nat} {srcO srcN : Source} {old new : Program} (ho : Parsed oo dO srcO old) (hn : Parsed on dN srcN new) (hp : Passes new old)
include ho hn hp

omit ho hn in
theorem passes_struct {s : Struct} (hs : s ∈ old.structs ++ old.xceptions) : ∃ s' ∈ new.structs ++ new.xceptions, s'.name = s.name ∧ Keeps s'.made.members s.made.members := by
  rcases List.mem_append.1 hs with hs | hs
  · obtain ⟨s', h1, h2⟩ := hp.structs s hs
    exact ⟨s', List.mem_append.2 (.inl h1), h2⟩
  · obtain ⟨s', h1, h2⟩ := hp.xceptions s hs
    exact ⟨s', List.mem_append.2 (.inr h1), h2⟩

omit ho hn in
theorem passes_function {s : Service} (hs : s ∈ old.services) {f : Function Written} (hf : f ∈ s.fns) :
    ∃ s' ∈ new.services, s'.name = s.name ∧ ∃ f' ∈ s'.fns, KeepsFunction f' f := by
  obtain ⟨s', h1, h2, _, h3⟩ := hp.services s hs
  exact ⟨s', h1, h2, h3 f hf⟩

omit ho hn in
theorem passes_kept {c : Class} {m : Member Written} (hm : Declared old c m) :
    ∃ n, Declared new c n ∧ n.key = m.key ∧ Same n.ty m.ty ∧ (n.req = .required ↔ m.req = .required) := by
  cases hm with
  | field s m hs hm =>
    obtain ⟨s', h1, h2, h3⟩ := passes_struct hp hs
    obtain ⟨n, h4, h5⟩ := h3.kept m hm
    exact ⟨n, declared_type.2 ⟨s', h1, h2, h4⟩, h5⟩
  | arg s f m hs hf hm =>
    obtain ⟨s', h1, h2, f', h3, h4⟩ := passes_function hp hs hf
    obtain ⟨n, h5, h6⟩ := h4.args.kept m hm
    exact ⟨n, declared_args.2 ⟨s', h1, h2, f', h3, h4.name, h5⟩, h6⟩
  | success s f w hs hf hw =>
    obtain ⟨s', h1, h2, f', h3, h4⟩ := passes_function hp hs hf
    have hr := h4.returns
    rw [hw] at hr
    cases hw' : f'.returns with
    | none => rw [hw'] at hr; exact hr.elim
    | some w' =>
      rw [hw'] at hr
      exact ⟨successMember w', declared_result.2 ⟨s', h1, h2, f', h3, h4.name, .inl ⟨w', hw', rfl⟩⟩, rfl, hr, Iff.rfl⟩
  | thrown s f m hs hf hm =>
    obtain ⟨s', h1, h2, f', h3, h4⟩ := passes_function hp hs hf
    obtain ⟨n, h5, h6⟩ := h4.throws.kept m hm
    exact ⟨n, declared_result.2 ⟨s', h1, h2, f', h3, h4.name, .inr h5⟩, h6⟩

theorem passes_added (hokN : SourceOK srcN) (N : Numbering) {c : Class} (hc : HasClass old c) {n : Member Written} (hd : Declared new c n)
    (hno : ∀ m, Declared old c m → m.key ≠ n.key) : n.req ≠ .required ∧ ∀ m, Declared old c m → m.key < n.key := by
  cases hc with
  | type s hs =>
    obtain ⟨s', h1, h2, h3⟩ := passes_struct hp hs
    obtain ⟨s'', h4, h5, h6⟩ := declared_type.1 hd
    cases eq_of_name hn.distinct.struct h4 h1 (h5.trans h2.symm)
    obtain ⟨h7, h8⟩ := h3.added n h6 fun m hm => hno m (.field s m hs hm)
    refine ⟨h7, fun m hm => ?_⟩
    obtain ⟨t, h9, h10, h11⟩ := declared_type.1 hm
    cases eq_of_name ho.distinct.struct h9 hs h10
    exact h8 m h11
  | args s f hs hf =>
    obtain ⟨s', h1, h2, f', h3, h4⟩ := passes_function hp hs hf
    obtain ⟨t, t1, t2, g, t3, t4, t5⟩ := declared_args.1 hd
    cases function_unique hn t1 h1 t3 h3 (t2.trans h2.symm) (t4.trans h4.name.symm)
    obtain ⟨h7, h8⟩ := h4.args.added n t5 fun m hm => hno m (.arg s f m hs hf hm)
    refine ⟨h7, fun m hm => ?_⟩
    obtain ⟨u, u1, u2, v, u3, u4, u5⟩ := declared_args.1 hm
    cases function_unique ho u1 hs u3 hf u2 u4
    exact h8 m u5
  | result s f hs hf =>
    obtain ⟨s', h1, h2, f', h3, h4⟩ := passes_function hp hs hf
    obtain ⟨t, t1, t2, g, t3, t4, t5⟩ := declared_result.1 hd
    cases function_unique hn t1 h1 t3 h3 (t2.trans h2.symm) (t4.trans h4.name.symm)
    rcases t5 with ⟨w, hw, rfl⟩ | t5
    · have hr := h4.returns
      rw [hw] at hr
      cases hw' : f.returns with
      | none => rw [hw'] at hr; exact hr.elim
      | some w' => exact absurd rfl (hno (successMember w') (.success s f w' hs hf hw'))
    · obtain ⟨h7, h8⟩ := h4.throws.added n t5 fun m hm => hno m (.thrown s f m hs hf hm)
      refine ⟨h7, fun m hm => ?_⟩
      obtain ⟨u, u1, u2, v, u3, u4, u5⟩ := declared_result.1 hm
      cases function_unique ho u1 hs u3 hf u2 u4
      rcases u5 with ⟨w, hw, rfl⟩ | u5
      · exact ((hn.good hokN N h1 h3).throwKeys n t5).1
      · exact h8 m u5

omit ho hn in
theorem passes_offers {n svc : PyStr} {f : Function Written} (hf : Offers old n svc f) : ∃ g, Offers new n svc g ∧ KeepsFunction g f := by
  induction hf with
  | own s f hs hf =>
    obtain ⟨s', h1, h2, f', h3, h4⟩ := passes_function hp hs hf
    exact ⟨f', h2 ▸ .own s' f' h1 h3, h4⟩
  | inherits s e svc f hs he _ ih =>
    obtain ⟨g, h1, h2⟩ := ih
    obtain ⟨s', h3, h4, h5, _⟩ := hp.services s hs
    exact ⟨g, h4 ▸ .inherits s' e svc g h3 (h5 e he) h1, h2⟩

variable (hokO : SourceOK srcO) (hokN : SourceOK srcN) (hu : Unchecked new old) {N : Numbering} {kO kN : Nat} {A B : Schema} (hA : old.generate N kO = some A)
  (hB : new.generate N kN = some B)
include hokO hokN hu hA hB

theorem audit_extends : ExtendsSchema (fun i => ∃ c, HasClass old c ∧ N.dec i = some c) B A where
  kept i f hf := by
    obtain ⟨c, m, h1, h2, h3⟩ := field_declared ho hokO hA hf
    obtain ⟨n, h4, h5, h6, h7⟩ := passes_kept hp h2
    obtain ⟨g, hg, h8⟩ := declared_field hn hokN hB h1 h4
    have ht := hu.text c m n h2 h4 h5 h6
    refine ⟨g, hg, by rw [h8.fid, h3.fid, h5], ?_, by rw [h8.required, h3.required]; exact decide_eq_decide.2 h7⟩
    refine denotes_unique hn.distinct h8.ty ?_
    rw [ht]
    refine denotes_mono hu.typedefs hu.enums (fun s hs => ?_) h3.ty
    obtain ⟨s', h9, h10, _⟩ := passes_struct hp hs
    exact ⟨s', h9, h10⟩
  added i hi g hg hno := by
    obtain ⟨c, hc, hd⟩ := hi
    obtain ⟨c', n, h1, h2, h3⟩ := field_declared hn hokN hB hg
    rw [hd] at h1; cases h1
    obtain ⟨h4, h5⟩ := passes_added ho hn hp hokN N hc h2 (fun m hm he => by
      obtain ⟨f, hf, h6⟩ := declared_field ho hokO hA hd hm
      exact hno f hf (by rw [h6.fid, h3.fid, he]))
    refine ⟨by rw [h3.required]; simp [h4], fun f hf => ?_⟩
    obtain ⟨c'', m, h7, h8, h9⟩ := field_declared ho hokO hA hf
    rw [hd] at h7; cases h7
    rw [h9.fid, h3.fid]
    exact h5 m h8

/-- Fields with the same id have the same type. -/
theorem audit_types (i : Nat) {f g : Field} (hf : f ∈ A i) (hg : g ∈ B i) (e : f.fid = g.fid) : f.ty = g.ty := by
  obtain ⟨g', h1, h2, h3, _⟩ := (audit_extends ho hn hp hokO hokN hu hA hB).kept i f hf
  rw [field_unique (generate_fieldsOK hn hokN hB i).1.1 hg h1 (e.symm.trans h2.symm), h3]

theorem audit_versions {s s' : Service} {f g : Function Written} (hs : s ∈ old.services) (hf : f ∈ s.fns) (hs' : s' ∈ new.services) (hg : g ∈ s'.fns) (hname : s'.name = s.name)
    (hk : KeepsFunction g f) :
    Versions A B (old.fn N kO s.name f) (new.fn N kN s.name g) ∧ Versions B A (new.fn N kN s.name g) (old.fn N kO s.name f) := by
  have hret : f.returns.isSome = g.returns.isSome := by
    have := hk.returns
    cases h1 : f.returns <;> cases h2 : g.returns <;> rw [h1, h2] at this <;> first | rfl | exact this.elim
  have hid : (new.fn N kN s.name g).resultId = (old.fn N kO s.name f).resultId := by simp [Program.fn, hk.name]
  have hext := audit_extends ho hn hp hokO hokN hu hA hB
  have hresO := generate_resultOK ho hokO hA hs hf
  have hresN := generate_resultOK hn hokN hB hs' hg
  rw [hname] at hresN
  have hzero : ∀ (X : Schema) (fn : Fn), ResultOK X fn → fn.returns = true → ∃ f ∈ X fn.resultId, f.fid = 0 := by
    intro X fn hr ht
    obtain ⟨excs, _, ⟨_, ty, h⟩ | ⟨h, _⟩⟩ := hr.shape
    · exact ⟨_, by rw [h]; exact List.mem_cons_self, rfl⟩
    · rw [ht] at h; cases h
  have hretO : (old.fn N kO s.name f).returns = f.returns.isSome := rfl
  have hretN : (new.fn N kN s.name g).returns = g.returns.isSome := rfl
  constructor
  · refine ⟨hk.name.symm, by simp [Program.fn, hk.name], hid.symm, hret, hk.oneway.symm, fun x hx y hy he => ?_, fun sid x hsid hx => ?_, fun hr => ?_⟩
    · exact (audit_types ho hn hp hokO hokN hu hA hB _ hy hx he.symm).symm
    · obtain ⟨pre, post, h1, h2, h3, h4⟩ := hx
      by_cases hex : ∃ y ∈ A (new.fn N kN s.name g).resultId, y.fid = x.fid
      · exact hex
      · exfalso
        obtain ⟨excs, h5, h6⟩ := hresO.shape
        have h7 : Ty.struct sid ∈ excs.map (·.ty) := by rw [h5]; exact List.mem_map_of_mem hsid
        obtain ⟨y, hy, hyt⟩ := List.mem_map.1 h7
        have hyA : y ∈ A (new.fn N kN s.name g).resultId ∧ y.fid ≠ 0 := by
          rw [hid]
          have hsort := hresO.sorted
          rcases h6 with ⟨_, ty, h8⟩ | ⟨h8, h9⟩
          · rw [h8] at hsort ⊢
            have := (List.pairwise_cons.1 hsort).1 y hy
            exact ⟨List.mem_cons_of_mem _ hy, by simp at this; omega⟩
          · rw [h9]
            refine ⟨hy, fun h0 => ?_⟩
            have := hresO.ids y (by rw [h9]; exact hy) h0
            rw [h8] at this; cases this
        obtain ⟨z, hz, hz1, hz2, _⟩ := hext.kept _ y hyA.1
        have hxB : x ∈ B (new.fn N kN s.name g).resultId := by rw [h1]; simp
        have hlt := (hext.added (new.fn N kN s.name g).resultId ⟨.result s.name f.name, .result s f hs hf, by rw [hid]; exact N.ok _⟩ x hxB
          (fun w hw hc => hex ⟨w, hw, hc⟩)).2 y hyA.1
        rw [h1] at hz
        rcases List.mem_append.1 hz with hz' | hz'
        · rcases h4 z hz' with h | h
          · exact hyA.2 (by rw [← hz1, h])
          · exact h (by rw [hz2, hyt])
        · have hsort := hresN.sorted
          rw [h1, List.pairwise_append] at hsort
          rcases List.mem_cons.1 hz' with rfl | hz'
          · omega
          · have := (List.pairwise_cons.1 hsort.2.1).1 z hz'
            omega
    · exact hzero B _ hresN (by rw [hretN, ← hret]; exact hr)
  · refine ⟨hk.name, by simp [Program.fn, hk.name], hid, hret.symm, hk.oneway, fun x hx y hy he => ?_, fun sid x _ hx => ?_, fun hr => ?_⟩
    · exact audit_types ho hn hp hokO hokN hu hA hB _ hx hy he
    · obtain ⟨pre, post, h1, _⟩ := hx
      obtain ⟨y, hy, h2, _⟩ := hext.kept _ x (by rw [h1]; simp)
      exact ⟨y, hy, h2⟩
    · exact hzero A _ hresO (by rw [hretO, hret]; exact hr)

end

end Thrift.Audit
