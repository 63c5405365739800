import Verif.Spec.Enums
import Verif.Proofs.Locals
/-
C81: the classes of enums, without the option `enum`.
-/

namespace Thrift.Enums
open Names Attrs Spec.Enums Rpc

/-! ### Values -/

theorem number_values : ∀ (is : List Item) (prev : Int) (vs : List (PyStr × Int)), number prev is = some vs →
    Values (prev + 1) is vs ∧ (∀ e ∈ vs, -2 ^ 31 ≤ prev + 1 → -2 ^ 31 ≤ e.2) ∧ (prev ≤ 2 ^ 31 - 1 → ∀ e ∈ vs, e.2 ≤ 2 ^ 31 - 1) ∧
      ∀ i ∈ is, i.value = none → 46 ∉ i.name
  | [], prev, vs, h => by
    simp only [number, Option.some.injEq] at h
    subst h
    exact ⟨.nil _, by simp, by simp, by simp⟩
  | ⟨n, some v⟩ :: is, prev, vs, h => by
    simp only [number] at h
    split at h
    · next hv =>
      obtain ⟨ws, hw, rfl⟩ := Option.map_eq_some_iff.mp h
      have ⟨a, b, c, d⟩ := number_values is v ws hw
      simp only [inInt32, Bool.and_eq_true, decide_eq_true_eq] at hv
      refine ⟨.given _ _ _ _ _ a, ?_, ?_, ?_⟩
      · intro e he _
        rcases List.mem_cons.mp he with rfl | he
        · exact hv.1
        · exact b e he (by omega)
      · intro _ e he
        rcases List.mem_cons.mp he with rfl | he
        · exact hv.2
        · exact c hv.2 e he
      · intro i hi hn
        rcases List.mem_cons.mp hi with rfl | hi
        · exact nomatch hn
        · exact d i hi hn
    · exact nomatch h
  | ⟨n, none⟩ :: is, prev, vs, h => by
    simp only [number] at h
    split at h
    · exact nomatch h
    · next hd =>
      split at h
      · exact nomatch h
      · next hp =>
        obtain ⟨ws, hw, rfl⟩ := Option.map_eq_some_iff.mp h
        have ⟨a, b, c, d⟩ := number_values is (prev + 1) ws hw
        refine ⟨.next _ _ _ _ a, ?_, ?_, ?_⟩
        · intro e he hl
          rcases List.mem_cons.mp he with rfl | he
          · exact hl
          · exact b e he (by omega)
        · intro hq e he
          rcases List.mem_cons.mp he with rfl | he
          · dsimp only; omega
          · exact c (by omega) e he
        · intro i hi hn
          rcases List.mem_cons.mp hi with rfl | hi
          · exact hd
          · exact d i hi hn

theorem values_number : ∀ (is : List Item) (prev : Int) (vs : List (PyStr × Int)), Values (prev + 1) is vs →
    (∀ e ∈ vs, -2 ^ 31 ≤ e.2 ∧ e.2 ≤ 2 ^ 31 - 1) → (∀ i ∈ is, i.value = none → 46 ∉ i.name) → number prev is = some vs
  | [], prev, vs, h, _, _ => by cases h; rfl
  | ⟨n, some v⟩ :: is, prev, _, .given _ _ _ _ ws h, hr, hd => by
    have hv := hr (n, v) (List.mem_cons_self ..)
    have := values_number is v ws h (fun e he => hr e (List.mem_cons_of_mem _ he)) (fun i hi => hd i (List.mem_cons_of_mem _ hi))
    have hi : inInt32 v = true := by simpa [inInt32] using hv
    simp only [number]
    rw [if_pos hi, this]
    rfl
  | ⟨n, none⟩ :: is, prev, _, .next _ _ _ ws h, hr, hd => by
    have hv := hr (n, prev + 1) (List.mem_cons_self ..)
    have := values_number is (prev + 1) ws h (fun e he => hr e (List.mem_cons_of_mem _ he)) (fun i hi => hd i (List.mem_cons_of_mem _ hi))
    simp only [number]
    rw [if_neg (hd _ (List.mem_cons_self ..) rfl), if_neg (by dsimp only at hv; omega), this]
    rfl

/-- **C81, the values**: the compiler accepts an enum exactly if the values that its names have by the rules of the IDL fit into 32 bits, the names are
different, and names that are given no value have no dot; and then these are the values. -/
theorem values_iff (is : List Item) (vs : List (PyStr × Int)) :
    declare is = some vs ↔ Values 0 is vs ∧ (∀ e ∈ vs, -2 ^ 31 ≤ e.2 ∧ e.2 ≤ 2 ^ 31 - 1) ∧ (vs.map (·.1)).Nodup ∧
      ∀ i ∈ is, i.value = none → 46 ∉ i.name := by
  constructor
  · intro h
    unfold declare at h
    split at h
    · next ws hw =>
      split at h
      · next hn =>
        cases h
        have ⟨a, b, c, d⟩ := number_values is (-1) vs hw
        exact ⟨a, fun e he => ⟨b e he (by decide), c (by decide) e he⟩, hn, d⟩
      · exact nomatch h
    · exact nomatch h
  · rintro ⟨a, b, c, d⟩
    unfold declare
    have := values_number is (-1) vs (by simpa using a) b d
    rw [this]
    exact if_pos c

/-! ### The class -/

theorem lookup_put {α β : Type} [DecidableEq α] [BEq α] [LawfulBEq α] (k j : α) (v : β) (d : List (α × β)) : (put k v d).lookup j = if j = k then some v else d.lookup j := by
  unfold put
  rw [List.lookup_cons]
  by_cases h : j = k
  · subst h; simp
  · rw [if_neg h]
    have : (j == k) = false := by simpa using h
    rw [this]
    dsimp only
    induction d with
    | nil => rfl
    | cons e d ih =>
      rw [List.filter_cons]
      by_cases he : e.1 = k
      · have hj : (j == e.1) = false := by simpa [he] using h
        rw [if_neg (by simpa using he), ih, List.lookup_cons, hj]
      · rw [if_pos (by simpa using he), List.lookup_cons, List.lookup_cons, ih]

theorem lookup_foldl {α β : Type} [DecidableEq α] [BEq α] [LawfulBEq α] : ∀ (es d : List (α × β)) (k : α),
    (es.foldl (fun d e => put e.1 e.2 d) d).lookup k = ((es.reverse.lookup k).or (d.lookup k))
  | [], d, k => by simp
  | e :: es, d, k => by
    rw [List.foldl_cons, lookup_foldl, lookup_put, List.reverse_cons, List.lookup_append]
    cases es.reverse.lookup k with
    | some x => rfl
    | none =>
      obtain ⟨a, b⟩ := e
      simp only [Option.none_or, List.lookup_cons, List.lookup_nil]
      by_cases h : k = a
      · subst h; simp
      · have : (k == a) = false := by simpa using h
        rw [if_neg h, this]
        rfl

theorem lookup_display {α β : Type} [DecidableEq α] [BEq α] [LawfulBEq α] (es : List (α × β)) (k : α) : (display es).lookup k = es.reverse.lookup k := by
  unfold display
  rw [lookup_foldl]
  simp

/-- A lookup from the end finds the last entry. -/
theorem lookup_reverse {α β : Type} [DecidableEq α] [BEq α] [LawfulBEq α] (es : List (α × β)) (k : α) (v : β) :
    es.reverse.lookup k = some v ↔ ∃ a b, es = a ++ (k, v) :: b ∧ ∀ e ∈ b, e.1 ≠ k := by
  rw [List.lookup_eq_some_iff]
  constructor
  · rintro ⟨a, b, h, hn⟩
    refine ⟨b.reverse, a.reverse, ?_, fun e he => ?_⟩
    · have := congrArg List.reverse h
      simpa using this
    · have := hn e (List.mem_reverse.mp he)
      simp at this
      exact fun h' => this h'.symm
  · rintro ⟨a, b, rfl, hn⟩
    refine ⟨b.reverse, a.reverse, by simp, fun e he => ?_⟩
    have := hn e (List.mem_reverse.mp he)
    simpa using fun h' => this h'.symm

theorem components_simple : ∀ {n : PyStr}, 46 ∉ n → components n = [n]
  | [], _ => rfl
  | c :: cs, h => by
    have hc : c ≠ 46 := fun hc => h (by rw [hc]; exact List.mem_cons_self ..)
    rw [components, if_neg hc, components_simple fun hc => h (List.mem_cons_of_mem _ hc)]

/-- Names that cause no trouble: no dots, not `async` or `await`, not private, not the names of the two dictionaries, and no two of which one is a reserved
word and the other this word with an underscore. -/
structure Clean (vs : List (PyStr × Int)) : Prop where
  simple : ∀ e ∈ vs, 46 ∉ e.1
  words : ∀ e ∈ vs, e.1 ≠ pyStr "async" ∧ e.1 ≠ pyStr "await"
  priv : ∀ e ∈ vs, ¬ pyStr "__" <+: e.1
  dicts : ∀ e ∈ vs, e.1 ≠ pyStr "_VALUES_TO_NAMES" ∧ e.1 ≠ pyStr "_NAMES_TO_VALUES"
  words_ : ∀ e ∈ vs, ∀ f ∈ vs, f.1 ∈ keywords → e.1 ≠ f.1 ++ pyStr "_"

theorem keywords_plain : ∀ k ∈ keywords, 46 ∉ k ++ pyStr "_" ∧ ¬ pyStr "__" <+: k ++ pyStr "_" ∧ k ++ pyStr "_" ≠ pyStr "_VALUES_TO_NAMES" ∧
    k ++ pyStr "_" ≠ pyStr "_NAMES_TO_VALUES" := by decide +kernel

theorem escape_plain {vs : List (PyStr × Int)} (hc : Clean vs) {e : PyStr × Int} (he : e ∈ vs) : 46 ∉ escape e.1 ∧ ¬ pyStr "__" <+: escape e.1 ∧
    escape e.1 ≠ pyStr "_VALUES_TO_NAMES" ∧ escape e.1 ≠ pyStr "_NAMES_TO_VALUES" := by
  unfold escape
  by_cases hk : e.1 ∈ keywords
  · rw [if_pos hk]
    exact keywords_plain _ hk
  · rw [if_neg hk]
    exact ⟨hc.simple e he, hc.priv e he, hc.dicts e he⟩

theorem escape_inj {vs : List (PyStr × Int)} (hc : Clean vs) {e f : PyStr × Int} (he : e ∈ vs) (hf : f ∈ vs) (h : escape e.1 = escape f.1) : e.1 = f.1 := by
  unfold escape at h
  by_cases h1 : e.1 ∈ keywords <;> by_cases h2 : f.1 ∈ keywords
  · rw [if_pos h1, if_pos h2] at h
    exact List.append_cancel_right h
  · rw [if_pos h1, if_neg h2] at h
    exact absurd h.symm (hc.words_ f hf e he h1)
  · rw [if_neg h1, if_pos h2] at h
    exact absurd h (hc.words_ e he f hf h2)
  · rwa [if_neg h1, if_neg h2] at h

theorem mangle_plain {cls n : PyStr} (h : ¬ pyStr "__" <+: n) : mangle cls n = n := by
  unfold mangle
  exact if_neg fun hm => h hm.1

theorem assign_plain (cls : PyStr) (globals : List PyStr) {n : PyStr} (v : Int) (attrs : List (PyStr × Obj)) (h : 46 ∉ n) (hp : ¬ pyStr "__" <+: n) :
    assign cls globals n v attrs = .ok (put n (.int v) attrs) := by
  unfold assign
  rw [components_simple h, mangle_plain hp]

theorem body_plain (cls : PyStr) (globals : List PyStr) : ∀ (vs : List (PyStr × Int)) (attrs : List (PyStr × Obj)),
    (∀ e ∈ vs, 46 ∉ escape e.1 ∧ ¬ pyStr "__" <+: escape e.1) →
    body cls globals vs attrs = .ok ((vs.map fun e => (escape e.1, Obj.int e.2)).foldl (fun d e => put e.1 e.2 d) attrs)
  | [], _, _ => rfl
  | (n, v) :: vs, attrs, h => by
    have h0 := h _ (List.mem_cons_self ..)
    rw [body, assign_plain cls globals v attrs h0.1 h0.2]
    exact body_plain cls globals vs _ fun e he => h e (List.mem_cons_of_mem _ he)

/-- The two dictionaries, which end the body -/
def withDicts (vs : List (PyStr × Int)) (attrs : List (PyStr × Obj)) : List (PyStr × Obj) :=
  put (pyStr "_NAMES_TO_VALUES") (.values (display vs)) (put (pyStr "_VALUES_TO_NAMES") (.names (display (vs.map fun e => (e.2, e.1)))) attrs)

theorem classDef_ok {cls : PyStr} {globals : List PyStr} {vs : List (PyStr × Int)} {attrs : List (PyStr × Obj)}
    (hs : ¬ ∃ e ∈ vs, ∃ c ∈ components (escape e.1), c ∈ Spec.Names.reserved) (hb : body cls globals vs [] = .ok attrs) :
    classDef cls globals vs = .ok (withDicts vs attrs) := by
  unfold classDef
  rw [if_neg hs, hb]
  rfl

theorem lookup_withDicts (vs : List (PyStr × Int)) (attrs : List (PyStr × Obj)) {n : PyStr} (h1 : n ≠ pyStr "_VALUES_TO_NAMES")
    (h2 : n ≠ pyStr "_NAMES_TO_VALUES") : (withDicts vs attrs).lookup n = attrs.lookup n := by
  unfold withDicts
  rw [lookup_put, if_neg h2, lookup_put, if_neg h1]

/-- **C81, the class**: if the names cause no trouble, the module can be imported; every name (with an underscore, if it is a reserved word) is an attribute
of the class and has its value, `_NAMES_TO_VALUES` has exactly the names with their values, and `_VALUES_TO_NAMES` exactly the values, each with the
last name that has it. -/
theorem class_partial (cls : PyStr) (globals : List PyStr) {is : List Item} {vs : List (PyStr × Int)} (h : declare is = some vs) (hc : Clean vs) :
    ∃ attrs names values, classDef cls globals vs = .ok attrs ∧
      (∀ n v, (n, v) ∈ vs → attrs.lookup (escape n) = some (.int v)) ∧
      attrs.lookup (pyStr "_VALUES_TO_NAMES") = some (.names names) ∧
      attrs.lookup (pyStr "_NAMES_TO_VALUES") = some (.values values) ∧
      (∀ n v, values.lookup n = some v ↔ (n, v) ∈ vs) ∧ (∀ v n, names.lookup v = some n ↔ Last vs v n) := by
  have hd := ((values_iff is vs).mp h).2.2.1
  have hb := body_plain cls globals vs [] fun e he => ⟨(escape_plain hc he).1, (escape_plain hc he).2.1⟩
  have hs : ¬ ∃ e ∈ vs, ∃ c ∈ components (escape e.1), c ∈ Spec.Names.reserved := by
    rintro ⟨e, he, c, hcm, hr⟩
    rw [components_simple (escape_plain hc he).1, List.mem_singleton] at hcm
    subst hcm
    exact (Locals.escape_not_reserved e.1).mpr (hc.words e he) hr
  refine ⟨_, display (vs.map fun e => (e.2, e.1)), display vs, classDef_ok hs hb, ?_, ?_, ?_, ?_, ?_⟩
  · intro n v hm
    have hp := escape_plain hc hm
    rw [lookup_withDicts _ _ hp.2.2.1 hp.2.2.2, lookup_foldl, List.lookup_nil, Option.or_none, lookup_reverse]
    obtain ⟨a, b, rfl⟩ := List.append_of_mem hm
    refine ⟨a.map _, b.map _, by rw [List.map_append, List.map_cons], fun e he heq => ?_⟩
    obtain ⟨f, hf, rfl⟩ := List.mem_map.mp he
    have hfm : f ∈ a ++ (n, v) :: b := List.mem_append_right _ (List.mem_cons_of_mem _ hf)
    have hfn := escape_inj hc hfm hm heq
    rw [List.map_append, List.map_cons, List.nodup_append] at hd
    have := (List.nodup_cons.mp hd.2.1).1
    exact this (List.mem_map.mpr ⟨f, hf, hfn⟩)
  · rw [withDicts, lookup_put, if_neg (by decide +kernel), lookup_put, if_pos rfl]
  · rw [withDicts, lookup_put, if_pos rfl]
  · intro n v
    rw [lookup_display, lookup_reverse]
    constructor
    · rintro ⟨a, b, rfl, _⟩
      exact List.mem_append_right _ (List.mem_cons_self ..)
    · intro hm
      obtain ⟨a, b, rfl⟩ := List.append_of_mem hm
      refine ⟨a, b, rfl, fun f hf heq => ?_⟩
      rw [List.map_append, List.map_cons, List.nodup_append] at hd
      exact (List.nodup_cons.mp hd.2.1).1 (List.mem_map.mpr ⟨f, hf, heq⟩)
  · intro v n
    rw [lookup_display, lookup_reverse]
    unfold Last
    constructor
    · rintro ⟨a, b, hab, hn⟩
      obtain ⟨a', r, rfl, rfl, hr⟩ := List.map_eq_append_iff.mp hab
      obtain ⟨⟨m, w⟩, b', rfl, hm, rfl⟩ := List.map_eq_cons_iff.mp hr
      cases hm
      exact ⟨a', b', rfl, fun e he => hn (e.2, e.1) (List.mem_map.mpr ⟨e, he, rfl⟩)⟩
    · rintro ⟨a, b, rfl, hn⟩
      refine ⟨a.map _, b.map _, by rw [List.map_append, List.map_cons], fun e he => ?_⟩
      obtain ⟨f, hf, rfl⟩ := List.mem_map.mp he
      exact hn f hf

/-- **C81**: where different names have different values, the two dictionaries are inverse to each other. -/
theorem dicts_inverse (cls : PyStr) (globals : List PyStr) {is : List Item} {vs : List (PyStr × Int)} (h : declare is = some vs) (hc : Clean vs)
    (hv : (vs.map (·.2)).Nodup) :
    ∃ attrs names values, classDef cls globals vs = .ok attrs ∧ attrs.lookup (pyStr "_VALUES_TO_NAMES") = some (.names names) ∧
      attrs.lookup (pyStr "_NAMES_TO_VALUES") = some (.values values) ∧ ∀ n v, names.lookup v = some n ↔ values.lookup n = some v := by
  obtain ⟨attrs, names, values, h1, _, h3, h4, h5, h6⟩ := class_partial cls globals h hc
  refine ⟨attrs, names, values, h1, h3, h4, fun n v => ?_⟩
  rw [h5, h6]
  constructor
  · rintro ⟨a, b, rfl, _⟩
    exact List.mem_append_right _ (List.mem_cons_self ..)
  · intro hm
    obtain ⟨a, b, rfl⟩ := List.append_of_mem hm
    refine ⟨a, b, rfl, fun f hf heq => ?_⟩
    rw [List.map_append, List.map_cons, List.nodup_append] at hv
    exact (List.nodup_cons.mp hv.2.1).1 (List.mem_map.mpr ⟨f, hf, heq⟩)

/-- `enum E { A, B = 5, None, C = 5 }` -/
example : ∃ vs, declare [⟨pyStr "A", none⟩, ⟨pyStr "B", some 5⟩, ⟨pyStr "None", none⟩, ⟨pyStr "C", some 5⟩] = some vs ∧ Clean vs ∧
    Last vs 5 (pyStr "C") ∧ (pyStr "None", 6) ∈ vs :=
  ⟨[(pyStr "A", 0), (pyStr "B", 5), (pyStr "None", 6), (pyStr "C", 5)], by decide +kernel,
    ⟨by decide +kernel, by decide +kernel, by decide +kernel, by decide +kernel, by decide +kernel⟩,
    ⟨[(pyStr "A", 0), (pyStr "B", 5), (pyStr "None", 6)], [], rfl, by simp⟩, by decide +kernel⟩

/-! ### Names that cause trouble -/

/-- `async` and `await` are not in the list of reserved words: the module that contains the enum cannot be imported. -/
theorem async_name (cls : PyStr) (globals : List PyStr) (vs : List (PyStr × Int)) (v : Int)
    (h : (pyStr "async", v) ∈ vs ∨ (pyStr "await", v) ∈ vs) : classDef cls globals vs = .error .syntaxError := by
  unfold classDef
  apply if_pos
  rcases h with h | h
  · exact ⟨_, h, pyStr "async", by dsimp only; decide +kernel, by decide +kernel⟩
  · exact ⟨_, h, pyStr "await", by dsimp only; decide +kernel, by decide +kernel⟩

/-- `enum E { None = 1, None_ = 2 }` is accepted, and then `E.None_` is the last of the two values: the other name has lost its value. -/
theorem reserved_collision (cls : PyStr) (globals : List PyStr) (k : PyStr) (hk : k ∈ keywords) (v w : Int) (hv : inInt32 v) (hw : inInt32 w) :
    declare [⟨k, some v⟩, ⟨k ++ pyStr "_", some w⟩] = some [(k, v), (k ++ pyStr "_", w)] ∧
    ∃ attrs, classDef cls globals [(k, v), (k ++ pyStr "_", w)] = .ok attrs ∧ escape k = escape (k ++ pyStr "_") ∧
      attrs.lookup (escape k) = some (.int w) := by
  have hall : ∀ k ∈ keywords, k ≠ k ++ pyStr "_" ∧ escape k = k ++ pyStr "_" ∧ escape (k ++ pyStr "_") = k ++ pyStr "_" ∧
      components (k ++ pyStr "_") = [k ++ pyStr "_"] ∧ k ++ pyStr "_" ∉ Spec.Names.reserved := by decide +kernel
  obtain ⟨h1, h2, h3, h4, h5⟩ := hall k hk
  have hp := keywords_plain k hk
  constructor
  · simp only [declare, number]
    rw [if_pos hv, if_pos hw]
    dsimp only [Option.map]
    rw [if_pos (by simp only [List.map_cons, List.map_nil, List.nodup_cons, List.mem_singleton, List.not_mem_nil, not_false_iff, List.nodup_nil, and_true]; exact h1)]
  · have hs : ¬ ∃ e ∈ [(k, v), (k ++ pyStr "_", w)], ∃ c ∈ components (escape e.1), c ∈ Spec.Names.reserved := by
      rintro ⟨e, he, c, hcm, hr⟩
      simp only [List.mem_cons, List.not_mem_nil, or_false] at he
      have : escape e.1 = k ++ pyStr "_" := by rcases he with rfl | rfl <;> assumption
      rw [this, h4, List.mem_singleton] at hcm
      exact h5 (hcm ▸ hr)
    have hb := body_plain cls globals [(k, v), (k ++ pyStr "_", w)] [] (by
      intro e he
      simp only [List.mem_cons, List.not_mem_nil, or_false] at he
      rcases he with rfl | rfl
      · dsimp only; rw [h2]; exact ⟨hp.1, hp.2.1⟩
      · dsimp only; rw [h3]; exact ⟨hp.1, hp.2.1⟩)
    refine ⟨_, classDef_ok hs hb, h2.trans h3.symm, ?_⟩
    · rw [h2, lookup_withDicts _ _ hp.2.2.1 hp.2.2.2, lookup_foldl]
      simp only [List.map_cons, List.map_nil, List.reverse_cons, List.reverse_nil, List.nil_append, List.cons_append, List.lookup_cons]
      rw [h3]
      simp

/-- A name that begins with two underscores (and does not end so) is not an attribute of the class: Python changes it in the body of the class, but not
where it is used. -/
theorem private_name (cls : PyStr) (globals : List PyStr) (n : PyStr) (v : Int) (hp : pyStr "__" <+: n) (he : ¬ pyStr "__" <:+ n) (hdot : 46 ∉ n)
    (hcls : cls.dropWhile (· = 95) ≠ []) :
    ∃ attrs, classDef cls globals [(n, v)] = .ok attrs ∧ attrs.lookup (escape n) = none := by
  have hk : n ∉ keywords := by
    have : ∀ k ∈ keywords, ¬ pyStr "__" <+: k := by decide +kernel
    exact fun hk => this n hk hp
  have hr : n ∉ Spec.Names.reserved := by
    have : ∀ k ∈ Spec.Names.reserved, ¬ pyStr "__" <+: k := by decide +kernel
    exact fun hk => this n hk hp
  have hesc : escape n = n := if_neg hk
  have hm : mangle cls n = pyStr "_" ++ cls.dropWhile (· = 95) ++ n := if_pos ⟨hp, he, hcls⟩
  have hs : ¬ ∃ e ∈ [(n, v)], ∃ c ∈ components (escape e.1), c ∈ Spec.Names.reserved := by
    rintro ⟨e, hem, c, hcm, hc⟩
    rw [List.mem_singleton] at hem
    subst hem
    rw [hesc, components_simple hdot, List.mem_singleton] at hcm
    exact hr (hcm ▸ hc)
  have hb : body cls globals [(n, v)] [] = .ok (put (mangle cls n) (.int v) []) := by
    simp only [body, assign, hesc, components_simple hdot]
    rfl
  refine ⟨_, classDef_ok hs hb, ?_⟩
  · have h1 : n ≠ pyStr "_NAMES_TO_VALUES" := by rintro rfl; revert hp; decide +kernel
    have h2 : n ≠ pyStr "_VALUES_TO_NAMES" := by rintro rfl; revert hp; decide +kernel
    rw [hesc, lookup_withDicts _ _ h2 h1, hm, lookup_put, if_neg, List.lookup_nil]
    intro h
    have := congrArg List.length h
    simp [pyStr] at this
    omega

/-- A name with a dot is accepted if a value is given: `enum E { A.B = 1 }`. It is never an attribute of the class. -/
theorem dotted_name (cls : PyStr) (globals : List PyStr) (a b : PyStr) (v : Int) (hv : inInt32 v) (ha : 46 ∉ a) (hr : a ∉ Spec.Names.reserved)
    (hb : ∀ c ∈ components b, c ∉ Spec.Names.reserved) (hg : mangle cls a ∉ globals) :
    declare [⟨a ++ 46 :: b, some v⟩] = some [(a ++ 46 :: b, v)] ∧ classDef cls globals [(a ++ 46 :: b, v)] = .error .nameError := by
  have hcomp : components (a ++ 46 :: b) = a :: components b := by
    clear hr hg
    induction a with
    | nil => rfl
    | cons c a ih =>
      have hc : c ≠ 46 := fun hc => ha (by rw [hc]; exact List.mem_cons_self ..)
      rw [List.cons_append, components, if_neg hc, ih fun hc => ha (List.mem_cons_of_mem _ hc)]
  have hne : components b ≠ [] := by
    cases b with
    | nil => simp [components]
    | cons c b =>
      rw [components]
      split
      · simp
      · split <;> simp
  have hk : a ++ 46 :: b ∉ keywords := by
    have : ∀ k ∈ keywords, 46 ∉ k := by decide +kernel
    exact fun hk => this _ hk (by simp)
  have hesc : escape (a ++ 46 :: b) = a ++ 46 :: b := if_neg hk
  obtain ⟨x, xs, hx⟩ := List.exists_cons_of_ne_nil hne
  constructor
  · simp only [declare, number]
    rw [if_pos hv]
    rfl
  · unfold classDef
    rw [if_neg]
    · simp only [body, assign, hesc, hcomp, hx]
      rw [if_neg (by simp), if_neg hg]
      rfl
    · rintro ⟨e, hem, c, hcm, hc⟩
      rw [List.mem_singleton] at hem
      subst hem
      rw [hesc, hcomp] at hcm
      rcases List.mem_cons.mp hcm with rfl | hcm
      · exact hr hc
      · exact hb c hcm hc

example : declare [⟨pyStr "None", some 1⟩, ⟨pyStr "None_", some 2⟩] = some [(pyStr "None", 1), (pyStr "None_", 2)] ∧
    ∃ attrs, classDef (pyStr "E") [] [(pyStr "None", 1), (pyStr "None_", 2)] = .ok attrs ∧ escape (pyStr "None") = escape (pyStr "None_") ∧
      attrs.lookup (escape (pyStr "None")) = some (.int 2) :=
  reserved_collision (pyStr "E") [] (pyStr "None") (by decide +kernel) 1 2 (by decide +kernel) (by decide +kernel)

example : ∃ attrs, classDef (pyStr "E") [] [(pyStr "__A", 1)] = .ok attrs ∧ attrs.lookup (escape (pyStr "__A")) = none :=
  private_name (pyStr "E") [] (pyStr "__A") 1 (by decide +kernel) (by decide +kernel) (by decide +kernel) (by decide +kernel)

example : declare [⟨pyStr "A.B", some 1⟩] = some [(pyStr "A.B", 1)] ∧ classDef (pyStr "E") [pyStr "TType"] [(pyStr "A.B", 1)] = .error .nameError :=
  dotted_name (pyStr "E") [pyStr "TType"] (pyStr "A") (pyStr "B") 1 (by decide +kernel) (by decide +kernel) (by decide +kernel) (by decide +kernel)
    (by decide +kernel)

end Thrift.Enums
