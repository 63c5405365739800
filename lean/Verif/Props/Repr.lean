import Verif.Proofs.ReprFail
/-
C94: `repr` of a generated instance is a program that makes an equal instance.

`Py` is what is not modelled of Python (the text of floats, the printable characters, names of characters, `==`), `lim` the number of brackets that may be open in a program (200 in CPython), `env` the names
that `eval` knows.
-/

namespace Thrift.Repr
open Rpc Spec.Repr
open Attrs (Cls)

variable {P : Py} {lim : Nat} {env : Env}

/-- Every value has a text, an instance of a generated class too. -/
theorem repr_total (P : Py) {x : V} (hp : Each Proper x) : ∃ s, repr P x = .ok s := ⟨_, repr_ok P x hp⟩

/-- C94. For all values of any size: `eval(repr(x))` is `x`, with dicts for `TFrozenDict`s, if floats are finite, there are no members of enums, keys and elements differ and have a hash as plain dicts, the
classes are in scope and have no members of the wrong names, and not too many brackets are open. What is missing is that all instances are such. -/
theorem eval_repr_partial (hP : Lawful P) {x : V} (hp : Each Proper x) (hg : Each (Good P env) x) (hr : ¬ Has NoExpression x) (hd : depth x ≤ lim) : Reads P lim env x (thaw x) := by
  refine ⟨_, repr_ok P x hp, ?_⟩
  rw [eval_text hP lim env x hp, (readable_iff x lim).2 ⟨hd, hr⟩, if_pos rfl]
  exact value_ok x hp hg

/-- Without `TFrozenDict`s it is `x` itself. -/
theorem eval_repr_same_partial (hP : Lawful P) {x : V} (hp : Each Proper x) (hg : Each (Good P env) x) (hr : ¬ Has NoExpression x) (hd : depth x ≤ lim)
    (hf : ¬ Has (fun y => ∃ kvs, y = .frozenDict kvs) x) : Reads P lim env x x := by
  have h := eval_repr_partial hP hp hg hr hd
  rwa [thaw_id x hf] at h

/-- Two values with the same text are equal, if one can be read: `repr` tells them apart. -/
theorem repr_injective (hP : Lawful P) {x y : V} {s : PyStr} (hx : Each Proper x) (hy : Each Proper y) (gx : Each (Good P env) x) (gy : Each (Good P env) y) (rx : ¬ Has NoExpression x) (ry : ¬ Has NoExpression y)
    (h1 : repr P x = .ok s) (h2 : repr P y = .ok s) : thaw x = thaw y := by
  obtain ⟨t, e1, e2⟩ := eval_repr_partial (lim := max (depth x) (depth y)) hP hx gx rx (Nat.le_max_left _ _)
  obtain ⟨u, f1, f2⟩ := eval_repr_partial (lim := max (depth x) (depth y)) hP hy gy ry (Nat.le_max_right _ _)
  rw [h1] at e1
  rw [h2] at f1
  cases e1
  cases f1
  rw [e2] at f2
  injection f2

/-- The text is no expression at all, and `eval` raises `SyntaxError`, if too many brackets are open, if there is a member of an enum, or an attribute whose name is a reserved word. -/
theorem no_expression (hP : Lawful P) {x : V} (hp : Each Proper x) (h : lim < depth x ∨ Has NoExpression x) : Unreadable P lim env x .syntax := by
  refine ⟨_, repr_ok P x hp, ?_⟩
  rw [eval_text hP lim env x hp, if_neg]
  rw [readable_iff]
  rintro ⟨h1, h2⟩
  rcases h with h | h
  · omega
  · exact h2 h

/-- If `eval` fails for a value in an instance, at whatever depth, it fails for the instance. -/
theorem part_unreadable (hP : Lawful P) {x : V} (hp : Each Proper x) (h : Has (fun y => ∃ e, Unreadable P lim env y e) x) : ∃ e, Unreadable P lim env x e := by
  have key : ∀ x, Each Proper x → Has (fun y => ∃ e, Unreadable P lim env y e) x → Has (fun y => Fails (eval P lim env (text P y))) x := by
    intro x
    induction x using V.ind with
    | h x ih =>
      intro hp h
      rw [has_iff] at h ⊢
      rcases h with ⟨e, s, h1, h2⟩ | ⟨y, hy, h⟩
      · rw [repr_ok P x hp] at h1
        cases h1
        exact .inl ⟨e, h2⟩
      · exact .inr ⟨y, hy, ih y hy (each_part hp hy) h⟩
  obtain ⟨e, he⟩ := eval_part hP lim x hp (key x hp h)
  exact ⟨e, _, repr_ok P x hp, he⟩

/-- Infinities and NaN are written as names, which a program does not know unless it imports them. -/
theorem not_finite (hP : Lawful P) {x : UInt64} (h : 0x7FF0000000000000 ≤ x.toNat % 2 ^ 63) (h1 : env (pyStr "inf") = none) (h2 : env (pyStr "nan") = none) : Unreadable P lim env (.float x) .name := by
  have hp : Each Proper (.float x) := by rw [each_iff]; exact ⟨trivial, fun _ h => nomatch h⟩
  refine ⟨_, repr_ok P _ hp, ?_⟩
  rw [eval_text hP lim env _ hp, if_pos (by simp [readable]), toExpr]
  dsimp only
  split
  · rw [value, h2]
  · rw [if_pos (show x.toNat % 2 ^ 63 = 0x7FF0000000000000 by omega)]
    split
    · rw [value, value, h1]
    · rw [value, h1]

/-- A `TFrozenDict` that is a key of a dict or an element of a set is read as a dict, which has no hash. -/
theorem frozen_inside (hP : Lawful P) {x : V} (hp : Each Proper x)
    (h : (∃ xs m, V.frozenDict m ∈ xs ∧ (x = .set xs ∨ x = .frozenset xs)) ∨ ∃ kvs m v, (V.frozenDict m, v) ∈ kvs ∧ (x = .dict kvs ∨ x = .frozenDict kvs)) : ∃ e, Unreadable P lim env x e := by
  have : Fails (value P env (toExpr x)) := by
    rcases h with ⟨xs, m, hm, rfl | rfl⟩ | ⟨kvs, m, v, hm, rfl | rfl⟩
    · exact (frozen_element hm).1
    · exact (frozen_element hm).2
    · exact (frozen_key hm).1
    · exact (frozen_key hm).2
  obtain ⟨e, he⟩ := (eval_fails hP lim x hp).2 (.inr this)
  exact ⟨e, _, repr_ok P x hp, he⟩

/-- The text has the bare name of the class. If a program does not know it, `eval` fails. -/
theorem class_unknown (hP : Lawful P) {c : Cls} {as : List (PyStr × V)} (hp : Each Proper (.inst c as)) (hc : env c.name = none) : Unreadable P lim env (.inst c as) .name ∨ Unreadable P lim env (.inst c as) .syntax := by
  have h := eval_text hP lim env _ hp
  cases hr : readable lim (.inst c as) with
  | true =>
    rw [hr, if_pos rfl, toExpr, value, hc] at h
    exact .inl ⟨_, repr_ok P _ hp, h⟩
  | false =>
    rw [hr] at h
    exact .inr ⟨_, repr_ok P _ hp, h⟩

/-- If it knows another class by that name, as of another file, it makes an instance of that one. -/
theorem other_class (hP : Lawful P) {c d : Cls} {as : List (PyStr × V)} {y : V} (hp : Each Proper (.inst c as)) (hd : env c.name = some (.cls d)) (h : Reads P lim env (.inst c as) y) : ∃ bs, y = .inst d bs := by
  obtain ⟨s, h1, h2⟩ := h
  rw [repr_ok P _ hp] at h1
  cases h1
  rw [eval_text hP lim env _ hp] at h2
  split at h2
  · obtain ⟨bs, e, _⟩ := value_inst hd h2
    exact ⟨bs, e⟩
  · cases h2

/-- What is made has all the attributes of the class in their order and no others, whatever was deleted from the instance or added to it. -/
theorem complete (hP : Lawful P) {c d : Cls} {as bs : List (PyStr × V)} (hp : Each Proper (.inst c as)) (hd : env c.name = some (.cls d)) (hr : Regular d) (h : Reads P lim env (.inst c as) (.inst d bs)) :
    bs.map (·.1) = d.members.map (key d) := by
  obtain ⟨s, h1, h2⟩ := h
  rw [repr_ok P _ hp] at h1
  cases h1
  rw [eval_text hP lim env _ hp] at h2
  split at h2
  · obtain ⟨bs', e, hk⟩ := value_inst hd h2
    cases e
    exact hk hr
  · cases h2

/-- An attribute that is called like no parameter of the class: `eval` fails. Such are those that a program added, and in immutable classes those whose names the generator or Python changes in the class. -/
theorem no_parameter (hP : Lawful P) {c : Cls} {as : List (PyStr × V)} (hp : Each Proper (.inst c as)) (hc : env c.name = some (.cls c)) {a : PyStr × V} (ha : a ∈ as) (hn : a.1 ∉ c.members.map c.attr) :
    ∃ e, Unreadable P lim env (.inst c as) e := by
  have : Fails (value P env (toExpr (.inst c as))) := by
    rw [fails_iff]
    intro r h
    rw [toExpr, value, hc] at h
    dsimp only at h
    have names : ∀ (as : List (PyStr × V)) (vs : List (Option PyStr × V)), valueArgs P env (toArgs as) = .ok vs → ∀ a ∈ as, ∃ v ∈ vs, v.1 = some a.1 := by
      intro as
      induction as with
      | nil => intro vs _ a ha; cases ha
      | cons x xs ih =>
        intro vs h a ha
        rw [toArgs, valueArgs] at h
        cases hx : value P env (toExpr x.2) with
        | error e => rw [hx] at h; cases h
        | ok v =>
          rw [hx] at h
          dsimp only at h
          cases hv : valueArgs P env (toArgs xs) with
          | error e => rw [hv] at h; cases h
          | ok ws =>
            rw [hv] at h
            cases h
            rcases List.mem_cons.1 ha with rfl | ha
            · exact ⟨_, List.mem_cons_self, rfl⟩
            · obtain ⟨w, hw, e⟩ := ih ws hv a ha
              exact ⟨w, List.mem_cons_of_mem _ hw, e⟩
    have kws : ∀ (vs : List (Option PyStr × V)) (kw : List (PyStr × Option V)), kwOnly vs = .ok kw → ∀ v ∈ vs, ∃ k ∈ kw, v.1 = some k.1 := by
      intro vs
      induction vs with
      | nil => intro kw _ v hv; cases hv
      | cons x xs ih =>
        intro kw h v hv
        obtain ⟨n, x⟩ := x
        cases n with
        | none => cases h
        | some n =>
          rw [kwOnly] at h
          cases hk : kwOnly xs with
          | error e => rw [hk] at h; cases h
          | ok ks =>
            rw [hk] at h
            cases h
            rcases List.mem_cons.1 hv with rfl | hv
            · exact ⟨_, List.mem_cons_self, rfl⟩
            · obtain ⟨k, hk', e⟩ := ih ks hk v hv
              exact ⟨k, List.mem_cons_of_mem _ hk', e⟩
    cases hv : valueArgs P env (toArgs as) with
    | error e => rw [hv] at h; cases h
    | ok vs =>
      rw [hv] at h
      dsimp only at h
      unfold apply at h
      dsimp only at h
      cases hk : kwOnly vs with
      | error e => rw [hk] at h; cases h
      | ok kw =>
        rw [hk] at h
        dsimp only at h
        obtain ⟨v, hvm, hve⟩ := names as vs hv a ha
        obtain ⟨k, hkm, hke⟩ := kws vs kw hk v hvm
        rw [hve] at hke
        injection hke with hke
        cases ho : Attrs.construct c kw with
        | error e => rw [ho] at h; cases h
        | ok o =>
          unfold Attrs.construct at ho
          cases hcr : Attrs.create c with
          | error e => rw [hcr] at ho; cases ho
          | ok u =>
            rw [hcr] at ho
            change (if _ then _ else _) = _ at ho
            rw [if_neg] at ho
            · cases ho
            · intro hall
              have := hall k hkm
              rw [← hke] at this
              exact hn this
  obtain ⟨e, he⟩ := (eval_fails hP lim _ hp).2 (.inr this)
  exact ⟨e, _, repr_ok P _ hp, he⟩

/-- With slots, `repr` itself raises `AttributeError` if an attribute is missing that `__slots__` names: one that was deleted, or one with a name like `__x`, which Python changes in the class. -/
theorem slots_missing {c : Cls} {as : List (PyStr × V)} (hs : c.slots = true) {m : PyStr} (hm : m ∈ c.members) (ha : ∀ a ∈ as, a.1 ≠ m) : repr P (.inst c as) = .error .attribute :=
  repr_slots hs hm ha

/-! ### Cases -/

/-- A Python whose floats are written as their bits -/
def bits : Py where
  show_ x := dec x.toNat ++ [46, 48]
  read s := some (UInt64.ofNat (decVal (s.take (s.length - 2))))
  printable _ := false
  names _ := none
  eq
    | .int a, .int b => a == b
    | .str a, .str b => a == b
    | _, _ => false

theorem bits_lawful : Lawful bits where
  float x _ := by
    refine ⟨⟨dec x.toNat, [46, 48], [], ⟨dec_ne _, fun c hc => ?_⟩, .inr ⟨[48], rfl, by simp, by simp⟩, .inl rfl, by simp, by simp [bits]⟩, ?_⟩
    · have := dec_digits _ c hc
      simpa [isDigit] using this
    · simp [bits, decVal_dec]
  printable _ h := nomatch h

/-- `struct Point { 1: i32 x, 2: string from, 3: map<string, set<i32>> m, 4: double d, 5: Point next }` -/
def point : Cls := ⟨pyStr "Point", false, false, false, ["x", "from", "m", "d", "next"].map pyStr⟩

def pointAttrs (x : Int) (f : PyStr) (m d n : V) : List (PyStr × V) := [(pyStr "x", .int x), (pyStr "from_", .str f), (pyStr "m", m), (pyStr "d", d), (pyStr "next", n)]

/-- A point with another point in it, a quote in a text, an empty set and a negative float -/
def two : V :=
  .inst point (pointAttrs (-12) (pyStr "it's\n") (.dict [(.str (pyStr "a"), .set [.int 1, .int 20]), (.str [228, 0xD800], .set [])]) (.float 0x8000000000000005)
    (.inst point (pointAttrs 0 [] .none .none .none)))

def scope : Env := fun n => if n = pyStr "Point" then some (.cls point) else if n = pyStr "set" then some .set else none

theorem point_regular : Regular point := ⟨by decide +kernel, by decide +kernel, fun h => by simp [point] at h⟩

theorem two_proper : Each Proper two := by
  simp only [two, pointAttrs, Each, Has, HasAny, HasPair, HasAttr, not_or, Classical.not_not, Proper, and_true, true_and, not_false_eq_true]
  refine ⟨⟨⟨⟨_, _, rfl, by decide⟩, by decide +kernel⟩, ?_, by simp [point]⟩, by decide, ⟨by decide, by decide⟩, ⟨⟨⟨_, _, rfl, by decide⟩, by decide +kernel⟩, ?_, by simp [point]⟩, by decide⟩
  all_goals
    intro a ha
    simp only [List.mem_cons, List.not_mem_nil, or_false] at ha
    rcases ha with rfl | rfl | rfl | rfl | rfl <;> exact ⟨_, _, rfl, by decide⟩

theorem two_good : Each (Good bits scope) two := by
  simp only [two, pointAttrs, Each, Has, HasAny, HasPair, HasAttr, not_or, Classical.not_not, Good, and_true, true_and, not_false_eq_true]
  refine ⟨⟨by decide +kernel, point_regular, by decide +kernel⟩, ⟨?_, ⟨by decide, ?_⟩, ?_⟩, by decide +kernel, by decide +kernel, point_regular, by decide +kernel⟩
  · exact ⟨by decide, by decide⟩
  · exact ⟨by decide, by decide⟩
  · exact ⟨fun _ => by decide +kernel, ⟨by decide, by decide⟩⟩

theorem two_expression : ¬ Has NoExpression two := by
  simp only [two, pointAttrs, Has, HasAny, HasPair, HasAttr, NoExpression, or_false, false_or]
  rintro (⟨a, ha, h⟩ | ⟨a, ha, h⟩)
  all_goals
    simp only [List.mem_cons, List.not_mem_nil, or_false] at ha
    rcases ha with rfl | rfl | rfl | rfl | rfl <;> exact absurd h (by decide +kernel)

example : Reads bits 200 scope two two :=
  eval_repr_same_partial bits_lawful two_proper two_good two_expression (by decide) (by simp [two, pointAttrs, Has, HasAny, HasPair, HasAttr])

example : repr bits two = .ok (pyStr "Point(x=-12, from_=\"it's\\n\", m={'a': {1, 20}, '\\xe4\\ud800': set()}, d=-5.0, next=Point(x=0, from_='', m=None, d=None, next=None))") := by
  decide +kernel

/-- With 2 brackets only, the text is no program. -/
example : Unreadable bits 2 scope two .syntax := no_expression bits_lawful two_proper (.inl (by decide))

/-- `struct Limits { 1: double max = … }` with an infinity -/
def limits : Cls := ⟨pyStr "Limits", false, false, false, [pyStr "max"]⟩

example : ∃ e, Unreadable bits 200 (fun n => if n = pyStr "Limits" then some (.cls limits) else none) (.inst limits [(pyStr "max", .float 0x7FF0000000000000)]) e := by
  refine part_unreadable bits_lawful ?_ ?_
  · simp only [Each, Has, HasAttr, not_or, Classical.not_not, Proper, and_true, not_false_eq_true]
    exact ⟨⟨⟨_, _, rfl, by decide⟩, by decide +kernel⟩, fun a ha => by rw [List.mem_singleton.1 ha]; exact ⟨_, _, rfl, by decide⟩, by simp [limits]⟩
  · exact .inr (.inl ⟨_, not_finite bits_lawful (by decide +kernel) (by decide +kernel) (by decide +kernel)⟩)

/-- A member of an enum, with the option `enum` -/
example : Unreadable bits 200 scope (.inst point (pointAttrs 1 [] .none (.enum (pyStr "Color") (pyStr "RED") 1) .none)) .syntax := by
  refine no_expression bits_lawful ?_ (.inr ?_)
  · simp only [pointAttrs, Each, Has, HasAttr, not_or, Classical.not_not, Proper, and_true, true_and, not_false_eq_true]
    refine ⟨⟨⟨⟨_, _, rfl, by decide⟩, by decide +kernel⟩, ?_, by simp [point]⟩, by decide, ⟨_, _, rfl, by decide⟩, ⟨_, _, rfl, by decide⟩⟩
    intro a ha
    simp only [List.mem_cons, List.not_mem_nil, or_false] at ha
    rcases ha with rfl | rfl | rfl | rfl | rfl <;> exact ⟨_, _, rfl, by decide⟩
  · simp [pointAttrs, Has, HasAttr, NoExpression]

/-- An immutable class with a member `from`: its attribute is `from`, its parameter `from_`. -/
def frozen : Cls := ⟨pyStr "Frozen", true, false, false, ["from", "__x"].map pyStr⟩

theorem frozen_proper (m : PyStr) (hm : Name m) (v : Int) : Each Proper (.inst frozen [(m, .int v)]) := by
  simp only [Each, Has, HasAttr, not_or, Classical.not_not, Proper, and_true, not_false_eq_true]
  exact ⟨⟨⟨_, _, rfl, by decide⟩, by decide +kernel⟩, fun a ha => by rw [List.mem_singleton.1 ha]; exact hm, by simp [frozen]⟩

/-- `Attrs.construct` makes an instance of it with these attributes. -/
example : (Attrs.construct frozen [(pyStr "from_", some (5 : Int)), (pyStr "_Frozen__x", some 6)]).map (·.attrs) = .ok [(pyStr "__x", some 6), (pyStr "from", some 5)] := by decide +kernel

example : Unreadable bits 200 scope (.inst frozen [(pyStr "from", .int 5)]) .syntax := by
  refine no_expression bits_lawful (frozen_proper _ ⟨_, _, rfl, by decide⟩ 5) (.inr (.inl ⟨_, List.mem_singleton.2 rfl, by decide +kernel⟩))

/-- With `__x` the parameter is `_Frozen__x`. -/
example : ∃ e, Unreadable bits 200 (fun _ => some (.cls frozen)) (.inst frozen [(pyStr "__x", .int 5)]) e :=
  no_parameter bits_lawful (frozen_proper _ ⟨_, _, rfl, by decide⟩ 5) rfl (List.mem_singleton.2 rfl) (by decide +kernel)

/-- With slots, `repr` looks for `__x`, but the instance has `_Hidden__x`. -/
def hidden : Cls := ⟨pyStr "Hidden", false, true, false, [pyStr "__x"]⟩

example : (Attrs.construct hidden [(pyStr "_Hidden__x", some (5 : Int))]).map (·.attrs) = .ok [(pyStr "_Hidden__x", some 5)] := by decide +kernel

example : repr bits (.inst hidden [(pyStr "_Hidden__x", .int 5)]) = .error .attribute :=
  slots_missing rfl (List.mem_singleton.2 rfl) fun a ha => by rw [List.mem_singleton.1 ha]; decide +kernel

/-- A map as the key of a map: `TFrozenDict` -/
example : ∃ e, Unreadable bits 200 scope (.dict [(.frozenDict [(.int 1, .int 2)], .int 3)]) e :=
  frozen_inside bits_lawful (by simp [Each, Has, HasPair, Proper]) (.inr ⟨_, _, _, List.mem_singleton.2 rfl, .inl rfl⟩)

/-- A class of an included file is not in scope by its bare name. -/
example : Unreadable bits 200 scope (.inst limits [(pyStr "max", .none)]) .name ∨ Unreadable bits 200 scope (.inst limits [(pyStr "max", .none)]) .syntax := by
  refine class_unknown bits_lawful ?_ (by decide +kernel)
  simp only [Each, Has, HasAttr, not_or, Classical.not_not, Proper, and_true, not_false_eq_true]
  exact ⟨⟨⟨_, _, rfl, by decide⟩, by decide +kernel⟩, fun a ha => by rw [List.mem_singleton.1 ha]; exact ⟨_, _, rfl, by decide⟩, by simp [limits]⟩

end Thrift.Repr
