import Verif.Model.Consts
import Verif.Spec.Consts
/-
C80: constants have the value the IDL gives them, also when they refer to other constants.
-/

namespace Thrift.Consts
open Spec Spec.Consts

/-- The scope of the compiler holds the constants with their meanings. -/
structure Agrees (S : Schema) (sc : Scope) (ρ : Env) : Prop where
  free : ∀ x, ρ x = none → sc x = none
  const : ∀ x t v, ρ x = some (t, v) → ∃ cv, sc x = some ⟨t, cv⟩ ∧ validate S t cv = true ∧ eval S t cv = some v

theorem dropWhile_name {a : Name} (h : 46 ∉ a) (r : Name) : (a ++ 46 :: r).dropWhile (· ≠ 46) = 46 :: r := by
  induction a with
  | nil => simp
  | cons c a ih =>
    simp only [List.mem_cons, not_or] at h
    rw [List.cons_append, List.dropWhile_cons_of_pos (by simpa using Ne.symm h.1), ih h.2]

theorem dropWhile_all {a : Name} (h : 46 ∉ a) : a.dropWhile (· ≠ 46) = [] := by
  induction a with
  | nil => rfl
  | cons c a ih =>
    simp only [List.mem_cons, not_or] at h
    rw [List.dropWhile_cons_of_pos (by simpa using Ne.symm h.1), ih h.2]

theorem identifierName_qualified {e a x : Name} (h : Qualified e a x) : identifierName x = some a := by
  obtain ⟨he, ha, rfl | ⟨f, hf, rfl⟩⟩ := h
  · unfold identifierName
    rw [dropWhile_name he]
    dsimp only
    rw [dropWhile_all ha]
  · unfold identifierName
    rw [dropWhile_name hf]
    dsimp only
    rw [dropWhile_name he]

theorem afterLastDot_name {a : Name} (h : 46 ∉ a) (p : Name) : afterLastDot (p ++ 46 :: a) = a := by
  unfold afterLastDot
  rw [List.reverse_append, List.reverse_cons, List.append_assoc, List.singleton_append]
  have : (a.reverse ++ 46 :: p.reverse).takeWhile (· ≠ 46) = a.reverse := by
    rw [List.takeWhile_append_of_pos]
    · simp [List.takeWhile]
    · intro c hc
      have : c ≠ 46 := by rintro rfl; exact h (List.mem_reverse.1 hc)
      simpa using this
  rw [this, List.reverse_reverse]

theorem afterLastDot_qualified {e a x : Name} (h : Qualified e a x) : afterLastDot x = a := by
  obtain ⟨he, ha, rfl | ⟨f, hf, rfl⟩⟩ := h
  · exact afterLastDot_name ha e
  · rw [show f ++ 46 :: (e ++ 46 :: a) = (f ++ 46 :: e) ++ 46 :: a by simp]
    exact afterLastDot_name ha _

theorem lookup_mem {β : Type} {l : List (Name × β)} (h : (l.map (·.1)).Nodup) {n : Name} {b : β} (hm : (n, b) ∈ l) : l.lookup n = some b := by
  induction l with
  | nil => cases hm
  | cons p l ih =>
    rw [List.map_cons, List.nodup_cons] at h
    rw [List.mem_cons] at hm
    obtain ⟨m, c⟩ := p
    rcases hm with hm | hm
    · cases hm
      simp [List.lookup]
    · have hne : n ≠ m := by
        rintro rfl
        exact h.1 (List.mem_map.2 ⟨(n, b), hm, rfl⟩)
      rw [List.lookup_cons]
      have : (n == m) = false := by simpa using hne
      rw [this]
      exact ih h.2 hm

theorem byValue_mem {l : List (Name × Int)} {a : Name} {i : Int} (h : (a, i) ∈ l) : ∃ n, byValue l i = some n ∧ (n, i) ∈ l := by
  unfold byValue
  cases e : l.find? fun p => p.2 = i with
  | none =>
    rw [List.find?_eq_none] at e
    exact absurd (e (a, i) h) (by simp)
  | some p =>
    have h1 := List.find?_some e
    have h2 := List.mem_of_find?_eq_some e
    obtain ⟨n, j⟩ := p
    simp only [decide_eq_true_eq] at h1
    subst h1
    exact ⟨n, rfl, h2⟩

theorem uuidForm_uuid {s : Bytes} (h : Uuid s) : uuidForm s = true := by
  obtain ⟨h1, h2⟩ := h
  unfold uuidForm
  rw [Bool.and_eq_true]
  refine ⟨by simp [h1], ?_⟩
  rw [List.all_eq_true]
  rintro ⟨c, i⟩ hp
  have hm := List.mk_mem_zipIdx_iff_getElem?.1 hp
  have := h2 i c hm
  dsimp only
  by_cases hi : i = 8 ∨ i = 13 ∨ i = 18 ∨ i = 23
  · rw [if_pos hi] at this
    rw [if_pos (by simpa using hi)]
    simpa using this
  · rw [if_neg hi] at this
    rw [if_neg (by simpa using hi)]
    simp only [Bool.or_eq_true, Bool.and_eq_true, decide_eq_true_eq]
    rcases this with h | h | h
    · exact .inl (.inl h)
    · exact .inl (.inr h)
    · exact .inr h

theorem validateUuid_plain {s : Bytes} (h : Uuid s) : validateUuid s = some s := by
  have hs : stripBraces s = s := by
    unfold stripBraces
    rw [if_neg (fun hc => by have := hc.1; have := h.1; omega)]
  rw [validateUuid, hs, if_pos (uuidForm_uuid h)]

theorem validateUuid_braces {s : Bytes} (h : Uuid s) : validateUuid (123 :: s ++ [125]) = some s := by
  have hs : stripBraces (123 :: s ++ [125]) = s := by
    unfold stripBraces
    rw [if_pos]
    · rw [List.cons_append, List.drop_succ_cons, List.drop_zero, List.take_left' h.1]
    · refine ⟨by simp [h.1], rfl, ?_⟩
      rw [List.cons_append, List.getElem?_cons_succ, List.getElem?_append_right (by rw [h.1]; decide), h.1]
      rfl
  rw [validateUuid, hs, if_pos (uuidForm_uuid h)]

/-- What becomes of the constants that are allowed -/
theorem resolved {S : Schema} (hS : Distinct S) {sc : Scope} {ρ : Env} (hA : Agrees S sc ρ) {t : Ty} {cv : CV} {v : Val} (h : Means S ρ (Simple ρ) t cv v) :
    ∃ cv', resolve S sc t cv = some cv' ∧ validate S t cv' = true ∧ eval S t cv' = some v := by
  refine Means.rec (S := S) (ρ := ρ) (allow := Simple ρ)
    (motive_1 := fun t cv v _ => ∃ cv', resolve S sc t cv = some cv' ∧ validate S t cv' = true ∧ eval S t cv' = some v)
    (motive_2 := fun e xs vs _ => ∃ ys, resolveAll S sc e xs = some ys ∧ validateAll S e ys = true ∧ evalAll S e ys = some vs)
    (motive_3 := fun k v ps qs _ => ∃ ys, resolvePairs S sc k v ps = some ys ∧ validatePairs S k v ys = true ∧ evalPairs S k v ys = some qs)
    (motive_4 := fun fs ps qs _ => (fs.map (·.1)).Nodup → ∃ ys, resolveFields S sc fs ps = some ys ∧ validateFields S fs ys = true ∧ evalFields S fs ys = some qs)
    ?_ ?_ ?_ ?_ ?_ ?_ ?_ ?_ ?_ ?_ ?_ ?_ ?_ ?_ ?_ ?_ ?_ ?_ ?_ ?_ ?_ ?_ ?_ ?_ h
  -- false, true
  · exact ⟨.int 0, rfl, rfl, rfl⟩
  · exact ⟨.int 1, rfl, rfl, rfl⟩
  -- int, double, whole, string, binary
  · intro n i
    exact ⟨.int i, by simp only [resolve, resolveBase], by simp only [validate], by simp only [eval, CV.getInteger, Option.map_some]⟩
  · intro d
    exact ⟨.dbl d, by simp only [resolve, resolveBase], by simp only [validate], by simp only [eval, CV.getDouble]⟩
  · intro i
    exact ⟨.int i, by simp only [resolve, resolveBase], by simp only [validate], by simp only [eval]⟩
  · intro s
    exact ⟨.str s, by simp only [resolve, resolveBase], by simp only [validate], by simp only [eval, CV.getString]⟩
  · intro s
    exact ⟨.str s, by simp only [resolve, resolveBase], by simp only [validate], by simp only [eval, CV.getString]⟩
  -- named
  · intro e a x i hq hm
    refine ⟨.ident x (some e), by simp only [resolve, resolveBase], ?_, ?_⟩
    · simp only [validate, identifierName_qualified hq]
      rw [List.any_eq_true]
      exact ⟨(a, i), hm, by simp⟩
    · simp only [eval, CV.getInteger, afterLastDot_qualified hq, byName, lookup_mem (hS.enums e) hm, Option.map_some]
  -- uuid, braces
  · intro s hs
    refine ⟨.str s, by simp only [resolve, resolveBase], ?_, ?_⟩
    · simp only [validate, validateUuid_plain hs, Option.isSome_some]
    · simp only [eval, CV.getString, validateUuid_plain hs, Option.map_some]
  · intro s hs
    refine ⟨.str (123 :: s ++ [125]), by simp only [resolve, resolveBase], ?_, ?_⟩
    · simp only [validate, validateUuid_braces hs, Option.isSome_some]
    · simp only [eval, CV.getString, validateUuid_braces hs, Option.map_some]
  -- numbered
  · intro e a i hm he
    obtain ⟨n, h1, h2⟩ := byValue_mem hm
    have hq : Qualified e n (e ++ 46 :: n) := ⟨he, hS.plain e (n, i) h2, .inl rfl⟩
    refine ⟨.ident (e ++ 46 :: n) (some e), ?_, ?_, ?_⟩
    · simp only [resolve, resolveBase, CV.getInteger, Option.bind_some, h1]
    · simp only [validate, identifierName_qualified hq]
      rw [List.any_eq_true]
      exact ⟨(n, i), h2, by simp⟩
    · simp only [eval, CV.getInteger, afterLastDot_qualified hq, byName, lookup_mem (hS.enums e) h2, Option.map_some]
  -- ref
  · intro x t v hx ha _
    obtain ⟨cv, h1, h2, h3⟩ := hA.const x t v hx
    rcases ha with rfl | ⟨n, rfl⟩ | rfl | rfl | rfl | ⟨rfl, d, hd⟩
    · cases cv <;> simp only [validate, Bool.false_eq_true] at h2
      rename_i i
      exact ⟨.int i, by simp only [resolve, resolveBase, resolveIdent, h1, CV.getInteger, Option.map_some], by simp only [validate], h3⟩
    · cases cv <;> simp only [validate, Bool.false_eq_true] at h2
      rename_i i
      exact ⟨.int i, by simp only [resolve, resolveBase, resolveIdent, h1, CV.getInteger, Option.map_some], by simp only [validate], h3⟩
    · cases cv <;> simp only [validate, Bool.false_eq_true] at h2
      rename_i s
      exact ⟨.str s, by simp only [resolve, resolveBase, resolveIdent, h1, CV.getString], by simp only [validate], h3⟩
    · cases cv <;> simp only [validate, Bool.false_eq_true] at h2
      rename_i s
      exact ⟨.str s, by simp only [resolve, resolveBase, resolveIdent, h1, CV.getString], by simp only [validate], h3⟩
    · cases cv <;> simp only [validate, Bool.false_eq_true] at h2
      rename_i s
      exact ⟨.str s, by simp only [resolve, resolveBase, resolveIdent, h1, CV.getString], by simp only [validate, h2], h3⟩
    · rw [hd] at hx
      cases hx
      cases cv <;> simp only [validate, Bool.false_eq_true] at h2
      · simp only [eval] at h3
        cases h3
      · rename_i b
        exact ⟨.dbl b, by simp only [resolve, resolveBase, resolveIdent, h1, CV.getDouble], by simp only [validate], h3⟩
  -- widen, toDouble
  · intro x m n i hx
    obtain ⟨cv, h1, h2, h3⟩ := hA.const x _ _ hx
    cases cv <;> simp only [validate, Bool.false_eq_true] at h2
    rename_i j
    simp only [eval, CV.getInteger, Option.map_some, Option.some.injEq, Val.int.injEq] at h3
    subst h3
    exact ⟨.int j, by simp only [resolve, resolveBase, resolveIdent, h1, CV.getInteger, Option.map_some], by simp only [validate],
      by simp only [eval, CV.getInteger, Option.map_some]⟩
  · intro x m i hx
    obtain ⟨cv, h1, h2, h3⟩ := hA.const x _ _ hx
    cases cv <;> simp only [validate, Bool.false_eq_true] at h2
    rename_i j
    simp only [eval, CV.getInteger, Option.map_some, Option.some.injEq, Val.int.injEq] at h3
    subst h3
    exact ⟨.int j, by simp only [resolve, resolveBase, resolveIdent, h1, CV.getInteger, Option.map_some], by simp only [validate],
      by simp only [eval]⟩
  -- list, set, map, struct
  · rintro e xs vs _ ⟨ys, h1, h2, h3⟩
    exact ⟨.list ys, by simp only [resolve, h1, Option.map_some], by simp only [validate, h2], by simp only [eval, h3, Option.map_some]⟩
  · rintro e xs vs _ ⟨ys, h1, h2, h3⟩
    exact ⟨.list ys, by simp only [resolve, h1, Option.map_some], by simp only [validate, h2], by simp only [eval, h3, Option.map_some]⟩
  · rintro k v ps qs _ ⟨ys, h1, h2, h3⟩
    exact ⟨.map ys, by simp only [resolve, h1, Option.map_some], by simp only [validate, h2], by simp only [eval, h3, Option.map_some]⟩
  · intro n ps qs _ ih
    obtain ⟨ys, h1, h2, h3⟩ := ih (hS.structs n)
    exact ⟨.map ys, by simp only [resolve, h1, Option.map_some], by simp only [validate, h2], by simp only [eval, h3, Option.map_some]⟩
  · intro e
    exact ⟨[], by simp only [resolveAll], by simp only [validateAll], by simp only [evalAll]⟩
  · rintro e x v xs vs _ _ ⟨y, h1, h2, h3⟩ ⟨ys, h4, h5, h6⟩
    refine ⟨y :: ys, ?_, ?_, ?_⟩
    · rw [resolveAll, h1, h4]; rfl
    · rw [validateAll, h2, h5]; rfl
    · rw [evalAll, h3, h6]; rfl
  · intro k v
    exact ⟨[], by simp only [resolvePairs], by simp only [validatePairs], by simp only [evalPairs]⟩
  · rintro k v x y a b ps qs _ _ _ ⟨x', h1, h2, h3⟩ ⟨y', h4, h5, h6⟩ ⟨ps', h7, h8, h9⟩
    refine ⟨(x', y') :: ps', ?_, ?_, ?_⟩
    · rw [resolvePairs, h1, h4, h7]; rfl
    · rw [validatePairs, h2, h5, h8]; rfl
    · rw [evalPairs, h3, h6, h9]; rfl
  · intro fs _
    exact ⟨[], by simp only [resolveFields], by simp only [validateFields], by simp only [evalFields]⟩
  · rintro fs t s y b ps qs hm _ _ ⟨y', h4, h5, h6⟩ ih hn
    obtain ⟨ps', h7, h8, h9⟩ := ih hn
    have hl := lookup_mem hn hm
    refine ⟨(.str s, y') :: ps', ?_, ?_, ?_⟩
    · rw [resolveFields]
      show (fs.lookup (s.map UInt8.toNat) >>= _) = _
      rw [hl]
      show (resolve S sc t y >>= _) = _
      rw [h4]
      show (resolveFields S sc fs ps >>= _) = _
      rw [h7]
      rfl
    · rw [validateFields, hl]
      dsimp only
      rw [h5, h8]
      rfl
    · rw [evalFields]
      show (fs.lookup (s.map UInt8.toNat) >>= _) = _
      rw [hl]
      show (eval S t y' >>= _) = _
      rw [h6]
      show (evalFields S fs ps' >>= _) = _
      rw [h9]
      rfl

/-- All declarations of a file are accepted, and all constants have in Python the values they have in the IDL. Not proved, because it is false, for references to constants of
container and struct types and to constants of type `double` that are written as integers. -/
theorem program_partial {S : Schema} (hS : Distinct S) {ds : List Decl} {sc : Scope} {ρ : Env} (hA : Agrees S sc ρ) {out : List (Name × Ty × Val)} (h : Program S Simple ρ ds out) :
    ∃ cs, program S sc ds = some cs ∧ cs.map (fun c => (c.1, c.2.ty, eval S c.2.ty c.2.cv)) = out.map fun o => (o.1, o.2.1, some o.2.2) := by
  induction h generalizing sc with
  | nil => exact ⟨[], rfl, rfl⟩
  | @cons ρ d v ds out hf hm _ ih =>
    obtain ⟨cv, h1, h2, h3⟩ := resolved hS hA hm
    have hd : declare S sc d = some ⟨d.ty, cv⟩ := by
      unfold declare
      rw [hA.free _ hf]
      dsimp only
      rw [h1]
      dsimp only
      rw [if_pos h2]
    have hA' : Agrees S (fun x => if x = d.name then some ⟨d.ty, cv⟩ else sc x) (fun x => if x = d.name then some (d.ty, v) else ρ x) := by
      constructor
      · intro x hx
        split at hx
        · cases hx
        · rename_i hne
          rw [if_neg hne]
          exact hA.free x hx
      · intro x t w hx
        split at hx
        · rename_i he
          cases hx
          exact ⟨cv, by rw [if_pos he], h2, h3⟩
        · rename_i hne
          rw [if_neg hne]
          exact hA.const x t w hx
    obtain ⟨cs, h4, h5⟩ := ih hA'
    refine ⟨(d.name, ⟨d.ty, cv⟩) :: cs, ?_, ?_⟩
    · show (declare S sc d >>= _) = _
      rw [hd]
      show (program S _ ds >>= _) = _
      rw [h4]
      rfl
    · simp only [List.map_cons, h3, h5]

/-- `enum E { A = 1, B = 1, C = 5 }` and `struct S { 1: i32 x, 2: E e }` -/
def sampleSchema : Schema where
  enums e := if e = [69] then [([65], 1), ([66], 1), ([67], 5)] else []
  structs n := if n = [83] then [([120], .int 32), ([101], .enum [69])] else []

theorem sample_distinct : Distinct sampleSchema := by
  refine ⟨fun e => ?_, fun e => ?_, fun n => ?_⟩
  all_goals dsimp only [sampleSchema]
  all_goals split
  all_goals decide

theorem agrees_empty (S : Schema) : Agrees S (fun _ => none) (fun _ => none) := ⟨fun _ _ => rfl, fun _ _ _ h => nomatch h⟩

-- `const i8 a = 3; const list<i32> l = [a, 4]; const S s = {"x": a, "e": f.E.C}; const double d = a`
example : ∃ cs, program sampleSchema (fun _ => none)
      [⟨[97], .int 8, .int 3⟩, ⟨[108], .list (.int 32), .list [.ident [97] none, .int 4]⟩,
        ⟨[115], .struct [83], .map [(.str [120], .ident [97] none), (.str [101], .ident [102, 46, 69, 46, 67] none)]⟩, ⟨[100], .double, .ident [97] none⟩] = some cs ∧
    cs.map (fun c => (c.1, c.2.ty, eval sampleSchema c.2.ty c.2.cv)) =
      [([97], .int 8, some (.int 3)), ([108], .list (.int 32), some (.list [.int 3, .int 4])),
        ([115], .struct [83], some (.struct [83] [([120], .int 3), ([101], .int 5)])), ([100], .double, some (.floatOf 3))] := by
  refine program_partial sample_distinct (agrees_empty _) (out := [([97], .int 8, .int 3), ([108], .list (.int 32), .list [.int 3, .int 4]),
        ([115], .struct [83], .struct [83] [([120], .int 3), ([101], .int 5)]), ([100], .double, .floatOf 3)]) ?_
  refine .cons rfl (.int ..) (.cons rfl (.list (.cons (.widen (m := 8) rfl) (.cons (.int ..) (.nil _)))) (.cons rfl (.struct ?_) (.cons rfl (.toDouble (m := 8) rfl) (.nil _))))
  refine .cons (t := .int 32) (by decide) (.widen (m := 8) rfl) (.cons (t := .enum [69]) (by decide) (.named (a := [67]) ⟨by decide, by decide, .inr ⟨[102], by decide, rfl⟩⟩ (by decide)) (.nil _))

/-! ### What goes wrong -/

/-- The same without the restriction on references does not hold: `const list<i32> l = [4]; const list<i32> m = l`. -/
theorem references_fail : ∃ (S : Schema) (ds : List Decl) (out : List (Name × Ty × Val)), Distinct S ∧ Program S (fun _ _ _ => True) (fun _ => none) ds out ∧
    ∃ cs, program S (fun _ => none) ds = some cs ∧ cs.map (fun c => (c.1, c.2.ty, eval S c.2.ty c.2.cv)) ≠ out.map fun o => (o.1, o.2.1, some o.2.2) := by
  refine ⟨sampleSchema, [⟨[108], .list (.int 32), .list [.int 4]⟩, ⟨[109], .list (.int 32), .ident [108] none⟩],
    [([108], .list (.int 32), .list [.int 4]), ([109], .list (.int 32), .list [.int 4])], sample_distinct, ?_,
    [([108], ⟨.list (.int 32), .list [.int 4]⟩), ([109], ⟨.list (.int 32), .ident [108] none⟩)], ?_, ?_⟩
  · exact .cons rfl (.list (.cons (.int ..) (.nil _))) (.cons rfl (.ref rfl trivial (fun _ => nofun)) (.nil _))
  · simp [program, declare, resolve, resolveAll, resolveBase, validate, validateAll]
  · simp [eval, evalAll, CV.getInteger]

/-- A constant of a container type that refers to another constant, or to nothing at all, is accepted, and is empty. -/
theorem container_ref {S : Schema} {sc : Scope} (y x : Name) (hy : sc y = none) (e k v : Ty) :
    (∃ c, declare S sc ⟨y, .list e, .ident x none⟩ = some c ∧ eval S (.list e) c.cv = some (.list [])) ∧
    (∃ c, declare S sc ⟨y, .set e, .ident x none⟩ = some c ∧ eval S (.set e) c.cv = some (.set [])) ∧
    (∃ c, declare S sc ⟨y, .map k v, .ident x none⟩ = some c ∧ eval S (.map k v) c.cv = some (.map [])) := by
  refine ⟨⟨⟨.list e, .ident x none⟩, ?_, ?_⟩, ⟨⟨.set e, .ident x none⟩, ?_, ?_⟩, ⟨⟨.map k v, .ident x none⟩, ?_, ?_⟩⟩
  all_goals simp only [declare, hy, resolve, validate, eval, if_true]

/-- A literal that is not a list at all is accepted as an empty list. -/
theorem container_kind {S : Schema} {sc : Scope} (y : Name) (hy : sc y = none) (e : Ty) (cv : CV) (h : ∀ xs, cv ≠ .list xs) :
    ∃ c, declare S sc ⟨y, .list e, cv⟩ = some c ∧ eval S (.list e) c.cv = some (.list []) := by
  refine ⟨⟨.list e, cv⟩, ?_, ?_⟩
  · cases cv with
    | list xs => exact absurd rfl (h xs)
    | _ => simp only [declare, hy, resolve, validate, if_true]
  · cases cv with
    | list xs => exact absurd rfl (h xs)
    | _ => simp only [eval]

/-- A reference to a constant of a struct type is rejected. -/
theorem struct_ref {S : Schema} {sc : Scope} (y x n : Name) : declare S sc ⟨y, .struct n, .ident x none⟩ = none := by
  cases hy : sc y <;> simp [declare, hy, resolve, validate]

/-- A constant of type `double` that refers to another that is written as an integer is zero. -/
theorem double_ref {S : Schema} {sc : Scope} (y x : Name) (hy : sc y = none) (i : Int) (hx : sc x = some ⟨.double, .int i⟩) :
    ∃ c, declare S sc ⟨y, .double, .ident x none⟩ = some c ∧ eval S .double c.cv = some (.float 0) :=
  ⟨⟨.double, .dbl 0⟩, by simp only [declare, hy, resolve, resolveBase, resolveIdent, hx, CV.getDouble, validate, if_true], by simp only [eval, CV.getDouble]⟩

/-- Integers are not compared with the range of their type. -/
theorem int_unchecked {S : Schema} {sc : Scope} (y : Name) (hy : sc y = none) (bits : Nat) (i : Int) :
    ∃ c, declare S sc ⟨y, .int bits, .int i⟩ = some c ∧ eval S (.int bits) c.cv = some (.int i) :=
  ⟨⟨.int bits, .int i⟩, by simp only [declare, hy, resolve, resolveBase, validate, if_true], by simp only [eval, CV.getInteger, Option.map_some]⟩

/-- For an enum only the last part of a qualified name counts: a value of another enum, or a constant of another file, stands for the value of this
enum that has the same name. -/
theorem enum_prefix {S : Schema} (hS : Distinct S) {sc : Scope} (y p e a : Name) (hy : sc y = none) (hp : 46 ∉ p) {i : Int} (hm : (a, i) ∈ S.enums e) :
    ∃ c, declare S sc ⟨y, .enum e, .ident (p ++ 46 :: a) none⟩ = some c ∧ eval S (.enum e) c.cv = some (.int i) := by
  have ha : 46 ∉ a := hS.plain e _ hm
  have hq : Qualified p a (p ++ 46 :: a) := ⟨hp, ha, .inl rfl⟩
  refine ⟨⟨.enum e, .ident (p ++ 46 :: a) (some e)⟩, ?_, ?_⟩
  · have hv : validate S (.enum e) (.ident (p ++ 46 :: a) (some e)) = true := by
      simp only [validate, identifierName_qualified hq]
      rw [List.any_eq_true]
      exact ⟨(a, i), hm, by simp⟩
    simp only [declare, hy, resolve, resolveBase]
    rw [if_pos hv]
  · simp only [eval, CV.getInteger, afterLastDot_qualified hq, byName, lookup_mem (hS.enums e) hm, Option.map_some]

/-- A string is accepted for an enum that has the value 0, and stands for it. -/
theorem enum_string {S : Schema} (hS : Distinct S) {sc : Scope} (y e a : Name) (hy : sc y = none) (he : 46 ∉ e) (hm : (a, 0) ∈ S.enums e) (s : Bytes) :
    ∃ c, declare S sc ⟨y, .enum e, .str s⟩ = some c ∧ eval S (.enum e) c.cv = some (.int 0) := by
  obtain ⟨n, h1, h2⟩ := byValue_mem hm
  have hq : Qualified e n (e ++ 46 :: n) := ⟨he, hS.plain e (n, 0) h2, .inl rfl⟩
  refine ⟨⟨.enum e, .ident (e ++ 46 :: n) (some e)⟩, ?_, ?_⟩
  · have hv : validate S (.enum e) (.ident (e ++ 46 :: n) (some e)) = true := by
      simp only [validate, identifierName_qualified hq]
      rw [List.any_eq_true]
      exact ⟨(n, 0), h2, by simp⟩
    simp only [declare, hy, resolve, resolveBase, CV.getInteger, Option.bind_some, h1]
    rw [if_pos hv]
  · simp only [eval, CV.getInteger, afterLastDot_qualified hq, byName, lookup_mem (hS.enums e) h2, Option.map_some]

-- `Color.B` for a constant of the enum `E`; `"z"` is not accepted for `E`, which has no value 0
example : (∃ c, declare sampleSchema (fun _ => none) ⟨[120], .enum [69], .ident [67, 111, 108, 111, 114, 46, 66] none⟩ = some c ∧ eval sampleSchema (.enum [69]) c.cv = some (.int 1)) :=
  enum_prefix sample_distinct [120] [67, 111, 108, 111, 114] [69] [66] rfl (by decide) (by decide)

example (sc : Scope) (hy : sc [121] = none) (hx : sc [120] = some ⟨.double, .int 7⟩) :
    ∃ c, declare sampleSchema sc ⟨[121], .double, .ident [120] none⟩ = some c ∧ eval sampleSchema .double c.cv = some (.float 0) :=
  double_ref [121] [120] hy 7 hx

-- `const Z z = "what"` with `enum Z { N = 0 }`
example : ∃ c, declare ⟨fun e => if e = [90] then [([78], 0)] else [], fun _ => []⟩ (fun _ => none) ⟨[122], .enum [90], .str [119]⟩ = some c ∧
    eval ⟨fun e => if e = [90] then [([78], 0)] else [], fun _ => []⟩ (.enum [90]) c.cv = some (.int 0) := by
  refine enum_string ⟨fun e => ?_, fun e => ?_, fun n => ?_⟩ [122] [90] [78] rfl (by decide) (by decide) [119]
  · dsimp only; split <;> decide
  · dsimp only; split <;> decide
  · exact List.nodup_nil

end Thrift.Consts
