import Verif.Proofs.ReprEval
/-
Values whose text cannot be read back, for C94.
-/

namespace Thrift.Repr
open Rpc Spec.Repr
open Attrs (Cls)

section
variable {P : Py} {env : Env}

/-- An exception -/
def Fails {α : Type} (r : Except Err α) : Prop := ∃ e, r = .error e

theorem fails_iff {α : Type} {r : Except Err α} : Fails r ↔ ∀ x, r ≠ .ok x := by
  cases r with
  | ok x => exact ⟨fun ⟨_, h⟩ => (nomatch h), fun h => absurd rfl (h x)⟩
  | error e => exact ⟨fun _ x h => (nomatch h), fun _ => ⟨e, rfl⟩⟩

theorem values_fail {xs : List V} {y : V} (hy : y ∈ xs) (h : Fails (value P env (toExpr y))) : Fails (values P env (toExprs xs)) := by
  induction xs with
  | nil => cases hy
  | cons x xs ih =>
    rw [toExprs, values]
    cases hx : value P env (toExpr x) with
    | error e => exact ⟨e, rfl⟩
    | ok v =>
      rcases List.mem_cons.1 hy with rfl | hy
      · obtain ⟨e, he⟩ := h
        rw [hx] at he
        cases he
      · obtain ⟨e, he⟩ := ih hy
        exact ⟨e, by rw [he]⟩

theorem valuePairs_fail {kvs : List (V × V)} {y : V} (hy : y ∈ kvs.flatMap fun kv => [kv.1, kv.2]) (h : Fails (value P env (toExpr y))) : Fails (valuePairs P env (toPairs kvs)) := by
  induction kvs with
  | nil => cases hy
  | cons x xs ih =>
    rw [toPairs, valuePairs]
    obtain ⟨e, he⟩ := h
    cases hx : value P env (toExpr x.1) with
    | error e => exact ⟨e, rfl⟩
    | ok v =>
      dsimp only
      cases hx2 : value P env (toExpr x.2) with
      | error e => exact ⟨e, rfl⟩
      | ok v2 =>
        dsimp only
        rw [List.flatMap_cons] at hy
        rcases List.mem_cons.1 hy with rfl | hy
        · rw [hx] at he; cases he
        · rcases List.mem_cons.1 hy with rfl | hy
          · rw [hx2] at he; cases he
          · obtain ⟨e, he⟩ := ih hy
            exact ⟨e, by rw [he]⟩

theorem valueArgs_fail {as : List (PyStr × V)} {y : V} (hy : y ∈ as.map (·.2)) (h : Fails (value P env (toExpr y))) : Fails (valueArgs P env (toArgs as)) := by
  induction as with
  | nil => cases hy
  | cons x xs ih =>
    rw [toArgs, valueArgs]
    cases hx : value P env (toExpr x.2) with
    | error e => exact ⟨e, rfl⟩
    | ok v =>
      rw [List.map_cons] at hy
      rcases List.mem_cons.1 hy with rfl | hy
      · obtain ⟨e, he⟩ := h
        rw [hx] at he
        cases he
      · obtain ⟨e, he⟩ := ih hy
        exact ⟨e, by rw [he]⟩

/-- If one of the parts has no value, there is none. -/
theorem value_fail {x y : V} (hy : y ∈ parts x) (h : Fails (value P env (toExpr y))) : Fails (value P env (toExpr x)) := by
  cases x with
  | list xs =>
    obtain ⟨e, he⟩ := values_fail (xs := xs) hy h
    exact ⟨e, by rw [toExpr, value, he]⟩
  | tuple xs =>
    obtain ⟨e, he⟩ := values_fail (xs := xs) hy h
    exact ⟨e, by rw [toExpr, value, he]⟩
  | set xs =>
    cases xs with
    | nil => cases hy
    | cons x xs =>
      obtain ⟨e, he⟩ := values_fail (xs := x :: xs) hy h
      refine ⟨e, ?_⟩
      rw [toExpr, value, he]
      simp
  | frozenset xs =>
    cases xs with
    | nil => cases hy
    | cons x xs =>
      obtain ⟨e, he⟩ := values_fail (xs := x :: xs) hy h
      rw [toExpr, value]
      · cases env (pyStr "frozenset") with
        | none => exact ⟨.name, rfl⟩
        | some g =>
          refine ⟨e, ?_⟩
          dsimp only
          rw [valueArgs, value, he]
      · simp
  | dict kvs =>
    obtain ⟨e, he⟩ := valuePairs_fail (kvs := kvs) hy h
    exact ⟨e, by rw [toExpr, value, he]⟩
  | frozenDict kvs =>
    obtain ⟨e, he⟩ := valuePairs_fail (kvs := kvs) hy h
    exact ⟨e, by rw [toExpr, value, he]⟩
  | inst c as =>
    obtain ⟨e, he⟩ := valueArgs_fail (as := as) hy h
    rw [toExpr, value]
    cases env c.name with
    | none => exact ⟨.name, rfl⟩
    | some g => exact ⟨e, by dsimp only; rw [he]⟩
  | _ => cases hy

theorem value_has {x : V} (h : Has (fun y => Fails (value P env (toExpr y))) x) : Fails (value P env (toExpr x)) := by
  induction x using V.ind with
  | h x ih =>
    rw [has_iff] at h
    rcases h with h | ⟨y, hy, h⟩
    · exact h
    · exact value_fail hy (ih y hy h)

/-! ### Depths of parts -/

theorem depth_part {x y : V} (hy : y ∈ parts x) : depth y ≤ depth x := by
  cases x with
  | list xs => have := (depths_le xs _).1 (Nat.le_refl _) y hy; rw [depth]; omega
  | tuple xs => have := (depths_le xs _).1 (Nat.le_refl _) y hy; rw [depth]; omega
  | set xs => have := (depths_le xs _).1 (Nat.le_refl _) y hy; rw [depth]; omega
  | frozenset xs =>
    have := (depths_le xs _).1 (Nat.le_refl _) y hy
    cases xs with
    | nil => cases hy
    | cons x xs =>
      rw [depth]
      · omega
      · simp
  | dict kvs => have := (depthPairs_le kvs _).1 (Nat.le_refl _) y hy; rw [depth]; omega
  | frozenDict kvs => have := (depthPairs_le kvs _).1 (Nat.le_refl _) y hy; rw [depth]; omega
  | inst c as => have := (depthAttrs_le as _).1 (Nat.le_refl _) y hy; rw [depth]; omega
  | _ => cases hy

theorem eval_fails (hP : Lawful P) (lim : Nat) (x : V) (hp : Each Proper x) :
    Fails (eval P lim env (text P x)) ↔ readable lim x = false ∨ Fails (value P env (toExpr x)) := by
  rw [eval_text hP lim env x hp]
  cases readable lim x with
  | true => simp
  | false => simp [Fails]

theorem each_part {p : V → Prop} {x y : V} (h : Each p x) (hy : y ∈ parts x) : Each p y := ((each_iff p x).1 h).2 y hy

theorem eval_part (hP : Lawful P) (lim : Nat) (x : V) (hp : Each Proper x) (h : Has (fun y => Fails (eval P lim env (text P y))) x) : Fails (eval P lim env (text P x)) := by
  induction x using V.ind with
  | h x ih =>
    rw [has_iff] at h
    rcases h with h | ⟨y, hy, h⟩
    · exact h
    · have := ih y hy (each_part hp hy) h
      rw [eval_fails hP lim y (each_part hp hy)] at this
      rw [eval_fails hP lim x hp]
      rcases this with h | h
      · left
        rw [← Bool.not_eq_true, readable_iff] at h ⊢
        rintro ⟨h1, h2⟩
        refine h ⟨Nat.le_trans (depth_part hy) h1, fun hh => h2 ?_⟩
        rw [has_iff]
        exact .inr ⟨y, hy, hh⟩
      · exact .inr (value_fail hy h)

/-! ### Keys -/

theorem mkSet_fail {xs acc : List V} {x : V} (hx : x ∈ xs) (h : hashable x = false) : Fails (mkSet P acc xs) := by
  induction xs generalizing acc with
  | nil => cases hx
  | cons y xs ih =>
    rw [mkSet]
    by_cases hy : hashable y = false
    · exact ⟨.type, by rw [hy]; rfl⟩
    · have : hashable y = true := by simpa using hy
      rw [this]
      rcases List.mem_cons.1 hx with rfl | hx
      · exact absurd h hy
      · exact ih hx

theorem mkDict_fail {kvs acc : List (V × V)} {kv : V × V} (hx : kv ∈ kvs) (h : hashable kv.1 = false) : Fails (mkDict P acc kvs) := by
  induction kvs generalizing acc with
  | nil => cases hx
  | cons y xs ih =>
    rw [mkDict]
    by_cases hy : hashable y.1 = false
    · exact ⟨.type, by rw [hy]; rfl⟩
    · have : hashable y.1 = true := by simpa using hy
      rw [this]
      rcases List.mem_cons.1 hx with rfl | hx
      · exact absurd h hy
      · exact ih hx

theorem values_mem {xs : List V} {vs : List V} (h : values P env (toExprs xs) = .ok vs) {y : V} (hy : y ∈ xs) : ∃ v ∈ vs, value P env (toExpr y) = .ok v := by
  induction xs generalizing vs with
  | nil => cases hy
  | cons x xs ih =>
    rw [toExprs, values] at h
    cases hx : value P env (toExpr x) with
    | error e => rw [hx] at h; cases h
    | ok v =>
      rw [hx] at h
      dsimp only at h
      cases hv : values P env (toExprs xs) with
      | error e => rw [hv] at h; cases h
      | ok ws =>
        rw [hv] at h
        cases h
        rcases List.mem_cons.1 hy with rfl | hy
        · exact ⟨v, List.mem_cons_self, hx⟩
        · obtain ⟨w, hw, e⟩ := ih hv hy
          exact ⟨w, List.mem_cons_of_mem _ hw, e⟩

theorem valuePairs_mem {kvs : List (V × V)} {vs : List (V × V)} (h : valuePairs P env (toPairs kvs) = .ok vs) {y : V × V} (hy : y ∈ kvs) : ∃ v ∈ vs, value P env (toExpr y.1) = .ok v.1 := by
  induction kvs generalizing vs with
  | nil => cases hy
  | cons x xs ih =>
    rw [toPairs, valuePairs] at h
    cases hx : value P env (toExpr x.1) with
    | error e => rw [hx] at h; cases h
    | ok v =>
      rw [hx] at h
      dsimp only at h
      cases hx2 : value P env (toExpr x.2) with
      | error e => rw [hx2] at h; cases h
      | ok v2 =>
        rw [hx2] at h
        dsimp only at h
        cases hv : valuePairs P env (toPairs xs) with
        | error e => rw [hv] at h; cases h
        | ok ws =>
          rw [hv] at h
          cases h
          rcases List.mem_cons.1 hy with rfl | hy
          · exact ⟨(v, v2), List.mem_cons_self, hx⟩
          · obtain ⟨w, hw, e⟩ := ih hv hy
            exact ⟨w, List.mem_cons_of_mem _ hw, e⟩

/-- What is read from the text of a `TFrozenDict` has no hash. -/
theorem frozenDict_value {kvs : List (V × V)} {v : V} (h : value P env (toExpr (.frozenDict kvs)) = .ok v) : hashable v = false := by
  rw [toExpr, value] at h
  cases h1 : valuePairs P env (toPairs kvs) with
  | error e => rw [h1] at h; cases h
  | ok vs =>
    rw [h1] at h
    dsimp only at h
    cases h2 : mkDict P [] vs with
    | error e => rw [h2] at h; cases h
    | ok ws =>
      rw [h2] at h
      cases h
      rfl

theorem frozen_element {xs : List V} {kvs : List (V × V)} (h : .frozenDict kvs ∈ xs) : Fails (value P env (toExpr (.set xs))) ∧ Fails (value P env (toExpr (.frozenset xs))) := by
  have hs : Fails (value P env (.set (toExprs xs))) := by
    rw [value]
    cases h1 : values P env (toExprs xs) with
    | error e => exact ⟨e, rfl⟩
    | ok vs =>
      obtain ⟨v, hv, e⟩ := values_mem h1 h
      obtain ⟨e, he⟩ := mkSet_fail (P := P) (acc := []) hv (frozenDict_value e)
      exact ⟨e, by dsimp only; rw [he]⟩
  cases xs with
  | nil => cases h
  | cons x xs =>
    constructor
    · rw [toExpr]
      · exact hs
      · simp
    · rw [toExpr]
      · obtain ⟨e, he⟩ := hs
        rw [value]
        cases env (pyStr "frozenset") with
        | none => exact ⟨.name, rfl⟩
        | some g =>
          refine ⟨e, ?_⟩
          dsimp only
          rw [valueArgs, he]
      · simp

theorem frozen_key {kvs m : List (V × V)} {v : V} (h : (.frozenDict m, v) ∈ kvs) : Fails (value P env (toExpr (.dict kvs))) ∧ Fails (value P env (toExpr (.frozenDict kvs))) := by
  have hs : Fails (value P env (.dict (toPairs kvs))) := by
    rw [value]
    cases h1 : valuePairs P env (toPairs kvs) with
    | error e => exact ⟨e, rfl⟩
    | ok vs =>
      obtain ⟨v, hv, e⟩ := valuePairs_mem h1 h
      obtain ⟨e, he⟩ := mkDict_fail (P := P) (acc := []) hv (frozenDict_value e)
      exact ⟨e, by dsimp only; rw [he]⟩
  rw [toExpr, toExpr]
  exact ⟨hs, hs⟩

/-! ### Instances -/

theorem construct_keys {c : Cls} (hc : Regular c) {kw : List (PyStr × Option V)} {o : Attrs.Inst V} (h : Attrs.construct c kw = .ok o) :
    o.cls = c ∧ (o.attrs.reverse.map (·.1)) = c.members.map (key c) := by
  have hkey : c.members.map (key c) = c.members.map c.attr := List.map_congr_left fun m hm => key_attr hc hm
  unfold Attrs.construct at h
  rw [hc.created] at h
  change (if _ then _ else _) = _ at h
  split at h
  · rw [Attrs.initBody_ok c] at h
    · injection h with h
      subst h
      refine ⟨rfl, ?_⟩
      rw [List.append_nil, List.reverse_reverse, List.map_map, List.map_map]
      rfl
    · rfl
    · intro a ha
      obtain ⟨m, hm, rfl⟩ := List.mem_map.1 ha
      unfold Attrs.Allowed
      cases hs : c.slots with
      | false => exact .inl rfl
      | true =>
        refine .inr (.inr ?_)
        show key c m ∈ _
        rw [key_attr hc hm, (attr_slots hc hs hm).1]
        unfold Attrs.Cls.slotNames
        rw [if_pos hs]
        exact List.mem_map.2 ⟨m, hm, (attr_slots hc hs hm).2⟩
    · rw [List.map_map]
      show (c.members.map (key c)).Nodup
      rw [hkey]
      exact hc.distinct
    · intro a ha h
      cases h
  · cases h

theorem initBody_cls (c : Cls) : ∀ (as : List (PyStr × Option V)) (o r : Attrs.Inst V), Attrs.initBody c as o = .ok r → r.cls = o.cls := by
  intro as
  induction as with
  | nil => intro o r h; cases h; rfl
  | cons a as ih =>
    intro o r h
    rw [Attrs.initBody] at h
    generalize (if c.immutable then a.1 else c.attr a.1) = n at h
    by_cases hal : Attrs.Allowed o.cls n
    · rw [Attrs.objSet_ok hal] at h
      exact ih { o with attrs := (n, a.2) :: o.attrs.filter fun b => b.1 ≠ n } r h
    · rw [Attrs.objSet_error hal] at h
      cases h

theorem construct_cls {c : Cls} {kw : List (PyStr × Option V)} {o : Attrs.Inst V} (h : Attrs.construct c kw = .ok o) : o.cls = c := by
  unfold Attrs.construct at h
  cases hc : Attrs.create c with
  | error e => rw [hc] at h; cases h
  | ok u =>
    rw [hc] at h
    change (if _ then _ else _) = _ at h
    split at h
    · exact initBody_cls c _ _ _ h
    · cases h

theorem apply_inst {c : Cls} {as : List (Option PyStr × V)} {r : V} (h : apply (.cls c) as = .ok r) :
    ∃ kw o, Attrs.construct c kw = .ok o ∧ r = .inst o.cls (o.attrs.reverse.map fun a => (a.1, ofArg a.2)) := by
  unfold apply at h
  dsimp only at h
  cases hk : kwOnly as with
  | error e => rw [hk] at h; cases h
  | ok kw =>
    rw [hk] at h
    dsimp only at h
    cases ho : Attrs.construct c kw with
    | error e => rw [ho] at h; cases h
    | ok o =>
      rw [ho] at h
      cases h
      exact ⟨kw, o, ho, rfl⟩

theorem value_inst {c d : Cls} {as : List (PyStr × V)} {r : V} (hd : env c.name = some (.cls d)) (h : value P env (toExpr (.inst c as)) = .ok r) :
    ∃ bs, r = .inst d bs ∧ (Regular d → bs.map (·.1) = d.members.map (key d)) := by
  rw [toExpr, value, hd] at h
  dsimp only at h
  cases ha : valueArgs P env (toArgs as) with
  | error e => rw [ha] at h; cases h
  | ok vs =>
    rw [ha] at h
    obtain ⟨kw, o, ho, rfl⟩ := apply_inst h
    have := construct_cls ho
    refine ⟨_, by rw [this], fun hr => ?_⟩
    rw [List.map_map]
    exact (construct_keys hr ho).2

/-! ### Attributes that `__slots__` names otherwise -/

theorem texts_error {α : Type} {ts : List (Except Err α)} {e : Err} (h : texts ts = .error e) : ∃ t ∈ ts, t = .error e := by
  induction ts with
  | nil => cases h
  | cons t ts ih =>
    rw [texts.eq_def] at h
    dsimp only at h
    cases t with
    | error e' => cases h; exact ⟨_, List.mem_cons_self, rfl⟩
    | ok t =>
      dsimp only at h
      cases hr : texts ts with
      | error e' =>
        rw [hr] at h
        cases h
        obtain ⟨u, hu, e⟩ := ih hr
        exact ⟨u, List.mem_cons_of_mem _ hu, e⟩
      | ok us => rw [hr] at h; cases h

theorem texts_fail {α : Type} {ts : List (Except Err α)} {t : Except Err α} (ht : t ∈ ts) (h : Fails t) : Fails (texts ts) := by
  induction ts with
  | nil => cases ht
  | cons u ts ih =>
    rw [texts.eq_def]
    dsimp only
    cases u with
    | error e => exact ⟨e, rfl⟩
    | ok u =>
      rcases List.mem_cons.1 ht with rfl | ht
      · obtain ⟨e, he⟩ := h
        cases he
      · obtain ⟨e, he⟩ := ih ht
        exact ⟨e, by dsimp only; rw [he]⟩

theorem within_error {a b : PyStr} {ts : List (Except Err PyStr)} {e : Err} (h : within a b ts = .error e) : ∃ t ∈ ts, t = .error e := by
  unfold within at h
  cases ht : texts ts with
  | error e' => rw [ht] at h; cases h; exact texts_error ht
  | ok us => rw [ht] at h; cases h

theorem within_fail {a b : PyStr} {ts : List (Except Err PyStr)} {t : Except Err PyStr} (ht : t ∈ ts) (h : Fails t) : Fails (within a b ts) := by
  obtain ⟨e, he⟩ := texts_fail ht h
  exact ⟨e, by unfold within; rw [he]⟩

theorem reprs_mem {xs : List V} {t : Except Err PyStr} (h : t ∈ reprs P xs) : ∃ y ∈ xs, t = repr P y := by
  induction xs with
  | nil => cases h
  | cons x xs ih =>
    rw [reprs] at h
    rcases List.mem_cons.1 h with rfl | h
    · exact ⟨x, List.mem_cons_self, rfl⟩
    · obtain ⟨y, hy, e⟩ := ih h
      exact ⟨y, List.mem_cons_of_mem _ hy, e⟩

theorem reprPairs_mem {kvs : List (V × V)} {e : Err} (h : .error e ∈ reprPairs P kvs) : ∃ y ∈ kvs.flatMap fun kv => [kv.1, kv.2], repr P y = .error e := by
  induction kvs with
  | nil => cases h
  | cons x xs ih =>
    rw [reprPairs] at h
    rw [List.flatMap_cons]
    rcases List.mem_cons.1 h with h | h
    · cases h1 : repr P x.1 with
      | error e' =>
        rw [h1] at h
        cases h
        exact ⟨x.1, by simp, h1⟩
      | ok k =>
        cases h2 : repr P x.2 with
        | error e' =>
          rw [h1, h2] at h
          cases h
          exact ⟨x.2, by simp, h2⟩
        | ok v => rw [h1, h2] at h; cases h
    · obtain ⟨y, hy, e⟩ := ih h
      exact ⟨y, List.mem_append_right _ hy, e⟩

theorem reprAttrs_eq (as : List (PyStr × V)) : reprAttrs P as = as.map fun a => (a.1, repr P a.2) := by
  induction as with
  | nil => rfl
  | cons x xs ih => rw [reprAttrs, ih]; rfl

theorem lookup_some {α : Type} {l : List (PyStr × α)} {m : PyStr} {v : α} (h : l.lookup m = some v) : (m, v) ∈ l := by
  induction l with
  | nil => cases h
  | cons a l ih =>
    rw [List.lookup_cons] at h
    cases he : (m == a.1) with
    | true =>
      rw [he] at h
      cases h
      rw [beq_iff_eq.1 he]
      exact List.mem_cons_self
    | false =>
      rw [he] at h
      exact List.mem_cons_of_mem _ (ih h)

theorem repr_error (x : V) {e : Err} (h : repr P x = .error e) : e = .attribute := by
  induction x using V.ind with
  | h x ih =>
    have list : ∀ {a b : PyStr} {xs : List V}, (∀ y ∈ xs, y ∈ parts x) → within a b (reprs P xs) = .error e → e = .attribute := by
      intro a b xs hx h
      obtain ⟨t, ht, rfl⟩ := within_error h
      obtain ⟨y, hy, e⟩ := reprs_mem ht
      exact ih y (hx y hy) e.symm
    have dict : ∀ {a b : PyStr} {kvs : List (V × V)}, (∀ y ∈ kvs.flatMap fun kv => [kv.1, kv.2], y ∈ parts x) → within a b (reprPairs P kvs) = .error e → e = .attribute := by
      intro a b kvs hx h
      obtain ⟨t, ht, rfl⟩ := within_error h
      obtain ⟨y, hy, e⟩ := reprPairs_mem ht
      exact ih y (hx y hy) e
    cases x with
    | list xs => rw [repr] at h; exact list (fun y hy => hy) h
    | tuple xs =>
      rcases xs with _ | ⟨x, _ | ⟨y, xs⟩⟩
      · rw [repr] at h; cases h
      · rw [repr] at h; exact list (fun y hy => hy) h
      · rw [repr] at h
        · exact list (fun y hy => hy) h
        all_goals simp
    | set xs =>
      cases xs with
      | nil => rw [repr] at h; cases h
      | cons x xs =>
        rw [repr] at h
        · exact list (fun y hy => hy) h
        all_goals simp
    | frozenset xs =>
      cases xs with
      | nil => rw [repr] at h; cases h
      | cons x xs =>
        rw [repr] at h
        · exact list (fun y hy => hy) h
        all_goals simp
    | dict kvs => rw [repr] at h; exact dict (fun y hy => hy) h
    | frozenDict kvs => rw [repr] at h; exact dict (fun y hy => hy) h
    | inst c as =>
      rw [repr, reprInst, reprAttrs_eq] at h
      obtain ⟨t, ht, rfl⟩ := within_error h
      have kw : ∀ (k : PyStr) (v : V), v ∈ as.map (·.2) → keyword k (repr P v) = .error e → e = .attribute := by
        intro k v hv hk
        cases hr : repr P v with
        | error e' => rw [hr] at hk; cases hk; exact ih v hv hr
        | ok s => rw [hr] at hk; cases hk
      split at ht
      · obtain ⟨m, hm, hk⟩ := List.mem_map.1 ht
        split at hk
        · rename_i t hl
          obtain ⟨b, hb, hbe⟩ := List.mem_map.1 (lookup_some hl)
          cases hbe
          exact kw _ _ (List.mem_map_of_mem hb) hk
        · cases hk; rfl
      · rw [List.map_map] at ht
        obtain ⟨b, hb, hk⟩ := List.mem_map.1 ht
        exact kw _ _ (List.mem_map_of_mem hb) hk
    | _ => rw [repr] at h; cases h

theorem repr_slots {c : Cls} {as : List (PyStr × V)} (hs : c.slots = true) {m : PyStr} (hm : m ∈ c.members) (ha : ∀ a ∈ as, a.1 ≠ m) : repr P (.inst c as) = .error .attribute := by
  have : Fails (repr P (.inst c as)) := by
    rw [repr, reprInst, reprAttrs_eq, if_pos hs]
    refine within_fail (t := .error .attribute) ?_ ⟨_, rfl⟩
    refine List.mem_map.2 ⟨m, hm, ?_⟩
    have : (as.map fun a => (a.1, repr P a.2)).lookup m = none := by
      cases h : (as.map fun a => (a.1, repr P a.2)).lookup m with
      | none => rfl
      | some t =>
        obtain ⟨b, hb, e⟩ := List.mem_map.1 (lookup_some h)
        cases e
        exact absurd rfl (ha b hb)
    rw [this]
  obtain ⟨e, he⟩ := this
  rw [he, repr_error _ he]

end

end Thrift.Repr
