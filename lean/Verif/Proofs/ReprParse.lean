import Verif.Proofs.ReprText
/-
The text of a value, and the expression that is read from it, for C94.
-/

namespace Thrift.Repr
open Rpc Spec.Repr
open Attrs (Cls)

/-- The values directly in a value -/
def parts : V → List V
  | .list xs => xs
  | .tuple xs => xs
  | .set xs => xs
  | .frozenset xs => xs
  | .dict kvs => kvs.flatMap fun kv => [kv.1, kv.2]
  | .frozenDict kvs => kvs.flatMap fun kv => [kv.1, kv.2]
  | .inst _ as => as.map (·.2)
  | _ => []

theorem pair_lt {kvs : List (V × V)} {y : V} (h : y ∈ kvs.flatMap fun kv => [kv.1, kv.2]) : sizeOf y < sizeOf kvs := by
  obtain ⟨⟨k, v⟩, hm, hy⟩ := List.mem_flatMap.1 h
  have := List.sizeOf_lt_of_mem hm
  simp only [Prod.mk.sizeOf_spec] at this
  simp only [List.mem_cons, List.not_mem_nil, or_false] at hy
  rcases hy with rfl | rfl <;> omega

theorem parts_lt {x y : V} (h : y ∈ parts x) : sizeOf y < sizeOf x := by
  cases x with
  | list xs => have := List.sizeOf_lt_of_mem (show y ∈ xs from h); simp only [V.list.sizeOf_spec]; omega
  | tuple xs => have := List.sizeOf_lt_of_mem (show y ∈ xs from h); simp only [V.tuple.sizeOf_spec]; omega
  | set xs => have := List.sizeOf_lt_of_mem (show y ∈ xs from h); simp only [V.set.sizeOf_spec]; omega
  | frozenset xs => have := List.sizeOf_lt_of_mem (show y ∈ xs from h); simp only [V.frozenset.sizeOf_spec]; omega
  | dict kvs => have := pair_lt (kvs := kvs) h; simp only [V.dict.sizeOf_spec]; omega
  | frozenDict kvs => have := pair_lt (kvs := kvs) h; simp only [V.frozenDict.sizeOf_spec]; omega
  | inst c as =>
    obtain ⟨⟨k, v⟩, hm, rfl⟩ := List.mem_map.1 (show y ∈ as.map (·.2) from h)
    have := List.sizeOf_lt_of_mem hm
    simp only [Prod.mk.sizeOf_spec] at this
    simp only [V.inst.sizeOf_spec]
    omega
  | _ => cases h

theorem V.ind {p : V → Prop} (h : ∀ x, (∀ y ∈ parts x, p y) → p x) (x : V) : p x := h x fun y _hy => V.ind h y
termination_by sizeOf x
decreasing_by exact parts_lt _hy

theorem hasAny_iff (p : V → Prop) (xs : List V) : HasAny p xs ↔ ∃ y ∈ xs, Has p y := by
  induction xs with
  | nil => simp [HasAny]
  | cons x xs ih => simp [HasAny, ih]

theorem hasPair_iff (p : V → Prop) (kvs : List (V × V)) : HasPair p kvs ↔ ∃ y ∈ kvs.flatMap fun kv => [kv.1, kv.2], Has p y := by
  induction kvs with
  | nil => simp [HasPair]
  | cons x xs ih =>
    rw [HasPair, ih, List.flatMap_cons]
    simp only [List.cons_append, List.nil_append, List.mem_cons, exists_eq_or_imp]

theorem hasAttr_iff (p : V → Prop) (as : List (PyStr × V)) : HasAttr p as ↔ ∃ y ∈ as.map (·.2), Has p y := by
  induction as with
  | nil => simp [HasAttr]
  | cons x xs ih =>
    rw [HasAttr, ih, List.map_cons]
    simp only [List.mem_cons, exists_eq_or_imp]

theorem has_iff (p : V → Prop) (x : V) : Has p x ↔ p x ∨ ∃ y ∈ parts x, Has p y := by
  cases x <;> simp only [Has, parts, hasAny_iff, hasPair_iff, hasAttr_iff, List.not_mem_nil, false_and, exists_false, or_false]

theorem each_iff (p : V → Prop) (x : V) : Each p x ↔ p x ∧ ∀ y ∈ parts x, Each p y := by
  unfold Each
  rw [has_iff, not_or, Classical.not_not]
  refine and_congr_right fun _ => ?_
  constructor
  · intro h y hy hh
    exact h ⟨y, hy, hh⟩
  · rintro h ⟨y, hy, hh⟩
    exact h y hy hh

/-! ### The text -/

mutual
def text (P : Py) : V → PyStr
  | .none => pyStr "None"
  | .bool b => if b then pyStr "True" else pyStr "False"
  | .int i => reprInt i
  | .float x => reprFloat P x
  | .str s => reprStr P s
  | .bytes b => reprBytes b
  | .uuid n => pyStr "UUID(" ++ reprStr P (uuidText n) ++ [41]
  | .list xs => [91] ++ commas (textAll P xs) ++ [93]
  | .tuple [] => [40, 41]
  | .tuple [x] => [40] ++ text P x ++ [44, 41]
  | .tuple xs => [40] ++ commas (textAll P xs) ++ [41]
  | .set [] => pyStr "set()"
  | .set xs => [123] ++ commas (textAll P xs) ++ [125]
  | .frozenset [] => pyStr "frozenset()"
  | .frozenset xs => pyStr "frozenset({" ++ commas (textAll P xs) ++ [125, 41]
  | .dict kvs => [123] ++ commas (textPairs P kvs) ++ [125]
  | .frozenDict kvs => [123] ++ commas (textPairs P kvs) ++ [125]
  | .enum c m i => [60] ++ c ++ [46] ++ m ++ [58, 32] ++ reprInt i ++ [62]
  | .inst c as => c.name ++ [40] ++ commas (textAttrs P as) ++ [41]

def textAll (P : Py) : List V → List PyStr
  | [] => []
  | x :: xs => text P x :: textAll P xs

def textPairs (P : Py) : List (V × V) → List PyStr
  | [] => []
  | kv :: kvs => (text P kv.1 ++ [58, 32] ++ text P kv.2) :: textPairs P kvs

def textAttrs (P : Py) : List (PyStr × V) → List PyStr
  | [] => []
  | a :: as => (a.1 ++ [61] ++ text P a.2) :: textAttrs P as
end

theorem texts_ok {α : Type} (ts : List α) : texts (ts.map Except.ok) = .ok ts := by
  induction ts with
  | nil => rfl
  | cons t ts ih => rw [List.map_cons, texts, ih]

theorem within_ok (a b : PyStr) (ts : List PyStr) : within a b (ts.map Except.ok) = .ok (a ++ commas ts ++ b) := by
  unfold within
  rw [texts_ok]

theorem reprs_ok {P : Py} {xs : List V} (h : ∀ y ∈ xs, repr P y = .ok (text P y)) : reprs P xs = (textAll P xs).map Except.ok := by
  induction xs with
  | nil => rfl
  | cons x xs ih => rw [reprs, textAll, List.map_cons, h x List.mem_cons_self, ih fun y hy => h y (List.mem_cons_of_mem _ hy)]

theorem reprPairs_ok {P : Py} {kvs : List (V × V)} (h : ∀ y ∈ kvs.flatMap fun kv => [kv.1, kv.2], repr P y = .ok (text P y)) : reprPairs P kvs = (textPairs P kvs).map Except.ok := by
  induction kvs with
  | nil => rfl
  | cons x xs ih =>
    rw [List.flatMap_cons] at h
    rw [reprPairs, textPairs, List.map_cons, h x.1 (by simp), h x.2 (by simp), ih fun y hy => h y (List.mem_append_right _ hy)]

theorem reprAttrs_ok {P : Py} {as : List (PyStr × V)} (h : ∀ y ∈ as.map (·.2), repr P y = .ok (text P y)) : reprAttrs P as = as.map fun a => (a.1, .ok (text P a.2)) := by
  induction as with
  | nil => rfl
  | cons x xs ih =>
    rw [List.map_cons] at h
    rw [reprAttrs, List.map_cons, h x.2 List.mem_cons_self, ih fun y hy => h y (List.mem_cons_of_mem _ hy)]

theorem textAttrs_eq (P : Py) (as : List (PyStr × V)) : textAttrs P as = as.map fun a => a.1 ++ [61] ++ text P a.2 := by
  induction as with
  | nil => rfl
  | cons x xs ih => rw [textAttrs, ih]; rfl

theorem lookup_nodup {α : Type} {l : List (PyStr × α)} (h : (l.map (·.1)).Nodup) {a : PyStr × α} (ha : a ∈ l) : l.lookup a.1 = some a.2 := by
  induction l with
  | nil => cases ha
  | cons b l ih =>
    rw [List.map_cons, List.nodup_cons] at h
    rw [List.lookup_cons]
    rcases List.mem_cons.1 ha with rfl | ha
    · simp
    · have : (a.1 == b.1) = false := by
        rw [beq_eq_false_iff_ne]
        intro e
        exact h.1 (e ▸ List.mem_map_of_mem ha)
      rw [this]
      exact ih h.2 ha

theorem reprInst_ok {P : Py} {c : Cls} {as : List (PyStr × V)} (h : ∀ y ∈ as.map (·.2), repr P y = .ok (text P y))
    (hs : c.slots = true → as.map (·.1) = c.members ∧ c.members.Nodup) : reprInst c (reprAttrs P as) = .ok (c.name ++ [40] ++ commas (textAttrs P as) ++ [41]) := by
  unfold reprInst
  rw [reprAttrs_ok h]
  have e : (if c.slots then c.members.map fun m =>
        match (as.map fun a => (a.1, (Except.ok (text P a.2) : Except Err PyStr))).lookup m with
        | some t => keyword m t
        | none => .error .attribute
      else (as.map fun a => (a.1, (Except.ok (text P a.2) : Except Err PyStr))).map fun a => keyword a.1 a.2) = (textAttrs P as).map Except.ok := by
    rw [textAttrs_eq]
    split
    · rename_i hc
      obtain ⟨h1, h2⟩ := hs hc
      rw [← h1] at h2 ⊢
      rw [List.map_map, List.map_map]
      refine List.map_congr_left fun a ha => ?_
      have := lookup_nodup (l := as.map fun a => (a.1, (Except.ok (text P a.2) : Except Err PyStr))) (by rw [List.map_map]; exact h2) (List.mem_map_of_mem (f := fun a => (a.1, (Except.ok (text P a.2) : Except Err PyStr))) ha)
      dsimp only [Function.comp_apply] at this ⊢
      rw [this]
      rfl
    · rw [List.map_map, List.map_map]
      rfl
  exact (congrArg (within (c.name ++ [40]) [41]) e).trans (within_ok _ _ _)

theorem repr_ok (P : Py) (x : V) (hp : Each Proper x) : repr P x = .ok (text P x) := by
  induction x using V.ind with
  | h x ih =>
    rw [each_iff] at hp
    have ih : ∀ y ∈ parts x, repr P y = .ok (text P y) := fun y hy => ih y hy (hp.2 y hy)
    have hp := hp.1
    cases x with
    | none => rfl
    | bool b => rfl
    | int i => rfl
    | float x => rfl
    | str s => rfl
    | bytes b => rfl
    | uuid n => rfl
    | list xs => rw [repr, reprs_ok (xs := xs) ih, within_ok, text]
    | tuple xs =>
      rcases xs with _ | ⟨x, _ | ⟨y, xs⟩⟩
      · rfl
      · rw [repr, reprs_ok (xs := _ :: _) ih, within_ok, text]; rfl
      · rw [repr, reprs_ok (xs := _ :: _) ih, within_ok, text] <;> simp
    | set xs =>
      cases xs with
      | nil => rfl
      | cons x xs => rw [repr, reprs_ok (xs := _ :: _) ih, within_ok, text] <;> simp
    | frozenset xs =>
      cases xs with
      | nil => rfl
      | cons x xs => rw [repr, reprs_ok (xs := _ :: _) ih, within_ok, text] <;> simp
    | dict kvs => rw [repr, reprPairs_ok (kvs := kvs) ih, within_ok, text]
    | frozenDict kvs => rw [repr, reprPairs_ok (kvs := kvs) ih, within_ok, text]
    | enum c m i => rfl
    | inst c as => rw [repr, reprInst_ok ih hp.2.2, text]

/-! ### The expression -/

mutual
def toExpr : V → Expr
  | .int i => if i < 0 then .neg (.const (.int i.natAbs)) else .const (.int i.natAbs)
  | .float x =>
    let a := x.toNat % 2 ^ 63
    if a > 0x7FF0000000000000 then .name (pyStr "nan")
    else
      let t := if a = 0x7FF0000000000000 then .name (pyStr "inf") else .const (.float (UInt64.ofNat a))
      if x.toNat ≥ 2 ^ 63 then .neg t else t
  | .uuid n => .call (pyStr "UUID") [(none, .const (.str (uuidText n)))]
  | .list xs => .list (toExprs xs)
  | .tuple xs => .tuple (toExprs xs)
  | .set [] => .call (pyStr "set") []
  | .set xs => .set (toExprs xs)
  | .frozenset [] => .call (pyStr "frozenset") []
  | .frozenset xs => .call (pyStr "frozenset") [(none, .set (toExprs xs))]
  | .dict kvs => .dict (toPairs kvs)
  | .frozenDict kvs => .dict (toPairs kvs)
  | .inst c as => .call c.name (toArgs as)
  | x => .const x

def toExprs : List V → List Expr
  | [] => []
  | x :: xs => toExpr x :: toExprs xs

def toPairs : List (V × V) → List (Expr × Expr)
  | [] => []
  | kv :: kvs => (toExpr kv.1, toExpr kv.2) :: toPairs kvs

def toArgs : List (PyStr × V) → List (Option PyStr × Expr)
  | [] => []
  | a :: as => (some a.1, toExpr a.2) :: toArgs as
end

mutual
/-- Is the text an expression, if `l` brackets may be opened? -/
def readable : Nat → V → Bool
  | l, .uuid _ => decide (l ≠ 0)
  | l, .list xs => decide (l ≠ 0) && readables (l - 1) xs
  | l, .tuple xs => decide (l ≠ 0) && readables (l - 1) xs
  | l, .set xs => decide (l ≠ 0) && readables (l - 1) xs
  | l, .frozenset [] => decide (l ≠ 0)
  | l, .frozenset xs => decide (l ≠ 0) && (decide (l - 1 ≠ 0) && readables (l - 1 - 1) xs)
  | l, .dict kvs => decide (l ≠ 0) && readablePairs (l - 1) kvs
  | l, .frozenDict kvs => decide (l ≠ 0) && readablePairs (l - 1) kvs
  | l, .inst _ as => decide (l ≠ 0) && readableAttrs (l - 1) as
  | _, .enum _ _ _ => false
  | _, _ => true

def readables : Nat → List V → Bool
  | _, [] => true
  | l, x :: xs => readable l x && readables l xs

def readablePairs : Nat → List (V × V) → Bool
  | _, [] => true
  | l, kv :: kvs => readable l kv.1 && (readable l kv.2 && readablePairs l kvs)

def readableAttrs : Nat → List (PyStr × V) → Bool
  | _, [] => true
  | l, a :: as => decide (a.1 ∉ Spec.Names.reserved) && (readable l a.2 && readableAttrs l as)
end

/-! ### Parsing -/

/-- The text is read as the expression, whatever follows it. -/
def Parses (P : Py) (x : V) : Prop :=
  ∀ n l rest, Stop rest → (text P x).length < n → expr P n l (text P x ++ rest) = if readable l x then some (toExpr x, rest) else none

/-- The first character of a text is none of these. -/
def Leads (s : PyStr) : Prop := ∃ c t, s = c :: t ∧ c ≠ 32 ∧ c ≠ 61 ∧ c ≠ 93 ∧ c ≠ 41 ∧ c ≠ 125

theorem expr_space (P : Py) (n l : Nat) (s : PyStr) : expr P n l (32 :: s) = expr P n l s := by
  cases n with
  | zero => rw [expr, expr]
  | succ n => rw [expr, expr, skip_space]

theorem items_space (P : Py) (n l close : Nat) (s : PyStr) : items P n l close (32 :: s) = items P n l close s := by
  cases n with
  | zero => rw [items, items]
  | succ n => rw [items, items, skip_space, expr_space]

theorem pairs_space (P : Py) (n l : Nat) (s : PyStr) : pairs P n l (32 :: s) = pairs P n l s := by
  cases n with
  | zero => rw [pairs, pairs]
  | succ n => rw [pairs, pairs, skip_space, expr_space]

theorem args_space (P : Py) (n l : Nat) (s : PyStr) : args P n l (32 :: s) = args P n l s := by
  cases n with
  | zero => rw [args, args]
  | succ n => rw [args, args, skip_space]

theorem Leads.skip {s : PyStr} (h : Leads s) (r : PyStr) : skip (s ++ r) = s ++ r := by
  obtain ⟨c, t, rfl, h, _⟩ := h
  exact skip_cons h

theorem Leads.head {s : PyStr} (h : Leads s) (r : PyStr) {c : Nat} (hc : c = 93 ∨ c = 41 ∨ c = 125) : (s ++ r).head? ≠ some c := by
  obtain ⟨d, t, rfl, h1, h2, h3, h4, h5⟩ := h
  intro e
  cases e
  omega

section
variable {P : Py}

theorem commas_cons (t : PyStr) (ts : List PyStr) : commas (t :: ts) = if ts = [] then t else t ++ [44, 32] ++ commas ts := by
  cases ts with
  | nil => rfl
  | cons u ts => rfl

theorem Stop.comma (s : PyStr) : Stop (44 :: s) := .cons (.inl rfl)

theorem items_ok (close : Nat) (hc : close = 93 ∨ close = 41 ∨ close = 125) (xs : List V) (hx : ∀ x ∈ xs, Parses P x ∧ Leads (text P x)) (n l : Nat) (rest : PyStr)
    (hn : (commas (textAll P xs)).length + 1 < n) :
    items P n l close (commas (textAll P xs) ++ close :: rest) = if readables l xs then some (toExprs xs, decide (2 ≤ xs.length), rest) else none := by
  induction xs generalizing n with
  | nil =>
    obtain ⟨n, rfl⟩ : ∃ k, n = k + 1 := ⟨n - 1, by omega⟩
    rw [items, show skip (commas (textAll P []) ++ close :: rest) = close :: rest from skip_cons (by omega), List.head?_cons, if_pos rfl]
    rfl
  | cons x xs ih =>
    obtain ⟨n, rfl⟩ : ∃ k, n = k + 1 := ⟨n - 1, by omega⟩
    obtain ⟨hp, hl⟩ := hx x List.mem_cons_self
    have ih := ih fun y hy => hx y (List.mem_cons_of_mem _ hy)
    rw [textAll, commas_cons] at hn ⊢
    cases xs with
    | nil =>
      rw [textAll, if_pos rfl] at hn ⊢
      rw [items, hl.skip, if_neg (hl.head _ hc), hp n l _ (.cons (by omega)) (by omega)]
      simp only [readables, Bool.and_true]
      cases readable l x with
      | false => rfl
      | true =>
        simp only [if_true]
        rw [skip_cons (by omega)]
        dsimp only
        rw [if_neg (by omega), if_pos rfl]
        rfl
    | cons y xs =>
      rw [if_neg (by rw [textAll]; simp)] at hn ⊢
      simp only [List.length_append, List.length_cons, List.length_nil] at hn
      rw [List.append_assoc, List.append_assoc, items, hl.skip, if_neg (hl.head _ hc), List.cons_append, hp n l _ (.comma _) (by omega), readables]
      cases readable l x with
      | false => rfl
      | true =>
        simp only [if_true, Bool.true_and]
        rw [skip_cons (by decide)]
        dsimp only
        rw [if_pos rfl, List.singleton_append, items_space, ih n (by omega)]
        cases readables l (y :: xs) with
        | false => rfl
        | true => simp [toExprs]

theorem pairs_ok (kvs : List (V × V)) (hx : ∀ kv ∈ kvs, (Parses P kv.1 ∧ Leads (text P kv.1)) ∧ Parses P kv.2) (n l : Nat) (rest : PyStr)
    (hn : (commas (textPairs P kvs)).length + 1 < n) :
    pairs P n l (commas (textPairs P kvs) ++ 125 :: rest) = if readablePairs l kvs then some (toPairs kvs, rest) else none := by
  induction kvs generalizing n with
  | nil =>
    obtain ⟨n, rfl⟩ : ∃ k, n = k + 1 := ⟨n - 1, by omega⟩
    rw [pairs, show skip (commas (textPairs P []) ++ 125 :: rest) = 125 :: rest from rfl, List.head?_cons, if_pos rfl]
    rfl
  | cons x xs ih =>
    obtain ⟨n, rfl⟩ : ∃ k, n = k + 1 := ⟨n - 1, by omega⟩
    obtain ⟨⟨hp, hl⟩, hv⟩ := hx x List.mem_cons_self
    have ih := ih fun y hy => hx y (List.mem_cons_of_mem _ hy)
    rw [textPairs, commas_cons] at hn ⊢
    have key : ∀ r, (text P x.1).length + (text P x.2).length < n → Stop r →
        pairs P (n + 1) l (text P x.1 ++ 58 :: 32 :: (text P x.2 ++ r)) = if readable l x.1 && readable l x.2 then
          (match skip r with
              | [] => none
              | c :: r =>
                if c = 44 then (pairs P n l r).map fun y => ((toExpr x.1, toExpr x.2) :: y.1, y.2)
                else if c = 125 then some ([(toExpr x.1, toExpr x.2)], r)
                else none) else none := by
      intro r hn hr
      rw [pairs, hl.skip, if_neg (hl.head _ (.inr (.inr rfl))), hp n l _ (.cons (by omega)) (by omega)]
      cases readable l x.1 with
      | false => rfl
      | true =>
        simp only [if_true, Bool.true_and]
        rw [skip_cons (by decide)]
        dsimp only
        rw [if_pos rfl, expr_space, hv n l _ hr (by omega)]
        cases readable l x.2 with
        | false => rfl
        | true =>
          simp only [if_true]
          cases skip r <;> rfl
    cases xs with
    | nil =>
      rw [textPairs, if_pos rfl] at hn ⊢
      simp only [List.length_append, List.length_cons, List.length_nil] at hn
      rw [List.append_assoc, List.append_assoc, List.cons_append, List.singleton_append, key _ (by omega) (.cons (by omega))]
      simp only [readablePairs, Bool.and_true]
      cases readable l x.1 && readable l x.2 <;> rfl
    | cons y xs =>
      rw [if_neg (by rw [textPairs]; simp)] at hn ⊢
      simp only [List.length_append, List.length_cons, List.length_nil] at hn
      rw [List.append_assoc, List.append_assoc, List.append_assoc, List.append_assoc, List.cons_append, List.singleton_append, List.cons_append, List.singleton_append, key _ (by omega) (.comma _), readablePairs, ← Bool.and_assoc]
      cases readable l x.1 && readable l x.2 with
      | false => rfl
      | true =>
        simp only [if_true, Bool.true_and]
        rw [skip_cons (by decide)]
        dsimp only
        rw [if_pos rfl, pairs_space, ih n (by omega)]
        cases readablePairs l (y :: xs) <;> rfl

theorem braces_dict (kvs : List (V × V)) (hx : ∀ kv ∈ kvs, (Parses P kv.1 ∧ Leads (text P kv.1)) ∧ Parses P kv.2) (n l : Nat) (rest : PyStr)
    (hn : (commas (textPairs P kvs)).length + 1 < n) :
    braces P n l (commas (textPairs P kvs) ++ 125 :: rest) = if readablePairs l kvs then some (.dict (toPairs kvs), rest) else none := by
  have h := pairs_ok kvs hx n l rest hn
  obtain ⟨n, rfl⟩ : ∃ k, n = k + 1 := ⟨n - 1, by omega⟩
  have : braces P (n + 1) l (commas (textPairs P kvs) ++ 125 :: rest) = (pairs P (n + 1) l (commas (textPairs P kvs) ++ 125 :: rest)).map fun r => (.dict r.1, r.2) := by
    cases kvs with
    | nil => rw [braces, pairs]; rfl
    | cons x xs =>
      obtain ⟨⟨hp, hl⟩, hv⟩ := hx x List.mem_cons_self
      rw [textPairs, commas_cons] at hn ⊢
      have e : ∃ r, (if textPairs P xs = [] then text P x.1 ++ [58, 32] ++ text P x.2 else text P x.1 ++ [58, 32] ++ text P x.2 ++ [44, 32] ++ commas (textPairs P xs)) ++ 125 :: rest = text P x.1 ++ 58 :: r := by
        split <;> simp
      have hn' : (text P x.1).length < n := by
        split at hn <;> simp only [List.length_append, List.length_cons, List.length_nil] at hn <;> omega
      obtain ⟨r, e⟩ := e
      rw [e, braces, pairs, hl.skip, if_neg (hl.head _ (.inr (.inr rfl))), if_neg (hl.head _ (.inr (.inr rfl))), hp n l _ (.cons (by omega)) hn']
      cases readable l x.1 with
      | false => rfl
      | true =>
        simp only [if_true]
        rw [skip_cons (by decide)]
        dsimp only
        rw [if_pos rfl, if_pos rfl]
        cases expr P n l r with
        | none => rfl
        | some ev =>
          obtain ⟨ev, r⟩ := ev
          dsimp only
          cases skip r with
          | nil => rfl
          | cons c r =>
            dsimp only
            split
            · rw [Option.map_map]; rfl
            · split <;> rfl
  rw [this, h]
  cases readablePairs l kvs <;> rfl

theorem braces_set (x : V) (xs : List V) (hx : ∀ y ∈ x :: xs, Parses P y ∧ Leads (text P y)) (n l : Nat) (rest : PyStr)
    (hn : (commas (textAll P (x :: xs))).length + 1 < n) :
    braces P n l (commas (textAll P (x :: xs)) ++ 125 :: rest) = if readables l (x :: xs) then some (.set (toExprs (x :: xs)), rest) else none := by
  have h := items_ok 125 (.inr (.inr rfl)) (x :: xs) hx n l rest hn
  obtain ⟨n, rfl⟩ : ∃ k, n = k + 1 := ⟨n - 1, by omega⟩
  have : braces P (n + 1) l (commas (textAll P (x :: xs)) ++ 125 :: rest) = (items P (n + 1) l 125 (commas (textAll P (x :: xs)) ++ 125 :: rest)).map fun r => (.set r.1, r.2.2) := by
    obtain ⟨hp, hl⟩ := hx x List.mem_cons_self
    rw [textAll, commas_cons] at hn ⊢
    have e : ∃ r, (if textAll P xs = [] then text P x else text P x ++ [44, 32] ++ commas (textAll P xs)) ++ 125 :: rest = text P x ++ r ∧ Stop r ∧ ∃ c t, r = c :: t ∧ c ≠ 58 ∧ c ≠ 32 := by
      split
      · exact ⟨_, rfl, .cons (by omega), _, _, rfl, by decide, by decide⟩
      · exact ⟨44 :: 32 :: (commas (textAll P xs) ++ 125 :: rest), by simp, .comma _, _, _, rfl, by decide, by decide⟩
    have hn' : (text P x).length < n := by
      split at hn
      · omega
      · simp only [List.length_append, List.length_cons, List.length_nil] at hn
        omega
    obtain ⟨r, e, hs, c, t, rfl, hc, hc'⟩ := e
    rw [e, braces, items, hl.skip, if_neg (hl.head _ (.inr (.inr rfl))), if_neg (hl.head _ (.inr (.inr rfl))), hp n l _ hs hn']
    cases readable l x with
    | false => rfl
    | true =>
      simp only [if_true]
      rw [skip_cons hc']
      dsimp only
      rw [if_neg hc]
      split
      · rw [Option.map_map]; rfl
      · split <;> rfl
  rw [this, h]
  cases readables l (x :: xs) <;> rfl

theorem args_ok (as : List (PyStr × V)) (hx : ∀ a ∈ as, Name a.1 ∧ Parses P a.2 ∧ Leads (text P a.2)) (n l : Nat) (rest : PyStr)
    (hn : (commas (textAttrs P as)).length + 1 < n) :
    args P n l (commas (textAttrs P as) ++ 41 :: rest) = if readableAttrs l as then some (toArgs as, rest) else none := by
  induction as generalizing n with
  | nil =>
    obtain ⟨n, rfl⟩ : ∃ k, n = k + 1 := ⟨n - 1, by omega⟩
    rw [args, show skip (commas (textAttrs P []) ++ 41 :: rest) = 41 :: rest from rfl, List.head?_cons, if_pos rfl]
    rfl
  | cons a as ih =>
    obtain ⟨n, rfl⟩ : ∃ k, n = k + 1 := ⟨n - 1, by omega⟩
    obtain ⟨hm, hp, hl⟩ := hx a List.mem_cons_self
    have ih := ih fun y hy => hx y (List.mem_cons_of_mem _ hy)
    rw [textAttrs, commas_cons] at hn ⊢
    have key : ∀ r, (text P a.2).length < n → Stop r →
        args P (n + 1) l (a.1 ++ 61 :: (text P a.2 ++ r)) = if decide (a.1 ∉ Spec.Names.reserved) && readable l a.2 then
          (match skip r with
              | [] => none
              | c :: r =>
                if c = 44 then (args P n l r).map fun y => ((some a.1, toExpr a.2) :: y.1, y.2)
                else if c = 41 then some ([(some a.1, toExpr a.2)], r)
                else none) else none := by
      intro r hn hr
      have hid := name_ident hm
      obtain ⟨c, t, hct, hc, ht⟩ := hm
      have hsk : skip (a.1 ++ 61 :: (text P a.2 ++ r)) = a.1 ++ 61 :: (text P a.2 ++ r) := by
        rw [hct]
        refine skip_cons ?_
        rintro rfl
        exact absurd hc (by decide)
      have hhd : (a.1 ++ 61 :: (text P a.2 ++ r)).head? = some c := by rw [hct]; rfl
      have hno : noIdent (61 :: (text P a.2 ++ r)) := by intro d hd; cases hd; rfl
      have h41 : (some c : Option Nat) ≠ some 41 := by
        intro e
        cases e
        exact absurd hc (by decide)
      have heq : ((text P a.2 ++ r).head? != some 61) = true := by
        obtain ⟨d, u, hd, h1, h2, _⟩ := hl
        rw [hd]
        simpa using h2
      rw [args, hsk, hhd, if_neg h41, takeWhile_ident hid hno, dropWhile_ident hid hno, skip_cons (by decide)]
      simp only [List.head?_cons, List.tail_cons, Option.any_some, hc, heq, BEq.rfl, Bool.and_self, Bool.true_and, if_true]
      by_cases hk : a.1 ∈ Spec.Names.reserved
      · simp [hk]
      · simp only [hk, decide_false, Bool.false_eq_true, if_false, not_false_eq_true, decide_true, Bool.true_and]
        rw [hp n l _ hr hn]
        cases readable l a.2 <;> rfl
    cases as with
    | nil =>
      rw [textAttrs, if_pos rfl] at hn ⊢
      simp only [List.length_append, List.length_cons, List.length_nil] at hn
      rw [List.append_assoc, List.append_assoc, List.singleton_append, key _ (by omega) (.cons (by omega))]
      simp only [readableAttrs, Bool.and_true]
      cases decide (a.1 ∉ Spec.Names.reserved) && readable l a.2 <;> rfl
    | cons y xs =>
      rw [if_neg (by rw [textAttrs]; simp)] at hn ⊢
      simp only [List.length_append, List.length_cons, List.length_nil] at hn
      rw [List.append_assoc, List.append_assoc, List.append_assoc, List.append_assoc, List.singleton_append, List.cons_append, List.singleton_append, key _ (by omega) (.comma _), readableAttrs, ← Bool.and_assoc]
      cases decide (a.1 ∉ Spec.Names.reserved) && readable l a.2 with
      | false => rfl
      | true =>
        simp only [if_true, Bool.true_and]
        rw [skip_cons (by decide)]
        dsimp only
        rw [if_pos rfl, args_space, ih n (by omega)]
        cases readableAttrs l (y :: xs) <;> rfl

/-- One positional argument -/
theorem args_one {s : PyStr} {e : Expr} {n l : Nat} {b : Bool} {rest : PyStr} (h : expr P n l (s ++ 41 :: rest) = if b then some (e, 41 :: rest) else none)
    (hs : ∃ c t, s = c :: t ∧ c ≠ 32 ∧ c ≠ 41 ∧ isStart c = false) : args P (n + 1) l (s ++ 41 :: rest) = if b then some ([(none, e)], rest) else none := by
  obtain ⟨c, t, rfl, h1, h2, h3⟩ := hs
  rw [args, List.cons_append, skip_cons h1, List.head?_cons, if_neg (by simpa using h2)]
  simp only [Option.any_some, h3, Bool.false_and, Bool.false_eq_true, if_false]
  rw [← List.cons_append, h]
  cases b <;> rfl

/-- A name, and what follows it is no quote -/
theorem expr_name {w : PyStr} (hw : Identifier w) (n l : Nat) {rest : PyStr} (hr : noIdent rest) (hq : rest.head? ≠ some 39 ∧ rest.head? ≠ some 34) :
    expr P (n + 1) l (w ++ rest) = match skip rest with
      | 40 :: r => if l = 0 then none else (args P n (l - 1) r).map fun r => (.call w r.1, r.2)
      | _ => some (.name w, rest) := by
  have hid := name_ident hw.1
  have htw := takeWhile_ident hid hr
  have hdw := dropWhile_ident hid hr
  have hk : constant w = none := by
    unfold constant
    have := hw.2
    rw [if_neg (by rintro rfl; exact this (by decide)), if_neg (by rintro rfl; exact this (by decide)), if_neg (by rintro rfl; exact this (by decide))]
  obtain ⟨c, t, hct, hc, _⟩ := hw.1
  have hres := hw.2
  rw [expr, show skip (w ++ rest) = c :: (t ++ rest) by
    rw [hct]
    exact skip_cons (by rintro rfl; exact absurd hc (by decide))]
  have hcc : c :: (t ++ rest) = w ++ rest := by rw [hct]; rfl
  dsimp only
  have hd : isDigit c = false := by
    cases hd : isDigit c
    · rfl
    · simp only [isDigit, isStart, Bool.and_eq_true, Bool.or_eq_true, decide_eq_true_eq, beq_iff_eq] at hd hc
      omega
  have hb : c ≠ 45 ∧ c ≠ 91 ∧ c ≠ 40 ∧ c ≠ 123 ∧ ¬ (c = 39 ∨ c = 34) := by
    simp only [isStart, Bool.and_eq_true, Bool.or_eq_true, decide_eq_true_eq, beq_iff_eq] at hc
    omega
  rw [if_neg hb.1, if_neg hb.2.1, if_neg hb.2.2.1, if_neg hb.2.2.2.1, if_neg hb.2.2.2.2, if_neg (by rw [hd]; exact Bool.false_ne_true), if_pos hc, hcc, htw, hdw, if_neg (fun h => hq.1 h.2), if_neg (fun h => hq.2 h.2), hk]
  dsimp only
  rw [if_neg hres]
  generalize skip rest = u
  cases u with
  | nil => rfl
  | cons d r =>
    by_cases h : d = 40
    · subst h; rfl
    · simp [h]

end

end Thrift.Repr
