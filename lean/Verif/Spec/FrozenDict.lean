import Verif.Model.FrozenDict
/-
Specification for `TFrozenDict`: what is assumed of `sorted` and of the operators.
-/

namespace Thrift.Spec.FrozenDict
open Thrift.FrozenDict

/-- What is assumed of Python's `sorted`. -/
structure Sorts (sort : SortFn) : Prop where
  /-- where `<` is a strict linear order (on elements that are `same`), the result is the same elements in ascending order -/
  linear : ∀ {α : Type} (lt : α → α → Except Exc Bool) (xs : List α),
    xs.Pairwise (fun a b => (lt a b = .ok true ∧ lt b a = .ok false) ∨ (lt a b = .ok false ∧ lt b a = .ok true)) →
    (∀ a ∈ xs, ∀ b ∈ xs, ∀ c ∈ xs, lt a b = .ok true → lt b c = .ok true → lt a c = .ok true) →
    ∃ ys, sort lt xs = .ok ys ∧ ys.Perm xs ∧ ys.Pairwise (fun a b => lt a b = .ok true)
  /-- at most one element: nothing is compared -/
  short : ∀ {α : Type} (lt : α → α → Except Exc Bool) (xs : List α), xs.length ≤ 1 → sort lt xs = .ok xs
  /-- two elements: the second is compared with the first -/
  two : ∀ {α : Type} (lt : α → α → Except Exc Bool) (x y : α), sort lt [x, y] = match lt y x with
    | .ok true => .ok [y, x]
    | .ok false => .ok [x, y]
    | .error e => .error e

/-- What is assumed of `==` and `hash`, for Python objects in general: `==` is an equivalence, and equal objects have equal hashes. -/
structure Lawful {K V : Type} (ops : Ops K V) : Prop where
  reflK : ∀ a, ops.eqK a a = true
  symmK : ∀ a b, ops.eqK a b = true → ops.eqK b a = true
  transK : ∀ a b c, ops.eqK a b = true → ops.eqK b c = true → ops.eqK a c = true
  reflV : ∀ a, ops.eqV a a = true
  hashK : ∀ a b, ops.eqK a b = true → ops.hashK a = ops.hashK b
  hashV : ∀ a b, ops.eqV a b = true → ops.hashV a = ops.hashV b

/-- The keys are linearly ordered by `<`, as numbers and strings are. -/
structure Linear {K V : Type} (ops : Ops K V) : Prop where
  tri : ∀ a b, ops.eqK a b = false → (ops.ltK a b = .ok true ∧ ops.ltK b a = .ok false) ∨ (ops.ltK a b = .ok false ∧ ops.ltK b a = .ok true)
  trans : ∀ a b c, ops.ltK a b = .ok true → ops.ltK b c = .ok true → ops.ltK a c = .ok true
  irrefl : ∀ a b, ops.eqK a b = true → ops.ltK a b = .ok false

/-- No two pairs have equal keys. -/
def Distinct {K V : Type} (ops : Ops K V) (ps : List (K × V)) : Prop := ps.Pairwise fun p q => ops.eqK p.1 q.1 = false

end Thrift.Spec.FrozenDict
