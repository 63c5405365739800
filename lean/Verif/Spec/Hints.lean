import Verif.Model.Hints
/-
What annotations mean (the module `typing`, PEP 484), apart from how they come about.
-/

namespace Thrift.Spec.Hints
open Thrift.Hints

/-- The object is of the type that the annotation denotes. `bool` and the classes of enums are subclasses of `int`; where a `float` is expected an `int` will
do; `TFrozenDict` is a subclass of `dict`. -/
def Conforms : Hint → Obj → Prop
  | .none, o => o = .none
  | .str, o => ∃ b, o = .str b
  | .bytes, o => ∃ b, o = .bytes b
  | .uuid, o => ∃ b, o = .uuid b
  | .bool, o => ∃ b, o = .bool b
  | .int, o => (∃ i, o = .int i) ∨ (∃ b, o = .bool b) ∨ ∃ e i, o = .member e i
  | .float, o => (∃ d, o = .float d) ∨ (∃ i, o = .int i) ∨ (∃ b, o = .bool b) ∨ ∃ e i, o = .member e i
  | .cls s, o => ∃ as, o = .inst s as
  | .enum e, o => ∃ i, o = .member e i
  | .list h, o => ∃ xs, o = .list xs ∧ ∀ x ∈ xs, Conforms h x
  | .set h, o => ∃ xs, o = .set xs ∧ ∀ x ∈ xs, Conforms h x
  | .dict k v, o => ∃ ps, (o = .dict ps ∨ o = .frozendict ps) ∧ ∀ p ∈ ps, Conforms k p.1 ∧ Conforms v p.2
  | .optional h, o => o = .none ∨ Conforms h o

/-- The elements, keys, values and attributes -/
def parts : Obj → List Obj
  | .list xs | .tuple xs | .set xs | .frozenset xs => xs
  | .dict ps | .frozendict ps => ps.flatMap fun p => [p.1, p.2]
  | .inst _ as => as
  | _ => []

/-- `Inside x o`: `x` is `o`, or one finds it in `o`. -/
inductive Inside (x : Obj) : Obj → Prop
  | here : Inside x x
  | part {p o : Obj} : p ∈ parts o → Inside x p → Inside x o

/-- Every attribute of every instance in `o` is what its annotation says. -/
def Sound (S : Schema) (o : Obj) : Prop :=
  ∀ s as, Inside (.inst s as) o → ∀ (i : Nat) f a, (S.structs s).fields[i]? = some f → as[i]? = some a → Conforms (memberHint f) a

/-- `validate()` finds nothing to complain about in any instance in `o`: its required members are not `None`. -/
def Valid (S : Schema) (o : Obj) : Prop :=
  ∀ s as, Inside (.inst s as) o → ∀ (i : Nat) f, (S.structs s).fields[i]? = some f → f.required = true → as[i]? ≠ some .none

/-- There are no tuples and no frozen sets in `o`. -/
def Thawed (o : Obj) : Prop := ∀ x, Inside x o → (∀ xs, x ≠ .tuple xs) ∧ ∀ xs, x ≠ .frozenset xs

/-- The objects that Python programs use for values of a type of the IDL. -/
inductive Made (S : Schema) : Ty → Obj → Prop
  | bool (b) : Made S .bool (.bool b)
  | int (k i) : Made S (.int k) (.int i)
  | double (d) : Made S .double (.float d)
  | string (b) : Made S .string (.str b)
  | binary (b) : Made S .binary (.bytes b)
  | uuid (b) : Made S .uuid (.uuid b)
  | enum (e i) : i ∈ S.enums e → Made S (.enum e) (.member e i)
  | list (t xs) : (∀ x ∈ xs, Made S t x) → Made S (.list false t) (.list xs)
  | tuple (t xs) : (∀ x ∈ xs, Made S t x) → Made S (.list true t) (.tuple xs)
  | set (t xs) : (∀ x ∈ xs, Made S t x) → Made S (.set false t) (.set xs)
  | frozenset (t xs) : (∀ x ∈ xs, Made S t x) → Made S (.set true t) (.frozenset xs)
  | dict (k v ps) : (∀ p ∈ ps, Made S k p.1) → (∀ p ∈ ps, Made S v p.2) → Made S (.map false k v) (.dict ps)
  | frozendict (k v ps) : (∀ p ∈ ps, Made S k p.1) → (∀ p ∈ ps, Made S v p.2) → Made S (.map true k v) (.frozendict ps)
  | inst (s as) : as.length = (S.structs s).fields.length →
      (∀ (i : Nat) f a, (S.structs s).fields[i]? = some f → as[i]? = some a → a ≠ .none → Made S f.ty a) → Made S (.struct s) (.inst s as)
  | alias (t o) : Made S t o → Made S (.alias t) o

/-- The defaults of all members are values of their types. -/
def Defaults (S : Schema) : Prop := ∀ s, ∀ f ∈ (S.structs s).fields, ∀ d, f.dflt = some d → Made S f.ty d

/-- A type of members: not void. The compiler refuses others, cc 2366. -/
def Voidless : Ty → Prop
  | .void => False
  | .alias t => Voidless t
  | _ => True

/-- No member is void. -/
def NoVoids (S : Schema) : Prop := ∀ s, ∀ f ∈ (S.structs s).fields, Voidless f.ty

/-- There is no enum in the type (outside of structs). -/
def Enumless : Ty → Prop
  | .enum _ => False
  | .list _ t | .set _ t | .alias t => Enumless t
  | .map _ k v => Enumless k ∧ Enumless v
  | _ => True

/-- No member of any struct has an enum in its type. -/
def NoEnums (S : Schema) : Prop := ∀ s, ∀ f ∈ (S.structs s).fields, Enumless f.ty

end Thrift.Spec.Hints
