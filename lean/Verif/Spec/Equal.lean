import Verif.Spec.Hints
import Verif.Model.Equal
/-
The objects that programs put in the members of generated classes.
-/

namespace Thrift.Spec.Equal
open Thrift.Hints Thrift.Spec.Hints

/-- The values of an integer type -/
def Range : Kind → Int → Prop
  | .i8, i => -2 ^ 7 ≤ i ∧ i < 2 ^ 7
  | .i16, i => -2 ^ 15 ≤ i ∧ i < 2 ^ 15
  | .i32, i => -2 ^ 31 ≤ i ∧ i < 2 ^ 31
  | .i64, i => -2 ^ 63 ≤ i ∧ i < 2 ^ 63

/-- Objects for values of a type of the IDL. Immutable lists must be tuples, and others lists; sets and dictionaries may be frozen or not. -/
inductive Usable (S : Schema) : Ty → Obj → Prop
  | bool (b) : Usable S .bool (.bool b)
  | int (k i) : Range k i → Usable S (.int k) (.int i)
  | double (d) : Usable S .double (.float d)
  | string (b) : Usable S .string (.str b)
  | binary (b) : Usable S .binary (.bytes b)
  | uuid (b) : Usable S .uuid (.uuid b)
  | enum (e i) : i ∈ S.enums e → Range .i32 i → Usable S (.enum e) (.member e i)
  | list (t xs) : (∀ x ∈ xs, Usable S t x) → Usable S (.list false t) (.list xs)
  | tuple (t xs) : (∀ x ∈ xs, Usable S t x) → Usable S (.list true t) (.tuple xs)
  | set (frozen t xs) : (∀ x ∈ xs, Usable S t x) → Usable S (.set frozen t) (.set xs)
  | frozenset (frozen t xs) : (∀ x ∈ xs, Usable S t x) → Usable S (.set frozen t) (.frozenset xs)
  | dict (frozen k v ps) : (∀ p ∈ ps, Usable S k p.1) → (∀ p ∈ ps, Usable S v p.2) → Usable S (.map frozen k v) (.dict ps)
  | frozendict (frozen k v ps) : (∀ p ∈ ps, Usable S k p.1) → (∀ p ∈ ps, Usable S v p.2) → Usable S (.map frozen k v) (.frozendict ps)
  | inst (s as) : as.length = (S.structs s).fields.length →
      (∀ (i : Nat) f a, (S.structs s).fields[i]? = some f → as[i]? = some a → a ≠ .none → Usable S f.ty a) → Usable S (.struct s) (.inst s as)
  | alias (t o) : Usable S t o → Usable S (.alias t) o

/-- IEEE 754: the exponent is all ones and the fraction is not zero. -/
def IsNaN (d : UInt64) : Prop := (d.toNat / 2 ^ 52) % 2 ^ 11 = 2 ^ 11 - 1 ∧ d.toNat % 2 ^ 52 ≠ 0

/-- There is no NaN in `o`. -/
def NoNaN (o : Obj) : Prop := ∀ d, Inside (.float d) o → ¬ IsNaN d

/-- No member with a default is `None` in any instance in `o`. -/
def Explicit (S : Schema) (o : Obj) : Prop :=
  ∀ s as, Inside (.inst s as) o → ∀ (i : Nat) f, (S.structs s).fields[i]? = some f → as[i]? = some .none → f.dflt = none

/-- The ids of the members of every struct are different. -/
def Distinct (S : Schema) : Prop := ∀ s, ((S.structs s).fields.map (·.fid)).Nodup

/-- No immutable class has an enum as a member. -/
def NoFrozenEnums (S : Schema) : Prop := ∀ s, (S.structs s).immutable = true → ∀ f ∈ (S.structs s).fields, ∀ e, f.ty ≠ .enum e

end Thrift.Spec.Equal
