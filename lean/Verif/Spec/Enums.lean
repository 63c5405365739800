import Verif.Model.Enums
/-
The values of an enum.
-/

namespace Thrift.Spec.Enums
open Thrift.Enums

/-- A name has the value that is given; if none is given, one more than the name before it, the first 0. The number is the value of the next name that is
given none. -/
inductive Values : Int → List Item → List (PyStr × Int) → Prop where
  | nil (next) : Values next [] []
  | given (next n v is vs) (h : Values (v + 1) is vs) : Values next (⟨n, some v⟩ :: is) ((n, v) :: vs)
  | next (next n is vs) (h : Values (next + 1) is vs) : Values next (⟨n, none⟩ :: is) ((n, next) :: vs)

/-- `n` is the last name with the value `v`. -/
def Last (vs : List (PyStr × Int)) (v : Int) (n : PyStr) : Prop := ∃ a b, vs = a ++ (n, v) :: b ∧ ∀ e ∈ b, e.2 ≠ v

end Thrift.Spec.Enums
