import Verif.Model.Base
/-
The alphabet of base64, RFC 4648, table 1.
-/

namespace Thrift.Spec.Base64

/-- Letters, digits, `+` and `/` -/
def Alphabet (c : Nat) : Prop := (65 ≤ c ∧ c ≤ 90) ∨ (97 ≤ c ∧ c ≤ 122) ∨ (48 ≤ c ∧ c ≤ 57) ∨ c = 43 ∨ c = 47

instance (c : Nat) : Decidable (Alphabet c) := inferInstanceAs (Decidable (_ ∨ _))

end Thrift.Spec.Base64
