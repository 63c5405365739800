import Mathlib.Data.Rat.Floor
/-
Numbers of type `double` (IEEE 754 binary64), as rational numbers. Zero has no sign here.
-/

namespace Thrift.Spec.Numbers

/-- A finite number of type `double` -/
def IsDouble (x : ℚ) : Prop := ∃ m e : ℤ, |m| < 2 ^ 53 ∧ -1074 ≤ e ∧ e ≤ 971 ∧ x = m * 2 ^ e

/-- From this absolute value on numbers are rounded to infinity. -/
def limit : ℚ := 2 ^ 1024 - 2 ^ 970

/-- `x` is a number of type `double` nearest to `q`. -/
def Nearest (q x : ℚ) : Prop := IsDouble x ∧ ∀ y, IsDouble y → |q - x| ≤ |q - y|

/-- What `atof` and Python do with a decimal number: a nearest number, always the same one for numbers in the middle between two -/
def Rounds (rd : ℚ → ℚ) : Prop := ∀ q, |q| < limit → Nearest q (rd q)

end Thrift.Spec.Numbers
