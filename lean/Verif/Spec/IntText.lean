import Verif.Model.Base
/-
The texts that `int(text, 16)` takes, from the grammar in the documentation of `int` and "Integer literals" of Python; of the digits and blanks only those of ASCII.
-/

namespace Thrift.Spec.IntText

def Blank (c : Nat) : Prop := (9 ≤ c ∧ c ≤ 13) ∨ c = 32

/-- A hexadecimal digit and its value -/
def HexDigit (c d : Nat) : Prop := (48 ≤ c ∧ c ≤ 57 ∧ d = c - 48) ∨ (97 ≤ c ∧ c ≤ 102 ∧ d = c - 97 + 10) ∨ (65 ≤ c ∧ c ≤ 70 ∧ d = c - 65 + 10)

/-- More digits, each of which may follow an underscore; those before them make `acc`, all of them `n`. -/
inductive More : (acc : Nat) → List Nat → (n : Nat) → Prop
  | done {acc} : More acc [] acc
  | digit {acc c d t n} : HexDigit c d → More (acc * 16 + d) t n → More acc (c :: t) n
  | underscore {acc c d t n} : HexDigit c d → More (acc * 16 + d) t n → More acc (95 :: c :: t) n

/-- A digit and more -/
def Digits (t : List Nat) (n : Nat) : Prop := ∃ c d r, t = c :: r ∧ HexDigit c d ∧ More d r n

/-- Nothing, `0x`, `0X`, `0x_` or `0X_` -/
def Prefix (p : List Nat) : Prop := p ∈ [[], [48, 120], [48, 88], [48, 120, 95], [48, 88, 95]]

/-- Nothing, `+` or `-`, for numbers that are `n` but for the sign -/
def Sign (s : List Nat) (n : Nat) (v : Int) : Prop := (s = [] ∧ v = n) ∨ (s = [43] ∧ v = n) ∨ (s = [45] ∧ v = -(n : Int))

/-- Blanks, a sign, a prefix, digits, blanks -/
def Numeral (t : List Nat) (v : Int) : Prop :=
  ∃ b s p ds b' n, t = b ++ (s ++ (p ++ (ds ++ b'))) ∧ (∀ c ∈ b, Blank c) ∧ Sign s n v ∧ Prefix p ∧ Digits ds n ∧ ∀ c ∈ b', Blank c

end Thrift.Spec.IntText
