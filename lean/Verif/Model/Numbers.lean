import Mathlib.Data.Rat.Floor
import Verif.Model.Json
/-
Constants and defaults of integer types, `bool` and `double`: the lexer of the IDL, `thriftl.ll` 253-274, `render_const_value`, `t_py_generator.cc`
620-636, `emit_double_as_string`, `t_generator.h` 319-341, and what Python reads.

Finite numbers of type `double` are rational numbers here, so that zero has no sign.
-/

namespace Thrift.Numbers

/-- The characters of a text in ASCII -/
def chars (b : Bytes) : PyStr := b.map UInt8.toNat

def inInt64 (i : Int) : Bool := -2 ^ 63 ≤ i && i < 2 ^ 63

/-- `{intconstant}`, thriftl.ll 253-260, where the pattern `[+-]?[0-9]+` matches. `none`: `integer_overflow`, the compiler stops. -/
def idlInt (text : Bytes) : Option Int :=
  match Json.pyInt (chars text) with
  | some i => if inInt64 i then some i else none
  | none => none

/-- The digits of `strtoll(…, 16)` -/
def hexVal (acc : Nat) : PyStr → Option Nat
  | [] => some acc
  | c :: cs =>
    match Json.hexVal c with
    | some v => hexVal (acc * 16 + v) cs
    | none => none

/-- `{hexconstant}`, thriftl.ll 262-274: the sign and the digits after `0x` -/
def idlHex (neg : Bool) (digits : Bytes) : Option Int :=
  match hexVal 0 (chars digits) with
  | some n => if n < 2 ^ 63 then some (if neg then -(n : Int) else n) else none
  | none => none

/-- `out << value->get_integer()`, cc 627 -/
def renderInt (i : Int) : Bytes := Json.intDigits i

/-- cc 621: `true` is `True` -/
def renderBool (i : Int) : Bool := 0 < i

/-- Rounding to the nearest integer, to the even one if there are two -/
def roundEven (q : ℚ) : ℤ :=
  if q - ⌊q⌋ < 1 / 2 then ⌊q⌋
  else if 1 / 2 < q - ⌊q⌋ then ⌊q⌋ + 1
  else if ⌊q⌋ % 2 = 0 then ⌊q⌋
  else ⌊q⌋ + 1

/-- `n` digits of a number smaller than `10 ^ n` -/
def padDigits : Nat → Nat → Bytes
  | 0, _ => []
  | n + 1, k => padDigits n (k / 10) ++ [UInt8.ofNat (48 + k % 10)]

/-- A finite number with `std::fixed` and the precision `digits10 + 1 = 16`. -/
def fixed16 (x : ℚ) : Bytes :=
  let n := (roundEven (|x| * 10 ^ 16)).toNat
  (if x < 0 then [45] else []) ++ Json.natDigits (n / 10 ^ 16) ++ [46] ++ padDigits 16 (n % 10 ^ 16)

inductive Dbl where
  | fin (x : ℚ)
  | inf (neg : Bool)

/-- `emit_double_as_string`, t_generator.h 319-341 -/
def renderDouble : Dbl → Bytes
  | .fin x => fixed16 x
  | .inf neg => (if neg then [45] else []) ++ [105, 110, 102]

/-! ### Python -/

/-- A decimal integer literal, after a `-` or not: leading zeros are a syntax error. -/
def decInteger : PyStr → Option Nat
  | [] => none
  | [c] => Json.digitsVal 0 [c]
  | c :: cs => if c = 48 then none else Json.digitsVal 0 (c :: cs)

def pyInteger : PyStr → Option Int
  | 45 :: cs => (decInteger cs).map fun n : Nat => -(n : Int)
  | cs => (decInteger cs).map fun n : Nat => (n : Int)

def isDigit (c : Nat) : Bool := 48 ≤ c && c ≤ 57

/-- A point float literal: the decimal number it denotes, which Python then rounds -/
def pointFloat (s : PyStr) : Option ℚ :=
  match s.span isDigit with
  | (_, []) => none
  | (a, c :: b) =>
    if c = 46 ∧ a ≠ [] ∧ b ≠ [] then
      match Json.digitsVal 0 (a ++ b) with
      | some n => some (n / 10 ^ b.length)
      | none => none
    else none

/-- The same, after a `-` or not. Anything else is not a number: `inf` is a name. -/
def pyFloat : PyStr → Option ℚ
  | 45 :: cs => (pointFloat cs).map fun q => -q
  | cs => pointFloat cs

end Thrift.Numbers
