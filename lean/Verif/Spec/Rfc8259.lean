import Verif.Spec.Bytes
/-
The grammar of JSON, RFC 8259.
-/

namespace Thrift.Spec.Rfc8259

/-- RFC 8259, section 2: blanks. -/
def Blank (b : Bytes) : Prop := ∀ x ∈ b, x = 0x20 ∨ x = 0x09 ∨ x = 0x0A ∨ x = 0x0D

/-- A decimal digit. -/
def Digit (x : UInt8) : Prop := 48 ≤ x.toNat ∧ x.toNat ≤ 57

/-- One or more digits. -/
def Digits (b : Bytes) : Prop := b ≠ [] ∧ ∀ x ∈ b, Digit x

/-- Section 6: `int`, no leading zeros. -/
def Integral (b : Bytes) : Prop := Digits b ∧ (b = [48] ∨ b.head? ≠ some 48)

/-- Section 6: `frac`, if there is one. -/
def Fraction (b : Bytes) : Prop := b = [] ∨ ∃ d, b = 46 :: d ∧ Digits d

/-- Section 6: `exp`, if there is one. -/
def Exponent (b : Bytes) : Prop :=
  b = [] ∨ ∃ e sign d, b = e :: (sign ++ d) ∧ (e = 69 ∨ e = 101) ∧
    (sign = [] ∨ sign = [43] ∨ sign = [45]) ∧ Digits d

/-- Section 6: a number. -/
def Number (b : Bytes) : Prop :=
  ∃ minus int frac exp, b = minus ++ (int ++ (frac ++ exp)) ∧ (minus = [] ∨ minus = [45]) ∧
    Integral int ∧ Fraction frac ∧ Exponent exp

/-- A hexadecimal digit. -/
def HexDigit (x : UInt8) : Prop :=
  Digit x ∨ (65 ≤ x.toNat ∧ x.toNat ≤ 70) ∨ (97 ≤ x.toNat ∧ x.toNat ≤ 102)

/-- Section 7: the characters of a string, in UTF-8: any character except quotation mark, backslash and
the control characters stands for itself, the others are escaped. -/
inductive Chars : Bytes → Prop
  | nil : Chars []
  | plain (c : Nat) (b : Bytes) : Scalar c → 0x20 ≤ c → c ≠ 0x22 → c ≠ 0x5C → Chars b →
    Chars (utf8 [c] ++ b)
  | escaped (x : UInt8) (b : Bytes) : x ∈ [0x22, 0x5C, 0x2F, 0x62, 0x66, 0x6E, 0x72, 0x74] → Chars b →
    Chars (0x5C :: x :: b)
  | unicode (h : Bytes) (b : Bytes) : h.length = 4 → (∀ x ∈ h, HexDigit x) → Chars b →
    Chars (0x5C :: 0x75 :: (h ++ b))

mutual
/-- Section 3: a value. -/
inductive Value : Bytes → Prop
  | tru : Value [116, 114, 117, 101]
  | fls : Value [102, 97, 108, 115, 101]
  | null : Value [110, 117, 108, 108]
  | number (b : Bytes) : Number b → Value b
  | string (b : Bytes) : Chars b → Value (34 :: (b ++ [34]))
  | emptyArray (w : Bytes) : Blank w → Value (91 :: (w ++ [93]))
  | array (b : Bytes) : Items b → Value (91 :: (b ++ [93]))
  | emptyObject (w : Bytes) : Blank w → Value (123 :: (w ++ [125]))
  | object (b : Bytes) : Members b → Value (123 :: (b ++ [125]))
/-- Section 2: a JSON text, a value with blanks around it. -/
inductive Text : Bytes → Prop
  | mk (w v w' : Bytes) : Blank w → Value v → Blank w' → Text (w ++ (v ++ w'))
/-- Section 5: the elements of an array, with a comma between any two. -/
inductive Items : Bytes → Prop
  | one (b : Bytes) : Text b → Items b
  | more (b rest : Bytes) : Text b → Items rest → Items (b ++ 44 :: rest)
/-- Section 4: the members of an object, with a comma between any two. -/
inductive Members : Bytes → Prop
  | one (b : Bytes) : Member b → Members b
  | more (b rest : Bytes) : Member b → Members rest → Members (b ++ 44 :: rest)
/-- Section 4: a name and a value. -/
inductive Member : Bytes → Prop
  | mk (w k w' v : Bytes) : Blank w → Chars k → Blank w' → Text v →
    Member (w ++ (34 :: (k ++ 34 :: (w' ++ 58 :: v))))
end

end Thrift.Spec.Rfc8259
