import Verif.Spec.Rfc8259
/-
What the characters of a JSON string stand for, RFC 8259, section 7.
-/

namespace Thrift.Spec.Rfc8259

/-- The value of a hexadecimal digit. -/
def digitValue (x : UInt8) : Nat :=
  if x.toNat ≤ 57 then x.toNat - 48 else if x.toNat ≤ 70 then x.toNat - 55 else x.toNat - 87

/-- The value of hexadecimal digits, most significant first. -/
def hexValue (h : Bytes) : Nat := h.foldl (fun n x => n * 16 + digitValue x) 0

/-- Four hexadecimal digits with the value `c`. -/
def Hex4 (h : Bytes) (c : Nat) : Prop := h.length = 4 ∧ (∀ x ∈ h, HexDigit x) ∧ hexValue h = c

/-- The two-character escapes. -/
def escapes : List (UInt8 × Nat) :=
  [(0x22, 0x22), (0x5C, 0x5C), (0x2F, 0x2F), (0x62, 8), (0x66, 12), (0x6E, 10), (0x72, 13), (0x74, 9)]

/-- `Denotes b s`: the bytes `b` between the quotation marks of a JSON string stand for the text `s`. A
character may stand for itself or be escaped, in either of two ways; one beyond 0xFFFF may be escaped as
the two halves of its UTF-16 form. -/
inductive Denotes : Bytes → List Nat → Prop
  | nil : Denotes [] []
  | plain (c : Nat) (b : Bytes) (s : List Nat) : Scalar c → 0x20 ≤ c → c ≠ 0x22 → c ≠ 0x5C → Denotes b s →
    Denotes (utf8 [c] ++ b) (c :: s)
  | escaped (x : UInt8) (c : Nat) (b : Bytes) (s : List Nat) : (x, c) ∈ escapes → Denotes b s →
    Denotes (0x5C :: x :: b) (c :: s)
  | unicode (h : Bytes) (c : Nat) (b : Bytes) (s : List Nat) : Hex4 h c → ¬ (0xD800 ≤ c ∧ c ≤ 0xDFFF) →
    Denotes b s → Denotes (0x5C :: 0x75 :: (h ++ b)) (c :: s)
  | pair (h l : Bytes) (hi lo : Nat) (b : Bytes) (s : List Nat) : Hex4 h hi → Hex4 l lo →
    0xD800 ≤ hi ∧ hi ≤ 0xDBFF → 0xDC00 ≤ lo ∧ lo ≤ 0xDFFF → Denotes b s →
    Denotes (0x5C :: 0x75 :: (h ++ 0x5C :: 0x75 :: (l ++ b)))
      ((0x10000 + (hi - 0xD800) * 0x400 + (lo - 0xDC00)) :: s)

end Thrift.Spec.Rfc8259
