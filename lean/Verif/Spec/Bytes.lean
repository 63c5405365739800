import Verif.Spec.WellTyped
/-
Independent specification of byte layouts.
-/

namespace Thrift.Spec

/-- UTF-8 of a text, by Lean's own encoder for characters. -/
def utf8 (s : PyStr) : Bytes := s.flatMap fun c => String.utf8EncodeChar (Char.ofNat c)

/-- The bytes are valid UTF-8. -/
def IsUtf8 (b : Bytes) : Prop := ∃ x : PyStr, (∀ c ∈ x, Scalar c) ∧ utf8 x = b

/-- `n` bytes of the two's complement representation of `i`, most significant first. -/
def beInt (n : Nat) (i : Int) : Bytes :=
  (List.range n).reverse.map fun k => UInt8.ofNat (i / 256 ^ k % 256).toNat

/-- `n` bytes of the two's complement representation of `i`, least significant first. -/
def leInt (n : Nat) (i : Int) : Bytes :=
  (List.range n).map fun k => UInt8.ofNat (i / 256 ^ k % 256).toNat

end Thrift.Spec
