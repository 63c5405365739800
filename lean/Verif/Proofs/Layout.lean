import Verif.Proofs.Pack
import Verif.Spec.Bytes
import Verif.Spec.WellTyped
/-
The model's packing agrees with the specified layouts.
-/

namespace Thrift
open Spec

@[simp] theorem beInt_length (n : Nat) (i : Int) : (beInt n i).length = n := by simp [beInt]
@[simp] theorem leInt_length (n : Nat) (i : Int) : (leInt n i).length = n := by simp [leInt]

theorem leInt_eq_reverse (n : Nat) (i : Int) : leInt n i = (beInt n i).reverse := by
  simp [leInt, beInt]

theorem beInt_succ (n : Nat) (i : Int) :
    beInt (n + 1) i = UInt8.ofNat (i / 256 ^ n % 256).toNat :: beInt n i := by
  simp [beInt, List.range_succ]

theorem beBytes_eq_beInt {n m x : Nat} {i : Int} (hx : (x : Int) = i % 256 ^ m) (h : n ≤ m) :
    beBytes n x = beInt n i := by
  induction n with
  | zero => rfl
  | succ n ih =>
    rw [beInt_succ, beBytes, ih (by omega)]
    congr 1
    apply UInt8.toNat_inj.mp
    simp only [UInt8.toNat_ofNat']
    have e1 : (256 : Int) ^ m = 256 ^ n * (256 * 256 ^ (m - n - 1)) := by
      have : m = n + (1 + (m - n - 1)) := by omega
      conv => lhs; rw [this]
      rw [Int.pow_add, Int.pow_add]
      simp
    have e2 : ((x / 256 ^ n : Nat) : Int) % 256 = i / 256 ^ n % 256 := by
      have h0 : (0 : Int) < 256 ^ n := Int.pow_pos (by omega)
      have h1 : i = i % 256 ^ m + 256 ^ n * (256 * 256 ^ (m - n - 1) * (i / 256 ^ m)) := by
        have := Int.emod_add_mul_ediv i (256 ^ m)
        rw [← Int.mul_assoc, ← e1]
        exact this.symm
      conv => rhs; rw [h1, Int.add_mul_ediv_left _ _ (by omega), Int.mul_assoc, Int.add_mul_emod_self_left,
        ← hx]
      simp
    have e3 : (0 : Int) ≤ i / 256 ^ n % 256 := Int.emod_nonneg _ (by omega)
    omega

theorem packS_eq {n : Nat} {i : Int} (h : InRange (8 * n) i) : packS n i = .ok (beInt n i) := by
  rw [packS_in_range h.1 h.2]
  congr 1
  apply beBytes_eq_beInt (m := n) _ (Nat.le_refl n)
  rw [Int.toNat_of_nonneg (Int.emod_nonneg _ (by
    have : (0 : Int) < 2 ^ (8 * n) := Int.pow_pos (by omega)
    omega))]
  congr 1
  rw [Int.pow_mul]
  rfl

theorem packS_out {n : Nat} {i : Int} (h : ¬ InRange (8 * n) i) : packS n i = .error .structError := by
  unfold packS
  rw [if_neg]
  exact h

theorem unpackS_beInt {n : Nat} {i : Int} (hn : 0 < n) (h : InRange (8 * n) i) :
    unpackS (beInt n i) = i := unpackS_packS hn (packS_eq h)

theorem inRange_mono {a b : Nat} {i : Int} (h : a ≤ b) (hi : InRange a i) : InRange b i := by
  unfold InRange at *
  have : (2 : Int) ^ (a - 1) ≤ 2 ^ (b - 1) := by
    have h2 : (2 : Nat) ^ (a - 1) ≤ 2 ^ (b - 1) := Nat.pow_le_pow_right (by omega) (by omega)
    exact_mod_cast h2
  omega

theorem inRange32_of_lt {n : Nat} (h : n < 2 ^ 31) : InRange 32 (n : Int) := by
  unfold InRange; omega

theorem beBytes8_eq (x : UInt64) : beBytes 8 x.toNat = beInt 8 x.toNat := by
  apply beBytes_eq_beInt (m := 8) _ (Nat.le_refl 8)
  have := x.toNat_lt
  omega

theorem scalar_iff (c : Nat) : isScalar c = true ↔ Scalar c := by
  unfold isScalar Scalar
  simp

theorem utf8EncodeChar_eq {c : Nat} (h : Scalar c) :
    utf8EncodeChar c = .ok (String.utf8EncodeChar (Char.ofNat c)) := by
  have hv : c.isValidChar := by unfold Scalar at h; unfold Nat.isValidChar; omega
  have hc : (Char.ofNat c).val.toNat = c := by
    unfold Char.ofNat
    rw [dif_pos hv]
    unfold Char.ofNatAux
    rfl
  unfold utf8EncodeChar String.utf8EncodeChar
  simp only [hc]
  rw [if_neg (by simp [(scalar_iff c).mpr h])]
  unfold Scalar at h
  have key : ∀ {a b : Nat}, a % 256 = b % 256 → UInt8.ofNat a = UInt8.ofNat b := by
    intro a b hab
    apply UInt8.toNat_inj.mp
    simpa using hab
  by_cases h1 : c < 0x80
  · rw [if_pos h1, if_pos (show c ≤ 127 by omega)]
  · rw [if_neg h1, if_neg (show ¬ c ≤ 127 by omega)]
    by_cases h2 : c < 0x800
    · rw [if_pos h2, if_pos (show c ≤ 2047 by omega),
        key (a := 0xC0 + c / 0x40) (b := c / 64 % 32 + 192) (by omega), Nat.add_comm 0x80]
    · rw [if_neg h2, if_neg (show ¬ c ≤ 2047 by omega)]
      by_cases h3 : c < 0x10000
      · rw [if_pos h3, if_pos (show c ≤ 65535 by omega),
          key (a := 0xE0 + c / 0x1000) (b := c / 4096 % 16 + 224) (by omega),
          Nat.add_comm 0x80 (c / 0x40 % 0x40), Nat.add_comm 0x80 (c % 0x40)]
      · rw [if_neg h3, if_neg (show ¬ c ≤ 65535 by omega),
          key (a := 0xF0 + c / 0x40000) (b := c / 262144 % 8 + 240) (by omega),
          Nat.add_comm 0x80 (c / 0x40 % 0x40), Nat.add_comm 0x80 (c % 0x40),
          Nat.add_comm 0x80 (c / 0x1000 % 0x40)]

theorem utf8Encode_eq {s : PyStr} (h : ∀ c ∈ s, Scalar c) : utf8Encode s = .ok (utf8 s) := by
  induction s with
  | nil => rfl
  | cons c cs ih =>
    rw [utf8Encode, utf8EncodeChar_eq (h c (by simp)), ih (fun c hc => h c (by simp [hc]))]
    simp [utf8]

theorem utf8_length {s : PyStr} (h : ∀ c ∈ s, Scalar c) : (utf8 s).length = utf8Len s := by
  induction s with
  | nil => rfl
  | cons c cs ih =>
    have ih := ih (fun c hc => h c (by simp [hc]))
    unfold utf8 utf8Len at *
    rw [List.flatMap_cons, List.length_append, ih, List.map_cons, List.sum_cons]
    congr 1
    have hs := h c (by simp)
    have hv : c.isValidChar := by unfold Scalar at hs; unfold Nat.isValidChar; omega
    have hc : (Char.ofNat c).val.toNat = c := by
      unfold Char.ofNat
      rw [dif_pos hv]
      unfold Char.ofNatAux
      rfl
    unfold String.utf8EncodeChar utf8Width
    simp only [hc]
    repeat' split
    all_goals first | rfl | (exfalso; omega)

theorem utf8Decode_utf8 {s : PyStr} (h : ∀ c ∈ s, Scalar c) : utf8Decode (utf8 s) = .ok s :=
  utf8Decode_encode (utf8Encode_eq h)

end Thrift
