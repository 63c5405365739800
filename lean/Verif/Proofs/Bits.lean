import Verif.Model.Bits
/-
Python's bitwise operators in terms of arithmetic.
-/

namespace Thrift

theorem natAndNot_mask (k a : Nat) : natAndNot (2 ^ k - 1) a = 2 ^ k - 1 - a % 2 ^ k := by
  have hlt : a % 2 ^ k < 2 ^ k := Nat.mod_lt _ (Nat.two_pow_pos k)
  unfold natAndNot
  rw [Nat.and_comm, Nat.and_two_pow_sub_one_eq_mod]
  apply Nat.eq_of_testBit_eq
  intro i
  rw [show 2 ^ k - 1 - a % 2 ^ k = 2 ^ k - (a % 2 ^ k + 1) by omega,
    Nat.testBit_two_pow_sub_succ hlt, Nat.testBit_xor, Nat.testBit_two_pow_sub_one]
  by_cases h : i < k
  · simp [h]
  · have : (a % 2 ^ k).testBit i = false :=
      Nat.testBit_lt_two_pow (Nat.lt_of_lt_of_le hlt (Nat.pow_le_pow_right (by omega) (by omega)))
    simp [h, this]

/-- `x & (2**k - 1) == x % 2**k` -/
theorem pyAnd_mask (x : Int) (k : Nat) : pyAnd x ((2 ^ k - 1 : Nat) : Int) = x % (2 ^ k : Nat) := by
  cases x with
  | ofNat a =>
    show Int.ofNat (a &&& (2 ^ k - 1)) = _
    rw [Nat.and_two_pow_sub_one_eq_mod]
    simp
  | negSucc a =>
    show Int.ofNat (natAndNot (2 ^ k - 1) a) = _
    rw [natAndNot_mask]
    have h1 := Nat.two_pow_pos k
    have hlt : a % 2 ^ k < 2 ^ k := Nat.mod_lt _ h1
    rw [Int.negSucc_emod _ (by exact_mod_cast h1)]
    simp only [Int.ofNat_eq_natCast]
    omega

theorem or_mask (k a : Nat) : a ||| (2 ^ k - 1) = a - a % 2 ^ k + (2 ^ k - 1) := by
  have h1 := Nat.two_pow_pos k
  have e : a - a % 2 ^ k = 2 ^ k * (a / 2 ^ k) := by
    have := Nat.div_add_mod a (2 ^ k); omega
  rw [e]
  apply Nat.eq_of_testBit_eq
  intro i
  rw [Nat.testBit_or, Nat.testBit_two_pow_sub_one,
    Nat.testBit_two_pow_mul_add _ (show 2 ^ k - 1 < 2 ^ k by omega)]
  by_cases h : i < k
  · simp [h]
  · simp only [h, decide_false, Bool.or_false, if_false, Nat.testBit_div_two_pow]
    rw [show i - k + k = i by omega]

/-- `x & -(2**k)` clears the low `k` bits. -/
theorem pyAnd_neg_mask (x : Int) (k : Nat) : pyAnd x (-((2 ^ k : Nat) : Int)) = x - x % (2 ^ k : Nat) := by
  have h1 := Nat.two_pow_pos k
  have e : -((2 ^ k : Nat) : Int) = Int.negSucc (2 ^ k - 1) := by omega
  rw [e]
  cases x with
  | ofNat a =>
    show Int.ofNat (natAndNot a (2 ^ k - 1)) = _
    unfold natAndNot
    rw [Nat.and_two_pow_sub_one_eq_mod]
    have hx : a ^^^ (a % 2 ^ k) = a - a % 2 ^ k := by
      have e : a - a % 2 ^ k = 2 ^ k * (a / 2 ^ k) := by
        have := Nat.div_add_mod a (2 ^ k); omega
      rw [e]
      apply Nat.eq_of_testBit_eq
      intro i
      rw [Nat.testBit_xor, Nat.testBit_mod_two_pow, Nat.testBit_two_pow_mul]
      by_cases h : i < k
      · have h' : ¬ (k ≤ i) := by omega
        simp [h, h']
      · simp only [h, decide_false, Bool.false_and, Bool.xor_false, Nat.testBit_div_two_pow]
        rw [show i - k + k = i by omega]
        simp; omega
    rw [hx]
    have := Nat.mod_le a (2 ^ k)
    simp only [Int.ofNat_eq_natCast]
    omega
  | negSucc a =>
    show Int.negSucc (a ||| (2 ^ k - 1)) = _
    rw [or_mask]
    have := Nat.mod_le a (2 ^ k)
    have hlt : a % 2 ^ k < 2 ^ k := Nat.mod_lt _ h1
    rw [Int.negSucc_emod _ (by exact_mod_cast h1)]
    omega

end Thrift
