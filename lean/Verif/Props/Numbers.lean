import Mathlib.Tactic.Linarith
import Mathlib.Tactic.NormNum
import Mathlib.Tactic.Ring
import Mathlib.Tactic.FieldSimp
import Mathlib.Data.Set.Finite.Lemmas
import Mathlib.Order.Interval.Finset.Defs
import Mathlib.Data.Int.Interval
import Verif.Model.Numbers
import Verif.Spec.Numbers
import Verif.Proofs.JsonText
/-
C79: constants of integer types, `bool` and `double` have in Python the value they have in the IDL.
-/

namespace Thrift.Numbers
open Spec Spec.Numbers

/-! ### Integers -/

theorem chars_natDigits (n : Nat) : Json.digitsVal 0 (chars (Json.natDigits n)) = some n := Json.digitsVal_natDigits n

theorem digit_range {b : UInt8} (h : Rfc8259.Digit b) : 48 ≤ b.toNat ∧ b.toNat ≤ 57 := by
  unfold Rfc8259.Digit at h
  simpa using h

theorem chars_digit (n : Nat) : ∀ c ∈ chars (Json.natDigits n), 48 ≤ c ∧ c ≤ 57 := by
  intro c hc
  unfold chars at hc
  rw [List.mem_map] at hc
  obtain ⟨b, hb, rfl⟩ := hc
  exact digit_range (Json.natDigits_digit n b hb)

theorem chars_ne (n : Nat) : chars (Json.natDigits n) ≠ [] := by
  unfold chars
  rw [Ne, List.map_eq_nil_iff]
  exact Json.natDigits_ne n

theorem decInteger_natDigits (n : Nat) : decInteger (chars (Json.natDigits n)) = some n := by
  have h := chars_natDigits n
  have h48 : 0 < n → (chars (Json.natDigits n)).head? ≠ some 48 := by
    intro hn h0
    unfold chars at h0
    rw [List.head?_map] at h0
    cases e : (Json.natDigits n).head? with
    | none => rw [e] at h0; cases h0
    | some b =>
      rw [e] at h0
      have : b = 48 := by
        simp only [Option.map_some, Option.some.injEq] at h0
        exact UInt8.toNat_inj.1 h0
      rw [this] at e
      exact Json.natDigits_head n hn e
  by_cases hn : n = 0
  · subst hn
    rw [Json.natDigits_zero] at h ⊢
    exact h
  · have h48 := h48 (by omega)
    generalize chars (Json.natDigits n) = s at *
    match s with
    | [] => cases h; omega
    | [c] => exact h
    | c :: d :: cs =>
      rw [decInteger]
      · rw [if_neg (by rintro rfl; exact h48 rfl), h]
      · simp

/-- An integer constant has in Python the value it has in the compiler. -/
theorem int_const (i : Int) : pyInteger (chars (renderInt i)) = some i := by
  unfold renderInt Json.intDigits
  split
  · show (decInteger (chars (Json.natDigits i.natAbs))).map _ = _
    rw [decInteger_natDigits, Option.map_some]
    congr 1
    omega
  · have hd := chars_digit i.natAbs
    have hv := decInteger_natDigits i.natAbs
    generalize chars (Json.natDigits i.natAbs) = s at *
    rw [pyInteger]
    · rw [hv, Option.map_some]
      congr 1
      omega
    · rintro cs rfl
      have := hd 45 (by simp)
      omega

/-- The compiler reads every integer of 64 bits, and reports the others. -/
theorem idl_int (i : Int) : idlInt (renderInt i) = if -2 ^ 63 ≤ i ∧ i < 2 ^ 63 then some i else none := by
  have h : Json.pyInt (chars (renderInt i)) = some i := Json.pyInt_intDigits i
  rw [idlInt, h]
  dsimp only
  simp only [inInt64, Bool.and_eq_true, decide_eq_true_eq]

example : idlInt [45, 56] = some (-8) ∧ idlInt [57, 50, 50, 51, 51, 55, 50, 48, 51, 54, 56, 53, 52, 55, 55, 53, 56, 48, 56] = none := by decide +kernel

-- 300 as a constant
example : chars (renderInt 300) = [51, 48, 48] ∧ pyInteger [51, 48, 48] = some 300 := by decide +kernel

/-- A hexadecimal constant denotes what its digits say, with either sign. -/
theorem idl_hex (neg : Bool) (digits : Bytes) (n : Nat) (h : hexVal 0 (chars digits) = some n) (hn : n < 2 ^ 63) :
    idlHex neg digits = some (if neg then -(n : Int) else n) := by
  rw [idlHex, h]
  dsimp only
  rw [if_pos hn]

/-! ### `bool` -/

/-- `true` (1) and `false` (0) are `True` and `False`. -/
theorem bool_const (b : Bool) : renderBool (if b then 1 else 0) = b := by cases b <;> rfl

/-- Negative numbers are accepted for `bool`, and become `False`; positive ones become `True`. -/
theorem bool_numbers (i : Int) : renderBool i = true ↔ 0 < i := by unfold renderBool; exact decide_eq_true_iff

theorem bool_negative : ∃ i : Int, i ≠ 0 ∧ renderBool i = false := ⟨-1, by decide, rfl⟩

/-! ### `double` -/

theorem roundEven_near (q : ℚ) : |q - roundEven q| ≤ 1 / 2 := by
  have h0 := Int.floor_le q
  have h1 := Int.lt_floor_add_one q
  unfold roundEven
  rw [abs_le]
  split
  · constructor <;> linarith
  · split
    · push_cast
      constructor <;> linarith
    · split
      · constructor <;> linarith
      · push_cast
        constructor <;> linarith

theorem roundEven_int {q : ℚ} {i : ℤ} (h : |q - i| < 1 / 2) : roundEven q = i := by
  have h1 := roundEven_near q
  rw [abs_lt] at h
  rw [abs_le] at h1
  have h2 : ((roundEven q : ℤ) : ℚ) < i + 1 := by linarith
  have h3 : (i : ℚ) < (roundEven q : ℤ) + 1 := by linarith
  have h2 : roundEven q < i + 1 := by exact_mod_cast h2
  have h3 : i < roundEven q + 1 := by exact_mod_cast h3
  omega

theorem roundEven_nonneg {q : ℚ} (h : 0 ≤ q) : 0 ≤ roundEven q := by
  have h1 := roundEven_near q
  obtain ⟨h1, h2⟩ := abs_le.1 h1
  have h3 : ((-1 : ℤ) : ℚ) < roundEven q := by push_cast; linarith
  have h3 : (-1 : ℤ) < roundEven q := by exact_mod_cast h3
  omega

theorem roundEven_half {q : ℚ} (h0 : 0 ≤ q) (h : q ≤ 1 / 2) : roundEven q = 0 := by
  have : ⌊q⌋ = 0 := by
    rw [Int.floor_eq_iff]
    constructor
    · simpa using h0
    · push_cast; linarith
  unfold roundEven
  rw [this]
  split
  · rfl
  · rw [if_neg (by push_cast; linarith), if_pos (by decide)]

theorem padDigits_length : ∀ n k, (padDigits n k).length = n
  | 0, _ => rfl
  | n + 1, k => by rw [padDigits, List.length_append, padDigits_length n]; rfl

theorem padDigits_val : ∀ n k acc, k < 10 ^ n → Json.digitsVal acc (chars (padDigits n k)) = some (acc * 10 ^ n + k)
  | 0, k, acc, h => by
    have : k = 0 := by simpa using h
    subst this
    simp [padDigits, chars, Json.digitsVal]
  | n + 1, k, acc, h => by
    have hk : k / 10 < 10 ^ n := by rw [Nat.div_lt_iff_lt_mul (by decide)]; rwa [Nat.pow_succ] at h
    have ih := padDigits_val n (k / 10) acc hk
    unfold chars at ih ⊢
    rw [padDigits, List.map_append, Json.digitsVal_append, ih]
    simp only [Option.bind_some, List.map_cons, List.map_nil, Json.digitsVal, UInt8.toNat_ofNat']
    rw [if_pos (by omega)]
    congr 1
    rw [show acc * 10 ^ (n + 1) = acc * 10 ^ n * 10 by ring]
    omega

theorem span_digits {a b : PyStr} (h : ∀ c ∈ a, isDigit c) : (a ++ 46 :: b).span isDigit = (a, 46 :: b) := by
  rw [List.span_eq_takeWhile_dropWhile, List.takeWhile_append_of_pos (by simpa using h), List.dropWhile_append_of_pos (by simpa using h)]
  simp [isDigit]

theorem pointFloat_fixed (n : Nat) :
    pointFloat (chars (Json.natDigits (n / 10 ^ 16) ++ [46] ++ padDigits 16 (n % 10 ^ 16))) = some ((n : ℚ) / 10 ^ 16) := by
  have e : chars (Json.natDigits (n / 10 ^ 16) ++ [46] ++ padDigits 16 (n % 10 ^ 16)) =
      chars (Json.natDigits (n / 10 ^ 16)) ++ 46 :: chars (padDigits 16 (n % 10 ^ 16)) := by simp [chars]
  have hl : (chars (padDigits 16 (n % 10 ^ 16))).length = 16 := by unfold chars; rw [List.length_map, padDigits_length]
  rw [e, pointFloat, span_digits]
  · dsimp only
    rw [if_pos ⟨rfl, chars_ne _, fun h => by rw [h] at hl; cases hl⟩, Json.digitsVal_append, chars_natDigits, Option.bind_some,
      padDigits_val _ _ _ (Nat.mod_lt _ (by decide))]
    dsimp only
    rw [hl, Nat.mul_comm, Nat.div_add_mod]
  · intro c hc
    have := chars_digit _ c hc
    simpa [isDigit] using this

/-- What Python reads from a rendered number: a multiple of `10 ^ -16` -/
theorem pyFloat_fixed (x : ℚ) :
    pyFloat (chars (fixed16 x)) = some ((if x < 0 then -1 else 1 : ℚ) * roundEven (|x| * 10 ^ 16) / 10 ^ 16) := by
  have h0 : 0 ≤ roundEven (|x| * 10 ^ 16) := roundEven_nonneg (mul_nonneg (abs_nonneg x) (by norm_num))
  have hN : ((roundEven (|x| * 10 ^ 16)).toNat : ℚ) = roundEven (|x| * 10 ^ 16) := by
    have : ((roundEven (|x| * 10 ^ 16)).toNat : ℤ) = roundEven (|x| * 10 ^ 16) := Int.toNat_of_nonneg h0
    exact_mod_cast this
  unfold fixed16
  dsimp only
  have hp := pointFloat_fixed (roundEven (|x| * 10 ^ 16)).toNat
  split
  · rw [show chars ([45] ++ Json.natDigits ((roundEven (|x| * 10 ^ 16)).toNat / 10 ^ 16) ++ [46] ++ padDigits 16 ((roundEven (|x| * 10 ^ 16)).toNat % 10 ^ 16)) =
      45 :: chars (Json.natDigits ((roundEven (|x| * 10 ^ 16)).toNat / 10 ^ 16) ++ [46] ++ padDigits 16 ((roundEven (|x| * 10 ^ 16)).toNat % 10 ^ 16)) from by simp [chars]]
    rw [pyFloat, hp, Option.map_some, hN]
    congr 1
    ring
  · rw [List.nil_append]
    have hd := chars_digit ((roundEven (|x| * 10 ^ 16)).toNat / 10 ^ 16)
    have hne := chars_ne ((roundEven (|x| * 10 ^ 16)).toNat / 10 ^ 16)
    have e : chars (Json.natDigits ((roundEven (|x| * 10 ^ 16)).toNat / 10 ^ 16) ++ [46] ++ padDigits 16 ((roundEven (|x| * 10 ^ 16)).toNat % 10 ^ 16)) =
      chars (Json.natDigits ((roundEven (|x| * 10 ^ 16)).toNat / 10 ^ 16)) ++ 46 :: chars (padDigits 16 ((roundEven (|x| * 10 ^ 16)).toNat % 10 ^ 16)) := by
      simp [chars]
    rw [pyFloat, hp, hN]
    · congr 1
      ring
    · intro cs h
      rw [e] at h
      cases e2 : chars (Json.natDigits ((roundEven (|x| * 10 ^ 16)).toNat / 10 ^ 16)) with
      | nil => exact hne e2
      | cons c s =>
        rw [e2] at h
        injection h with h
        have := hd c (by rw [e2]; simp)
        omega

/-- The error of what is written -/
theorem fixed_error (x : ℚ) : |x - (if x < 0 then -1 else 1) * roundEven (|x| * 10 ^ 16) / 10 ^ 16| ≤ 1 / 2 / 10 ^ 16 := by
  have h1 := roundEven_near (|x| * 10 ^ 16)
  obtain ⟨h1, h2⟩ := abs_le.1 h1
  rw [abs_le]
  split
  · rename_i h
    rw [abs_of_neg h] at h1 h2 ⊢
    constructor <;> linarith
  · rename_i h
    rw [abs_of_nonneg (not_lt.1 h)] at h1 h2 ⊢
    constructor <;> linarith

/-- Every finite constant of type `double` becomes a literal that denotes it up to half a unit of the 16th decimal. -/
theorem double_error (x : ℚ) : ∃ d, pyFloat (chars (renderDouble (.fin x))) = some d ∧ |x - d| ≤ 1 / 2 / 10 ^ 16 :=
  ⟨_, pyFloat_fixed x, fixed_error x⟩

theorem isDouble_half : IsDouble (1 / 2) := ⟨1, -1, by norm_num, by norm_num, by norm_num, by norm_num⟩

theorem isDouble_neg {x : ℚ} (h : IsDouble x) : IsDouble (-x) := by
  obtain ⟨m, e, h1, h2, h3, rfl⟩ := h
  exact ⟨-m, e, by rwa [abs_neg], h2, h3, by push_cast; ring⟩

/-- Numbers from one half on are multiples of `2 ^ -53`. -/
theorem large_multiple {x : ℚ} (h : IsDouble x) (hx : 1 / 2 ≤ |x|) : ∃ k : ℤ, x * 2 ^ 53 = k := by
  obtain ⟨m, e, h1, h2, h3, rfl⟩ := h
  by_cases he : -53 ≤ e
  · refine ⟨m * 2 ^ (e + 53).toNat, ?_⟩
    have : ((2 : ℚ) ^ (e + 53).toNat) = 2 ^ e * 2 ^ 53 := by
      rw [← zpow_natCast, Int.toNat_of_nonneg (by omega), zpow_add₀ (by norm_num)]
      norm_num
    push_cast
    rw [this]
    ring
  · exfalso
    rw [abs_mul, abs_of_pos (a := (2 : ℚ) ^ e) (zpow_pos (by norm_num) e)] at hx
    have hm : |(m : ℚ)| < 2 ^ 53 := by exact_mod_cast h1
    have he' : (2 : ℚ) ^ e ≤ 2 ^ (-54 : ℤ) := zpow_le_zpow_right₀ (by norm_num) (by omega)
    have : |(m : ℚ)| * 2 ^ e < 2 ^ 53 * 2 ^ (-54 : ℤ) := by
      calc |(m : ℚ)| * 2 ^ e ≤ |(m : ℚ)| * 2 ^ (-54 : ℤ) := mul_le_mul_of_nonneg_left he' (abs_nonneg _)
        _ < 2 ^ 53 * 2 ^ (-54 : ℤ) := mul_lt_mul_of_pos_right hm (by positivity)
    norm_num at this hx
    linarith

/-- Another number of type `double` is further away than half a unit of the 16th decimal, or one half is written exactly. -/
theorem large_far {x y d : ℚ} (hx : IsDouble x) (hy : IsDouble y) (hne : y ≠ x) (h : 1 / 2 ≤ |x|) (hd : |x - d| ≤ 1 / 2 / 10 ^ 16)
    (hhalf : |x| = 1 / 2 → d = x) : |d - x| < |d - y| := by
  by_cases e : |x| = 1 / 2
  · rw [hhalf e, sub_self, abs_zero, abs_pos, sub_ne_zero]
    exact hne.symm
  · have hgt : 1 / 2 < |x| := lt_of_le_of_ne h (Ne.symm e)
    have key : 1 / 2 ^ 53 ≤ |x - y| := by
      obtain ⟨k, hk⟩ := large_multiple hx h
      by_cases hy' : 1 / 2 ≤ |y|
      · obtain ⟨l, hl⟩ := large_multiple hy hy'
        have hkl : k ≠ l := by
          rintro rfl
          rw [← hk] at hl
          exact hne (mul_right_cancel₀ (by norm_num) hl)
        have h1 : (1 : ℚ) ≤ |((k - l : ℤ) : ℚ)| := by
          have : (1 : ℤ) ≤ |k - l| := Int.one_le_abs (sub_ne_zero.2 hkl)
          exact_mod_cast this
        have h2 : ((k - l : ℤ) : ℚ) = (x - y) * 2 ^ 53 := by push_cast; rw [← hk, ← hl]; ring
        rw [h2, abs_mul, abs_of_pos (a := (2 : ℚ) ^ 53) (by norm_num)] at h1
        rw [div_le_iff₀ (by norm_num)]
        exact h1
      · have hk' : |(k : ℚ)| = |x| * 2 ^ 53 := by rw [← hk, abs_mul, abs_of_pos (a := (2 : ℚ) ^ 53) (by norm_num)]
        have h1 : ((2 ^ 52 : ℤ) : ℚ) < ((|k| : ℤ) : ℚ) := by
          push_cast
          rw [hk']
          linarith
        have h1 : (2 ^ 52 : ℤ) < |k| := by exact_mod_cast h1
        have h2 : (2 ^ 52 + 1 : ℤ) ≤ |k| := by omega
        have h2 : ((2 ^ 52 + 1 : ℤ) : ℚ) ≤ ((|k| : ℤ) : ℚ) := by exact_mod_cast h2
        push_cast at h2
        rw [hk'] at h2
        have h3 : |x| - |y| ≤ |x - y| := abs_sub_abs_le_abs_sub x y
        rw [not_le] at hy'
        linarith
    have h3 : |x - y| ≤ |x - d| + |d - y| := abs_sub_le x d y
    rw [abs_sub_comm d x]
    linarith

theorem fixed_half {x : ℚ} (h : |x| = 1 / 2) : ((if x < 0 then -1 else 1 : ℚ) * roundEven (|x| * 10 ^ 16) / 10 ^ 16) = x := by
  rw [h, roundEven_int (i := 5 * 10 ^ 15) (by norm_num)]
  rcases abs_eq (by norm_num : (0 : ℚ) ≤ 1 / 2) |>.1 h with rfl | rfl
  · norm_num
  · norm_num

theorem one_lt_pow970 : (1 : ℚ) < 2 ^ 970 := one_lt_pow₀ (by norm_num) (by decide)

theorem limit_eq : limit = (2 ^ 54 - 1) * 2 ^ 970 := by
  unfold limit
  rw [show (1024 : ℕ) = 54 + 970 from rfl, pow_add]
  generalize (2 : ℚ) ^ 970 = P
  ring

theorem isDouble_le {x : ℚ} (h : IsDouble x) : |x| + 1 < limit := by
  obtain ⟨m, e, h1, h2, h3, rfl⟩ := h
  have hm : |m| ≤ 2 ^ 53 - 1 := by omega
  have hm : |(m : ℚ)| ≤ 2 ^ 53 - 1 := by exact_mod_cast hm
  have he : (2 : ℚ) ^ e ≤ 2 ^ (971 : ℤ) := zpow_le_zpow_right₀ (by norm_num) h3
  rw [abs_mul, abs_of_pos (a := (2 : ℚ) ^ e) (zpow_pos (by norm_num) e)]
  have h4 : |(m : ℚ)| * 2 ^ e ≤ (2 ^ 53 - 1) * 2 ^ (971 : ℤ) :=
    mul_le_mul hm he (le_of_lt (zpow_pos (by norm_num) e)) (by norm_num)
  have h5 : ((2 : ℚ) ^ 53 - 1) * 2 ^ (971 : ℤ) + 1 < limit := by
    have h6 : (2 : ℚ) ^ (971 : ℤ) = 2 * 2 ^ 970 := by
      rw [show (971 : ℤ) = ((971 : ℕ) : ℤ) from rfl, zpow_natCast, pow_succ]
      generalize (2 : ℚ) ^ 970 = P
      ring
    rw [limit_eq, h6]
    have := one_lt_pow970
    generalize (2 : ℚ) ^ 970 = P at this
    linarith
  linarith

/-- A constant of type `double` of absolute value at least one half: the literal denotes a number to which the constant is strictly nearer than every
other number of type `double`, and which is not rounded to infinity. So Python reads the constant. -/
theorem double_large {x : ℚ} (hx : IsDouble x) (h : 1 / 2 ≤ |x|) :
    ∃ d, pyFloat (chars (renderDouble (.fin x))) = some d ∧ |d| < limit ∧ ∀ y, IsDouble y → y ≠ x → |d - x| < |d - y| := by
  have he := fixed_error x
  refine ⟨_, pyFloat_fixed x, ?_, fun y hy hne => large_far hx hy hne h he fixed_half⟩
  have h1 := isDouble_le hx
  generalize ((if x < 0 then -1 else 1 : ℚ) * roundEven (|x| * 10 ^ 16) / 10 ^ 16) = d at he
  have h2 : |d| - |x| ≤ |d - x| := abs_sub_abs_le_abs_sub d x
  rw [abs_sub_comm] at h2
  have : (1 : ℚ) / 2 / 10 ^ 16 < 1 := by norm_num
  linarith

theorem nearest_unique {d x z : ℚ} (hx : IsDouble x) (h : ∀ y, IsDouble y → y ≠ x → |d - x| < |d - y|) (hz : Nearest d z) : z = x := by
  by_contra hne
  have h1 := h z hz.1 hne
  have h2 := hz.2 x hx
  linarith

/-- A number of absolute value at most one half has a number of type `double` within `2 ^ -55`. -/
theorem small_near {q : ℚ} (h : |q| ≤ 1 / 2) : ∃ y, IsDouble y ∧ |q - y| ≤ 1 / 2 ^ 55 := by
  have hr := abs_sub_round (q * 2 ^ 54)
  have hb : |(round (q * 2 ^ 54) : ℤ)| ≤ 2 ^ 53 := by
    have h1 : |q * 2 ^ 54| ≤ 2 ^ 53 := by
      rw [abs_mul, abs_of_pos (a := (2 : ℚ) ^ 54) (by norm_num)]
      linarith
    have h2 : |((round (q * 2 ^ 54) : ℤ) : ℚ)| - |q * 2 ^ 54| ≤ |(round (q * 2 ^ 54) : ℤ) - q * 2 ^ 54| := abs_sub_abs_le_abs_sub _ _
    rw [abs_sub_comm] at h2
    have h4 : |((round (q * 2 ^ 54) : ℤ) : ℚ)| < 2 ^ 53 + 1 := by
      generalize |((round (q * 2 ^ 54) : ℤ) : ℚ)| = a at *
      generalize |q * 2 ^ 54| = b at *
      generalize |q * 2 ^ 54 - ((round (q * 2 ^ 54) : ℤ) : ℚ)| = c at *
      linarith
    have h3 : ((|round (q * 2 ^ 54)| : ℤ) : ℚ) < ((2 ^ 53 + 1 : ℤ) : ℚ) := by
      rw [Int.cast_abs]
      refine lt_of_lt_of_eq h4 ?_
      norm_num
    have h3 : |round (q * 2 ^ 54)| < (2 ^ 53 + 1 : ℤ) := by exact_mod_cast h3
    omega
  generalize round (q * 2 ^ 54) = m at *
  refine ⟨m / 2 ^ 54, ?_, ?_⟩
  · by_cases hm : |m| < 2 ^ 53
    · exact ⟨m, -54, hm, by norm_num, by norm_num, by rw [zpow_neg]; norm_num; ring⟩
    · have hm' : |m| = 2 ^ 53 := by omega
      rcases (abs_eq (by norm_num : (0 : ℤ) ≤ 2 ^ 53)).1 hm' with rfl | rfl
      · exact ⟨1, -1, by norm_num, by norm_num, by norm_num, by norm_num⟩
      · exact ⟨-1, -1, by norm_num, by norm_num, by norm_num, by norm_num⟩
  · have : q - m / 2 ^ 54 = (q * 2 ^ 54 - m) / 2 ^ 54 := by field_simp
    rw [this, abs_div, abs_of_pos (a := (2 : ℚ) ^ 54) (by norm_num), div_le_iff₀ (by norm_num)]
    linarith

/-- A constant of type `double` written with at most 16 decimals (in any notation) has in Python the value it has in the IDL. -/
theorem double_decimal {rd : ℚ → ℚ} (hr : Rounds rd) {q : ℚ} (hq : |q| < limit) (hd : ∃ i : ℤ, q * 10 ^ 16 = i) :
    ∃ d, pyFloat (chars (renderDouble (.fin (rd q)))) = some d ∧ |d| < limit ∧ rd d = rd q := by
  have hn := hr q hq
  by_cases hx : 1 / 2 ≤ |rd q|
  · obtain ⟨d, h1, h2, h3⟩ := double_large hn.1 hx
    exact ⟨d, h1, h2, nearest_unique hn.1 h3 (hr d h2)⟩
  · rw [not_le] at hx
    obtain ⟨i, hi⟩ := hd
    have hq2 : |q| ≤ 1 / 2 := by
      by_contra hlt
      rw [not_le] at hlt
      rcases le_or_gt 0 q with h0 | h0
      · rw [abs_of_nonneg h0] at hlt
        have h1 := hn.2 (1 / 2) isDouble_half
        rw [abs_of_nonneg (by linarith : (0 : ℚ) ≤ q - 1 / 2)] at h1
        have h2 := (abs_le.1 h1).2
        have h3 := (abs_lt.1 hx).2
        linarith
      · rw [abs_of_neg h0] at hlt
        have h1 := hn.2 (-(1 / 2)) (isDouble_neg isDouble_half)
        rw [abs_of_neg (by linarith : q - -(1 / 2) < (0 : ℚ))] at h1
        have h2 := (abs_le.1 h1).1
        have h3 := (abs_lt.1 hx).1
        linarith
    obtain ⟨y, hy, hy'⟩ := small_near hq2
    have h1 : |q - rd q| ≤ 1 / 2 ^ 55 := le_trans (hn.2 y hy) hy'
    refine ⟨q, ?_, hq, rfl⟩
    show pyFloat (chars (fixed16 (rd q))) = some q
    rw [pyFloat_fixed]
    congr 1
    generalize rd q = x at *
    obtain ⟨ha, hb⟩ := abs_le.1 h1
    by_cases hneg : x < 0
    · rw [if_pos hneg, abs_of_neg hneg, roundEven_int (i := -i), eq_comm, eq_div_iff (by norm_num), hi]
      · push_cast; ring
      · push_cast
        rw [← hi, abs_lt]
        constructor <;> linarith
    · rw [if_neg hneg, abs_of_nonneg (not_lt.1 hneg), roundEven_int (i := i), eq_comm, eq_div_iff (by norm_num), hi]
      · ring
      · rw [← hi, abs_lt]
        constructor <;> linarith

/-- A constant of type `double` of absolute value at most `0.5e-16` becomes zero. -/
theorem double_tiny {x : ℚ} (h : |x| ≤ 1 / 2 / 10 ^ 16) : pyFloat (chars (renderDouble (.fin x))) = some 0 := by
  show pyFloat (chars (fixed16 x)) = some 0
  rw [pyFloat_fixed, roundEven_half (mul_nonneg (abs_nonneg x) (by norm_num)) (by linarith)]
  congr 1
  push_cast
  ring

/-- A constant of type `double` that is too large (`1e999`) becomes a name that is not defined. -/
theorem double_inf (neg : Bool) : pyFloat (chars (renderDouble (.inf neg))) = none := by cases neg <;> rfl

/-- There are functions that round like this. -/
theorem rounds_exists : ∃ rd, Rounds rd := by
  have h : ∀ q : ℚ, ∃ x, Nearest q x := by
    intro q
    have hz : IsDouble 0 := ⟨0, 0, by norm_num, by norm_num, by norm_num, by norm_num⟩
    let S : Set ℤ := {k | IsDouble (k / 2 ^ 1074) ∧ |q - k / 2 ^ 1074| ≤ |q|}
    have hmem : ∀ k : ℤ, k ∈ S ↔ IsDouble (k / 2 ^ 1074) ∧ |q - k / 2 ^ 1074| ≤ |q| := fun _ => Iff.rfl
    have h0 : (0 : ℤ) ∈ S := by
      rw [hmem]
      push_cast
      rw [zero_div, sub_zero]
      exact ⟨hz, le_refl _⟩
    have hfin : S.Finite := by
      apply Set.Finite.subset (Set.finite_Icc (-⌈2 * |q| * 2 ^ 1074⌉) ⌈2 * |q| * 2 ^ 1074⌉)
      intro k hk
      have h1 := ((hmem k).1 hk).2
      have h2 : |(k : ℚ) / 2 ^ 1074| ≤ 2 * |q| := by
        have := abs_sub_abs_le_abs_sub ((k : ℚ) / 2 ^ 1074) q
        rw [abs_sub_comm] at this
        linarith
      rw [abs_div, abs_of_pos (a := (2 : ℚ) ^ 1074) (by positivity), div_le_iff₀ (by positivity)] at h2
      have h3 := le_trans h2 (Int.le_ceil _)
      have h3 : |k| ≤ ⌈2 * |q| * 2 ^ 1074⌉ := by exact_mod_cast h3
      exact abs_le.1 h3
    obtain ⟨k, hk, hmin⟩ := Set.exists_min_image S (fun k : ℤ => |q - k / 2 ^ 1074|) hfin ⟨0, h0⟩
    refine ⟨k / 2 ^ 1074, ((hmem k).1 hk).1, ?_⟩
    intro y hy
    by_cases hle : |q - y| ≤ |q|
    · have : ∃ l : ℤ, y = l / 2 ^ 1074 := by
        obtain ⟨m, e, _, h2, _, rfl⟩ := hy
        refine ⟨m * 2 ^ (e + 1074).toNat, ?_⟩
        have : ((2 : ℚ) ^ (e + 1074).toNat) = 2 ^ e * 2 ^ 1074 := by
          rw [← zpow_natCast, Int.toNat_of_nonneg (by omega), zpow_add₀ (by norm_num)]
          rfl
        rw [Int.cast_mul, Int.cast_pow, Int.cast_ofNat, this, ← mul_assoc, mul_div_cancel_right₀ _ (by positivity)]
      obtain ⟨l, rfl⟩ := this
      exact hmin l ((hmem l).2 ⟨hy, hle⟩)
    · rw [not_le] at hle
      exact le_trans ((hmem k).1 hk).2 (le_of_lt hle)
  exact ⟨fun q => (h q).choose, fun q _ => (h q).choose_spec⟩

-- `0.1`, with any such function
example {rd : ℚ → ℚ} (hr : Rounds rd) : ∃ d, pyFloat (chars (renderDouble (.fin (rd (1 / 10))))) = some d ∧ rd d = rd (1 / 10) := by
  have hl : |(1 / 10 : ℚ)| < limit := by
    rw [limit_eq, abs_of_pos (by norm_num)]
    have := one_lt_pow970
    generalize (2 : ℚ) ^ 970 = P at this
    linarith
  obtain ⟨d, h1, _, h2⟩ := double_decimal hr hl ⟨10 ^ 15, by norm_num⟩
  exact ⟨d, h1, h2⟩

-- `2 ^ -60`, about `8.7e-19`, is a number of type `double`
example : IsDouble (1 / 2 ^ 60) ∧ pyFloat (chars (renderDouble (.fin (1 / 2 ^ 60)))) = some 0 :=
  ⟨⟨1, -60, by norm_num, by norm_num, by norm_num, by norm_num⟩, double_tiny (by norm_num [abs_of_pos])⟩

example : ∃ d, pyFloat (chars (renderDouble (.fin (-3 / 4)))) = some d ∧ |d| < limit ∧ ∀ y, IsDouble y → y ≠ -3 / 4 → |d - -3 / 4| < |d - y| :=
  double_large ⟨-3, -2, by norm_num, by norm_num, by norm_num, by norm_num⟩ (by norm_num [abs_of_neg])

end Thrift.Numbers
