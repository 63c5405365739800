import Verif.Model.Compact
import Verif.Proofs.Dec
import Verif.Proofs.Layout
import Verif.Proofs.Bits
import Verif.Spec.CompactFormat
/-
Zigzag and varints.
-/

namespace Thrift.Compact
open Spec

/-! ### zigzag -/

theorem checkIntegerLimits_ok {bits : Nat} {n : Int} (h : InRange bits n) :
    checkIntegerLimits n bits = .ok () := by
  unfold checkIntegerLimits
  unfold InRange at h
  split
  · next h' => obtain ⟨rfl, h'⟩ := h'; simp at h; omega
  split
  · next h' => obtain ⟨rfl, h'⟩ := h'; simp at h; omega
  split
  · next h' => obtain ⟨rfl, h'⟩ := h'; simp at h; omega
  split
  · next h' => obtain ⟨rfl, h'⟩ := h'; simp at h; omega
  · rfl

theorem checkIntegerLimits_out {bits : Nat} {n : Int} (hb : bits = 16 ∨ bits = 32 ∨ bits = 64)
    (h : ¬ InRange bits n) : checkIntegerLimits n bits = .error TProtocolException.INVALID_DATA := by
  unfold InRange at h
  unfold checkIntegerLimits
  rcases hb with rfl | rfl | rfl <;> simp at h ⊢ <;> omega

theorem pyShl_one (n : Int) : pyShl n 1 = 2 * n := by unfold pyShl; omega

theorem zigzag_core (n : Int) (k : Nat) (h : -(2 : Int) ^ k ≤ n ∧ n < (2 : Int) ^ k) :
    pyXor (pyShl n 1) (pyShr n k) = (Spec.Compact.zigzag n : Int) := by
  have hp : (0 : Int) < 2 ^ k := Int.pow_pos (by omega)
  rw [pyShl_one]
  unfold pyShr
  cases n with
  | ofNat a =>
    have : (Int.ofNat a) / 2 ^ k = 0 := Int.ediv_eq_zero_of_lt (by simp) h.2
    rw [this]
    show Int.ofNat (2 * a ^^^ 0) = _
    unfold Spec.Compact.zigzag
    rw [if_pos (by simp)]
    simp
  | negSucc a =>
    have : (Int.negSucc a) / 2 ^ k = -1 := by
      have h1 : (Int.negSucc a) / 2 ^ k < 0 := Int.ediv_neg_of_neg_of_pos (by omega) hp
      have h2 : -1 ≤ (Int.negSucc a) / 2 ^ k := by
        apply (Int.le_ediv_iff_mul_le hp).mpr
        omega
      omega
    rw [this]
    have e : 2 * Int.negSucc a = Int.negSucc (2 * a + 1) := by omega
    rw [e]
    show Int.ofNat ((2 * a + 1) ^^^ 0) = _
    unfold Spec.Compact.zigzag
    rw [if_neg (by omega)]
    simp only [Nat.xor_zero, Int.ofNat_eq_natCast]
    omega

theorem makeZigZag_eq {bits : Nat} {n : Int} (h : InRange bits n) :
    makeZigZag n bits = .ok (Spec.Compact.zigzag n : Int) := by
  unfold makeZigZag
  rw [checkIntegerLimits_ok h]
  simp only []
  rw [zigzag_core n (bits - 1) h]

theorem fromZigZag_eq (n : Int) : fromZigZag (Spec.Compact.zigzag n : Int) = n := by
  unfold fromZigZag
  have e : pyAnd ((Spec.Compact.zigzag n : Nat) : Int) 1 = ((Spec.Compact.zigzag n : Nat) : Int) % 2 := by
    have := pyAnd_mask ((Spec.Compact.zigzag n : Nat) : Int) 1
    simpa using this
  rw [e]
  unfold pyShr
  simp only [Int.pow_succ, Int.pow_zero, Int.one_mul]
  cases n with
  | ofNat a =>
    have hz : Spec.Compact.zigzag (Int.ofNat a) = 2 * a := by
      unfold Spec.Compact.zigzag; rw [if_pos (by simp)]; simp
    rw [hz]
    have e1 : ((2 * a : Nat) : Int) / 2 = Int.ofNat a := by simp only [Int.ofNat_eq_natCast]; omega
    have e2 : -(((2 * a : Nat) : Int) % 2) = Int.ofNat 0 := by simp only [Int.ofNat_eq_natCast]; omega
    rw [e1, e2]
    show Int.ofNat (a ^^^ 0) = _
    simp
  | negSucc a =>
    have hz : Spec.Compact.zigzag (Int.negSucc a) = 2 * a + 1 := by
      unfold Spec.Compact.zigzag; rw [if_neg (by omega)]; omega
    rw [hz]
    have e1 : ((2 * a + 1 : Nat) : Int) / 2 = Int.ofNat a := by simp only [Int.ofNat_eq_natCast]; omega
    have e2 : -(((2 * a + 1 : Nat) : Int) % 2) = Int.negSucc 0 := by omega
    rw [e1, e2]
    show Int.negSucc (a ^^^ 0) = _
    simp

theorem zigzag_lt {bits : Nat} {n : Int} (hb : 0 < bits) (h : InRange bits n) :
    Spec.Compact.zigzag n < 2 ^ bits := by
  unfold InRange at h
  obtain ⟨k, rfl⟩ : ∃ k, bits = k + 1 := ⟨bits - 1, by omega⟩
  simp only [Nat.add_sub_cancel] at h
  have e : ((2 : Nat) ^ k : Nat) = ((2 : Int) ^ k).toNat := by
    have : ((2 : Int) ^ k) = ((2 ^ k : Nat) : Int) := by simp
    rw [this, Int.toNat_natCast]
  rw [Nat.pow_succ]
  unfold Spec.Compact.zigzag
  split <;> omega

/-! ### varint -/

theorem or_128 (n : Nat) : (n &&& 0xff) ||| 0x80 = n % 128 + 128 := by
  have h1 : n &&& 0xff = n % 256 := Nat.and_two_pow_sub_one_eq_mod n 8
  have h2 : ∀ m : Fin 256, m.val ||| 0x80 = m.val % 128 + 128 := by decide +kernel
  rw [h1]
  have := h2 ⟨n % 256, by omega⟩
  simp only at this
  rw [this]
  omega

theorem varintLoop_eq (f n : Nat) (h : n < f) : varintLoop f n = Spec.Compact.varint n := by
  induction f generalizing n with
  | zero => omega
  | succ f ih =>
    unfold varintLoop Spec.Compact.varint
    split
    · rfl
    · rw [or_128, show n >>> 7 = n / 128 from Nat.shiftRight_eq_div_pow n 7, ih _ (by omega)]

theorem varintBytes_eq (n : Nat) : varintBytes n = Spec.Compact.varint n :=
  varintLoop_eq _ _ (by omega)

theorem writeVarint_eq (n : Nat) (s : St) (out : Bytes) :
    writeVarint n s out = (.ok (), s, out ++ Spec.Compact.varint n) := by
  unfold writeVarint
  simp [varintBytes_eq]

theorem varint_length_le (n k : Nat) (h : n < 128 ^ (k + 1)) : (Spec.Compact.varint n).length ≤ k + 1 := by
  induction k generalizing n with
  | zero => unfold Spec.Compact.varint; rw [if_pos (by omega)]; simp
  | succ k ih =>
    unfold Spec.Compact.varint
    split
    · simp
    · have := ih (n / 128) (by rw [Nat.div_lt_iff_lt_mul (by omega)]; rw [Nat.pow_succ] at h; exact h)
      simp only [List.length_cons]; omega

theorem byte_and (x : Nat) : x &&& 0x7f = x % 128 := Nat.and_two_pow_sub_one_eq_mod x 7
theorem byte_shr (x : Nat) : x >>> 7 = x / 128 := Nat.shiftRight_eq_div_pow x 7

theorem or_shift {r a k : Nat} (h : r < 2 ^ k) : r ||| (a <<< k) = r + a * 2 ^ k := by
  rw [Nat.or_comm, ← Nat.shiftLeft_add_eq_or_of_lt h, Nat.shiftLeft_eq, Nat.add_comm]

theorem beNat_single (x : UInt8) : beNat [x] = x.toNat := by simp [beNat]

/-- The varint loop on a byte. -/
theorem readVarintLoop_step (k r sh : Nat) (h : r < 2 ^ sh) :
    readVarintLoop (k + 1) r sh = (P.readAll 1 >>= fun x =>
      if beNat x < 128 then pure ((r + beNat x % 128 * 2 ^ sh : Nat) : Int)
      else readVarintLoop k (r + beNat x % 128 * 2 ^ sh) (sh + 7)) := by
  show (P.readAll 1 >>= fun x => _) = _
  congr 1
  funext x
  simp only [byte_and, byte_shr]
  rw [or_shift h]
  by_cases hx : beNat x < 128
  · rw [if_pos (by omega), if_pos hx]
  · rw [if_neg (by omega), if_neg hx]

theorem shift_lt {r a sh : Nat} (h : r < 2 ^ sh) : r + a % 128 * 2 ^ sh < 2 ^ (sh + 7) := by
  rw [Nat.pow_add]
  have : a % 128 < 128 := Nat.mod_lt _ (by omega)
  have : a % 128 * 2 ^ sh ≤ 127 * 2 ^ sh := Nat.mul_le_mul_right _ (by omega)
  omega

theorem readVarintLoop_ok (k n r sh : Nat) (s : St) (h : r < 2 ^ sh)
    (hk : (Spec.Compact.varint n).length ≤ k) :
    Decodes (readVarintLoop k r sh) s (Spec.Compact.varint n) ((r + n * 2 ^ sh : Nat) : Int) s := by
  induction k generalizing n r sh with
  | zero =>
    unfold Spec.Compact.varint at hk
    split at hk <;> simp at hk
  | succ k ih =>
    rw [readVarintLoop_step _ _ _ h]
    unfold Spec.Compact.varint
    unfold Spec.Compact.varint at hk
    split
    · next hn =>
      refine Decodes.map (Decodes.readAll s (by simp)) ?_
      have e : beNat [UInt8.ofNat n] = n := by rw [beNat_single]; simp; omega
      rw [e, if_pos hn, Nat.mod_eq_of_lt hn]
    · next hn =>
      rw [if_neg hn] at hk
      simp only [List.length_cons] at hk
      refine Decodes.seq (b1 := [UInt8.ofNat (n % 128 + 128)]) (Decodes.readAll s (by simp)) ?_
      have e : beNat [UInt8.ofNat (n % 128 + 128)] = n % 128 + 128 := by
        rw [beNat_single]; simp; omega
      rw [e, if_neg (by omega)]
      have := ih (n / 128) (r + (n % 128 + 128) % 128 * 2 ^ sh) (sh + 7) (shift_lt h) (by omega)
      have e2 : r + (n % 128 + 128) % 128 * 2 ^ sh + n / 128 * 2 ^ (sh + 7) = r + n * 2 ^ sh := by
        have e3 : n * 2 ^ sh = (n % 128) * 2 ^ sh + (n / 128 * 128) * 2 ^ sh := by
          rw [← Nat.add_mul]; congr 1; omega
        rw [e3, Nat.pow_add, show (n % 128 + 128) % 128 = n % 128 by omega, Nat.add_assoc,
          Nat.mul_comm (2 ^ sh) (2 ^ 7), ← Nat.mul_assoc]
      rw [e2] at this
      exact this

theorem readVarint_ok {n : Nat} (h : n < 2 ^ 70) (s : St) :
    Decodes readVarint s (Spec.Compact.varint n) (n : Int) s := by
  have := readVarintLoop_ok 10 n 0 0 s (by simp) (varint_length_le n 9 (by omega))
  rw [show readVarint = readVarintLoop 10 0 0 from rfl]
  simpa using this

theorem readZigZag_ok {bits : Nat} (hb : 0 < bits ∧ bits ≤ 64) {n : Int} (h : InRange bits n) (s : St) :
    Decodes readZigZag s (Spec.Compact.int n) n s := by
  unfold readZigZag Spec.Compact.int
  refine Decodes.map (readVarint_ok ?_ s) ?_
  · have h1 := zigzag_lt hb.1 h
    have : 2 ^ bits ≤ 2 ^ 64 := Nat.pow_le_pow_right (by omega) hb.2
    omega
  · rw [fromZigZag_eq]

theorem writeZigZag_eq {bits : Nat} {n : Int} (h : InRange bits n) (s : St) (out : Bytes) :
    writeZigZag bits n s out = (.ok (), s, out ++ Spec.Compact.int n) := by
  unfold writeZigZag
  rw [makeZigZag_eq h]
  exact writeVarint_eq _ s out

end Thrift.Compact
