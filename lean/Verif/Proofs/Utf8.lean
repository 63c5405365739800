import Verif.Proofs.Layout
/-
The UTF-8 decoder accepts exactly valid UTF-8.
-/

namespace Thrift
open Spec

theorem isCont_iff (b : UInt8) : isCont b = true ↔ 0x80 ≤ b.toNat ∧ b.toNat < 0xC0 := by
  simp [isCont]

theorem utf8_cons_of {c : Nat} {b : Bytes} {x : PyStr} {rest : Bytes}
    (h : utf8EncodeChar c = .ok b) (hx : ∀ c ∈ x, Scalar c) (hr : utf8 x = rest) :
    (∀ d ∈ c :: x, Scalar d) ∧ utf8 (c :: x) = b ++ rest := by
  have hs : Scalar c := by
    by_cases hc : isScalar c = true
    · exact (scalar_iff c).mp hc
    · unfold utf8EncodeChar at h
      rw [if_pos (by simpa using hc)] at h
      cases h
  refine ⟨?_, ?_⟩
  · intro d hd
    rcases List.mem_cons.mp hd with rfl | hd
    · exact hs
    · exact hx d hd
  · rw [utf8EncodeChar_eq hs] at h
    injection h with h
    rw [← h, ← hr]
    simp [utf8]

theorem ofNat_toNat_eq {n : Nat} {b : UInt8} (h : n = b.toNat) : UInt8.ofNat n = b := by
  subst h; simp

theorem utf8Decode_sound : (b : Bytes) → (x : PyStr) → utf8Decode b = .ok x →
    (∀ c ∈ x, Scalar c) ∧ utf8 x = b := by
  intro b
  fun_induction utf8Decode b with
  | case1 => intro x h; injection h with h; subst h; simp [utf8]
  | case2 b0 rest h0 ih =>
    intro x h
    cases hr : utf8Decode rest with
    | error e => rw [hr] at h; cases h
    | ok y =>
      rw [hr] at h
      injection h with h
      subst h
      obtain ⟨h1, h2⟩ := ih y hr
      refine utf8_cons_of (b := [b0]) ?_ h1 h2
      unfold utf8EncodeChar
      have : isScalar b0.toNat = true := by unfold isScalar; simp; omega
      rw [if_neg (by simp [this]), if_pos h0]
      simp
  | case3 => intro x h; cases h
  | case4 b0 h0 h1 h2 b1 rest hc ih =>
    intro x h
    rw [isCont_iff] at hc
    cases hr : utf8Decode rest with
    | error e => rw [hr] at h; cases h
    | ok y =>
      rw [hr] at h
      injection h with h
      subst h
      obtain ⟨i1, i2⟩ := ih y hr
      refine utf8_cons_of (b := [b0, b1]) ?_ i1 i2
      unfold utf8EncodeChar
      have e : cp2 b0 b1 = (b0.toNat - 0xC0) * 0x40 + (b1.toNat - 0x80) := rfl
      have : isScalar (cp2 b0 b1) = true := by unfold isScalar; simp; omega
      rw [if_neg (by simp [this]), if_neg (by omega), if_pos (by omega),
        ofNat_toNat_eq (b := b0) (by omega), ofNat_toNat_eq (b := b1) (by omega)]
  | case5 => intro x h; cases h
  | case6 => intro x h; cases h
  | case7 b0 h0 h1 h2 h3 b1 b2 rest hc ih =>
    intro x h
    simp only [Bool.and_eq_true, isCont_iff, decide_eq_true_eq] at hc
    cases hr : utf8Decode rest with
    | error e => rw [hr] at h; cases h
    | ok y =>
      rw [hr] at h
      injection h with h
      subst h
      obtain ⟨i1, i2⟩ := ih y hr
      refine utf8_cons_of (b := [b0, b1, b2]) ?_ i1 i2
      unfold utf8EncodeChar
      have e : cp3 b0 b1 b2 = (b0.toNat - 0xE0) * 0x1000 + (b1.toNat - 0x80) * 0x40
        + (b2.toNat - 0x80) := rfl
      rw [if_neg (by simp [hc.2]), if_neg (by omega), if_neg (by omega), if_pos (by omega),
        ofNat_toNat_eq (b := b0) (by omega), ofNat_toNat_eq (b := b1) (by omega),
        ofNat_toNat_eq (b := b2) (by omega)]
  | case8 => intro x h; cases h
  | case9 => intro x h; cases h
  | case10 b0 h0 h1 h2 h3 h4 b1 b2 b3 rest hc ih =>
    intro x h
    simp only [Bool.and_eq_true, isCont_iff, decide_eq_true_eq] at hc
    cases hr : utf8Decode rest with
    | error e => rw [hr] at h; cases h
    | ok y =>
      rw [hr] at h
      injection h with h
      subst h
      obtain ⟨i1, i2⟩ := ih y hr
      refine utf8_cons_of (b := [b0, b1, b2, b3]) ?_ i1 i2
      unfold utf8EncodeChar
      have e : cp4 b0 b1 b2 b3 = (b0.toNat - 0xF0) * 0x40000 + (b1.toNat - 0x80) * 0x1000
        + (b2.toNat - 0x80) * 0x40 + (b3.toNat - 0x80) := rfl
      rw [if_neg (by simp [hc.2]), if_neg (by omega), if_neg (by omega), if_neg (by omega),
        ofNat_toNat_eq (b := b0) (by omega), ofNat_toNat_eq (b := b1) (by omega),
        ofNat_toNat_eq (b := b2) (by omega), ofNat_toNat_eq (b := b3) (by omega)]
  | case11 => intro x h; cases h
  | case12 => intro x h; cases h
  | case13 => intro x h; cases h

theorem utf8Decode_error_kind (b : Bytes) (e : Exc) (h : utf8Decode b = .error e) : e = .unicodeError := by
  revert h
  fun_induction utf8Decode b <;> intro h
  any_goals (injection h with h; exact h.symm)
  any_goals cases h
  all_goals
    rename_i rest _ ih
    cases hr : utf8Decode rest with
    | error e' => rw [hr] at h; injection h with h; subst h; exact ih hr
    | ok y => rw [hr] at h; cases h

theorem isUtf8_iff (b : Bytes) : IsUtf8 b ↔ ∃ x, utf8Decode b = .ok x :=
  ⟨fun ⟨x, h, e⟩ => ⟨x, by rw [← e]; exact utf8Decode_utf8 h⟩,
    fun ⟨x, h⟩ => ⟨x, utf8Decode_sound b x h⟩⟩

theorem utf8Decode_not_utf8 {b : Bytes} (h : ¬ IsUtf8 b) : utf8Decode b = .error .unicodeError := by
  cases hd : utf8Decode b with
  | ok x => exact absurd ((isUtf8_iff b).mpr ⟨x, hd⟩) h
  | error e => rw [utf8Decode_error_kind b e hd]

end Thrift
