import Verif.Model.Remote
import Verif.Proofs.Utf8
/-
The command line as Python sees it.
-/

namespace Thrift.Remote
open Spec

/-- A proper beginning of the form of a character is not valid -/
theorem decode_take {c : Nat} {b : Bytes} (h : utf8EncodeChar c = .ok b) (rest : Bytes) (k : Nat) (h0 : 0 < k) (hk : k < b.length) : ∃ e, utf8Decode ((b ++ rest).take k) = .error e := by
  unfold utf8EncodeChar at h
  split at h
  · cases h
  split at h
  · cases h; simp at hk; omega
  split at h
  · cases h
    obtain rfl : k = 1 := by simp at hk; omega
    rename_i h1 h2 h3
    have e : (UInt8.ofNat (0xC0 + c / 0x40)).toNat = 0xC0 + c / 0x40 := by simp; omega
    refine ⟨.unicodeError, ?_⟩
    simp only [List.cons_append, List.take_succ_cons, List.take_zero]
    rw [utf8Decode.eq_def]; dsimp only
    rw [e]
    grind
  split at h
  · cases h
    rename_i h1 h2 h3 h4
    have e : (UInt8.ofNat (0xE0 + c / 0x1000)).toNat = 0xE0 + c / 0x1000 := by simp; omega
    refine ⟨.unicodeError, ?_⟩
    have : k = 1 ∨ k = 2 := by simp at hk; omega
    rcases this with rfl | rfl <;>
    · simp only [List.cons_append, List.take_succ_cons, List.take_zero]
      rw [utf8Decode.eq_def]; dsimp only
      rw [e]
      grind
  · cases h
    rename_i h1 h2 h3 h4
    have hs : c < 0x110000 := by
      simp [isScalar] at h1; omega
    have e : (UInt8.ofNat (0xF0 + c / 0x40000)).toNat = 0xF0 + c / 0x40000 := by simp; omega
    refine ⟨.unicodeError, ?_⟩
    have : k = 1 ∨ k = 2 ∨ k = 3 := by simp at hk; omega
    rcases this with rfl | rfl | rfl <;>
    · simp only [List.cons_append, List.take_succ_cons, List.take_zero]
      rw [utf8Decode.eq_def]; dsimp only
      rw [e]
      grind

theorem encodeChar_length {c : Nat} {b : Bytes} (h : utf8EncodeChar c = .ok b) : 0 < b.length ∧ b.length ≤ 4 := by
  unfold utf8EncodeChar at h
  repeat' split at h
  all_goals first | (cases h; done) | (cases h; simp)

theorem findSome_range {β : Type} (f : Nat → Option β) (n : Nat) (v : β) (k : Nat) (hk : k < n) (h1 : f k = some v) (h2 : ∀ j < k, f j = none) : (List.range n).findSome? f = some v := by
  rw [List.findSome?_eq_some_iff]
  refine ⟨List.range k, k, (List.range n).drop (k + 1), ?_, h1, ?_⟩
  · apply List.ext_getElem
    · simp; omega
    · intro i hi1 hi2
      simp only [List.getElem_range]
      by_cases hik : i < k
      · rw [List.getElem_append_left (by simpa using hik)]; simp
      · rw [List.getElem_append_right (by simpa using hik)]
        simp only [List.length_range]
        rcases Nat.eq_or_lt_of_le (Nat.le_of_not_lt hik) with rfl | hl
        · simp
        · obtain ⟨d, hd⟩ : ∃ d, i - k = d + 1 := ⟨i - k - 1, by omega⟩
          simp only [hd, List.getElem_cons_succ, List.getElem_drop, List.getElem_range]; omega
  · intro j hj; exact h2 j (by simpa using hj)

/-- A character at the beginning of an argument -/
theorem fsDecode_char {c : Nat} {b : Bytes} (h : utf8EncodeChar c = .ok b) (rest : Bytes) : fsDecode (b ++ rest) = c :: fsDecode rest := by
  obtain ⟨l0, l4⟩ := encodeChar_length h
  obtain ⟨b0, r, rfl⟩ : ∃ b0 r, b = b0 :: r := by cases b with | nil => simp at l0 | cons x y => exact ⟨x, y, rfl⟩
  rw [List.cons_append, fsDecode]
  have hd := utf8Decode_encodeChar h []
  rw [List.append_nil] at hd
  rw [findSome_range _ 4 (r.length, [c]) r.length (by simp at l4; omega)]
  · simp
  · show (utf8Decode ((b0 :: (r ++ rest)).take (r.length + 1))).toOption.map _ = _
    have : (b0 :: (r ++ rest)).take (r.length + 1) = b0 :: r := by simp
    rw [this, hd]; rfl
  · intro j hj
    obtain ⟨e, he⟩ := decode_take h rest (j + 1) (by omega) (by simp; omega)
    rw [List.cons_append] at he
    rw [he]; rfl

/-- Text comes as it was given. -/
theorem fsDecode_utf8 {s : PyStr} (h : ∀ c ∈ s, Scalar c) : fsDecode (utf8 s) = s := by
  induction s with
  | nil => rw [show utf8 [] = [] from rfl, fsDecode]
  | cons c s ih =>
    have hs := h c (by simp)
    rw [show utf8 (c :: s) = utf8 [c] ++ utf8 s by simp [utf8], fsDecode_char (c := c) (b := utf8 [c]) (by rw [utf8EncodeChar_eq hs]; simp [utf8]), ih fun d hd => h d (by simp [hd])]

theorem utf8Encode_bad {s : PyStr} (h : ∃ c ∈ s, ¬ Scalar c) : utf8Encode s = .error .unicodeError := by
  induction s with
  | nil => simp at h
  | cons c s ih =>
    rw [utf8Encode]
    by_cases hc : Scalar c
    · rw [utf8EncodeChar_eq hc]
      obtain ⟨d, hd, hn⟩ := h
      rcases List.mem_cons.1 hd with rfl | hd
      · exact absurd hc hn
      · dsimp only
        rw [ih ⟨d, hd, hn⟩]
    · have : isScalar c = false := by
        cases h : isScalar c
        · rfl
        · exact absurd ((scalar_iff c).1 h) hc
      rw [utf8EncodeChar, this]; rfl

/-- An argument that is not UTF-8 has a surrogate. -/
theorem fsDecode_all {b : Bytes} (h : ∀ c ∈ fsDecode b, Scalar c) : utf8 (fsDecode b) = b := by
  fun_induction fsDecode b with
  | case1 => rfl
  | case2 b0 r k c hk ih =>
    rw [List.findSome?_eq_some_iff] at hk
    obtain ⟨_, k', _, _, hk, _⟩ := hk
    cases hd : utf8Decode ((b0 :: r).take (k' + 1)) with
    | error e => rw [hd] at hk; simp [Except.toOption] at hk
    | ok x =>
      rw [hd] at hk
      simp only [Except.toOption, Option.map_some, Option.some.injEq, Prod.mk.injEq] at hk
      obtain ⟨rfl, rfl⟩ := hk
      obtain ⟨_, h2⟩ := utf8Decode_sound _ _ hd
      have : utf8 (x ++ fsDecode (r.drop k')) = utf8 x ++ utf8 (fsDecode (r.drop k')) := by simp [utf8]
      rw [this, ih fun d hd => h d (by simp [hd]), h2]
      simp
  | case3 b0 r hk ih =>
    exfalso
    have h1 := h (0xDC00 + b0.toNat) (by simp)
    have := b0.toNat_lt
    unfold Scalar at h1
    omega

/-- `args[i].encode('utf-8')` is the argument itself, or fails. -/
theorem encode_fsDecode (b : Bytes) : (IsUtf8 b → utf8Encode (fsDecode b) = .ok b) ∧ (¬ IsUtf8 b → utf8Encode (fsDecode b) = .error .unicodeError) := by
  constructor
  · rintro ⟨x, hx, rfl⟩
    rw [fsDecode_utf8 hx, utf8Encode_eq hx]
  · intro h
    apply utf8Encode_bad
    apply Classical.byContradiction
    intro hn
    have hs : ∀ c ∈ fsDecode b, Scalar c := fun c hc => Classical.byContradiction fun h' => hn ⟨c, hc, h'⟩
    exact h ⟨_, hs, fsDecode_all hs⟩

end Thrift.Remote
