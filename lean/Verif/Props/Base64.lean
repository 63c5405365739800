import Verif.Proofs.JsonSafe
import Verif.Spec.Base64
/-
C68: what the JSON protocol takes for the base64 of a binary, `TJSONProtocol.py:392-400`.
-/

namespace Thrift.Json
open Spec.Base64 Arb

theorem b64Val_none {c : Nat} : b64Val c = none ↔ ¬Alphabet c := by
  unfold b64Val Alphabet
  repeat' split
  all_goals simp
  all_goals omega

theorem b64Loop_skip {c : Nat} (h : ¬Alphabet c) (h61 : c ≠ 61) (pos left pads : Nat) (t : PyStr) : b64Loop pos left pads (c :: t) = b64Loop pos left pads t := by
  rw [b64Loop_cons, if_neg h61, b64Val_none.mpr h]

theorem map_cons_ok {x : Except Exc Bytes} {y : UInt8} : (x.map (y :: ·)).isOk = x.isOk := by
  cases x <;> rfl

theorem b64Loop_take {c : Nat} (h : Alphabet c) {pos : Nat} (hp : pos < 4) (left pads : Nat) (t : PyStr) :
    ∃ left', (b64Loop pos left pads (c :: t)).isOk = (b64Loop ((pos + 1) % 4) left' 0 t).isOk := by
  have h61 : c ≠ 61 := by unfold Alphabet at h; omega
  rw [b64Loop_cons, if_neg h61]
  cases e : b64Val c with
  | none => exact absurd h (b64Val_none.mp e)
  | some v =>
    dsimp only
    match pos, hp with
    | 0, _ => exact ⟨v, rfl⟩
    | 1, _ => exact ⟨v % 16, map_cons_ok⟩
    | 2, _ => exact ⟨v % 4, map_cons_ok⟩
    | 3, _ => exact ⟨0, map_cons_ok⟩

theorem b64Loop_pads {pos : Nat} (left : Nat) : ∀ (k pads : Nat), (2 ≤ pos → pos + pads < 4) →
    ((b64Loop pos left pads (List.replicate k 61)).isOk = true ↔ pos = 0 ∨ (2 ≤ pos ∧ 4 ≤ pos + pads + k))
  | 0, pads, hp => by
    cases pos with
    | zero => simp [b64Loop, Except.isOk, Except.toBool]
    | succ n =>
      rw [List.replicate_zero, b64Loop]
      simp [Except.isOk, Except.toBool]
      omega
  | k + 1, pads, hp => by
    rw [List.replicate_succ, b64Loop_cons, if_pos rfl]
    split
    · simp [Except.isOk, Except.toBool]
      omega
    · rename_i h
      split
      · rw [b64Loop_pads left k (pads + 1) (by omega)]
        omega
      · rw [b64Loop_pads left k pads (by omega)]
        omega

theorem b64Loop_accepts (k : Nat) : ∀ (t : PyStr) {pos : Nat} (left : Nat), pos < 4 → 61 ∉ t →
    ((b64Loop pos left 0 (t ++ List.replicate k 61)).isOk = true ↔
      (pos + (t.filter fun c => Alphabet c).length) % 4 = 0 ∨
        (2 ≤ (pos + (t.filter fun c => Alphabet c).length) % 4 ∧ 4 ≤ (pos + (t.filter fun c => Alphabet c).length) % 4 + k))
  | [], pos, left, hp, _ => by
    rw [List.nil_append, b64Loop_pads left k 0 (by omega)]
    simp only [List.filter_nil, List.length_nil, Nat.add_zero]
    rw [Nat.mod_eq_of_lt hp]
  | c :: t, pos, left, hp, h61 => by
    rw [List.mem_cons, not_or] at h61
    by_cases hc : Alphabet c
    · obtain ⟨left', e⟩ := b64Loop_take hc hp left 0 (t ++ List.replicate k 61)
      rw [List.cons_append, e, b64Loop_accepts k t left' (Nat.mod_lt _ (by decide)) h61.2, List.filter_cons_of_pos (by simpa using hc), List.length_cons]
      rw [show ((pos + 1) % 4 + (t.filter fun c => Alphabet c).length) % 4 = (pos + ((t.filter fun c => Alphabet c).length + 1)) % 4 by omega]
    · rw [List.cons_append, b64Loop_skip hc (Ne.symm h61.1), b64Loop_accepts k t left hp h61.2, List.filter_cons_of_neg (by simpa using hc)]

/-- Padding that is missing or too short is rejected, and so is a single character of the last group; padding that is too long is not. -/
theorem base64_accepts {t : PyStr} (ha : ∀ c ∈ t, c < 128) (h61 : 61 ∉ t) (k : Nat) :
    (∃ b, b64decode (t ++ List.replicate k 61) = .ok b) ↔
      (t.filter fun c => Alphabet c).length % 4 = 0 ∨
        (2 ≤ (t.filter fun c => Alphabet c).length % 4 ∧ 4 ≤ (t.filter fun c => Alphabet c).length % 4 + k) := by
  have h := b64Loop_accepts k t (pos := 0) 0 (by decide) h61
  rw [Nat.zero_add] at h
  rw [← h]
  unfold b64decode
  rw [if_pos]
  · cases b64Loop 0 0 0 (t ++ List.replicate k 61) with
    | ok b => simp [Except.isOk, Except.toBool]
    | error e => simp [Except.isOk, Except.toBool]
  · refine List.all_eq_true.mpr fun c hc => ?_
    rcases List.mem_append.mp hc with hc | hc
    · simpa using ha c hc
    · rw [(List.mem_replicate.mp hc).2]; rfl

/-- So base64 without padding, to which `readJSONBase64` adds some, is read unless a single character is left over. -/
theorem base64_unpadded {t : PyStr} (ha : ∀ c ∈ t, Alphabet c) :
    (∃ b, b64decode (if t.length % 4 ≠ 0 then t ++ List.replicate (4 - t.length % 4) 61 else t) = .ok b) ↔ t.length % 4 ≠ 1 := by
  have hf : t.filter (fun c => Alphabet c) = t := List.filter_eq_self.mpr fun c hc => by simpa using ha c hc
  have h := fun k => base64_accepts (t := t) (fun c hc => by have := ha c hc; unfold Alphabet at this; omega)
    (fun hc => by have := ha _ hc; unfold Alphabet at this; omega) k
  simp only [hf] at h
  split
  · rw [h]; omega
  · have := h 0
    rw [List.replicate_zero, List.append_nil] at this
    rw [this]; omega

/-- Characters that are not of base64 make no difference, wherever they are. -/
theorem base64_ignores {t : PyStr} (ha : ∀ c ∈ t, c < 128) : b64decode t = b64decode (t.filter fun c => Alphabet c ∨ c = 61) := by
  have key : ∀ (t : PyStr) (pos left pads : Nat), b64Loop pos left pads t = b64Loop pos left pads (t.filter fun c => Alphabet c ∨ c = 61) := by
    intro t
    induction t with
    | nil => intros; rfl
    | cons c t ih =>
      intro pos left pads
      by_cases hc : Alphabet c ∨ c = 61
      · rw [List.filter_cons_of_pos (by simpa using hc), b64Loop_cons, b64Loop_cons]
        simp only [← ih]
      · rw [List.filter_cons_of_neg (by simpa using hc), b64Loop_skip (fun h => hc (.inl h)) (fun h => hc (.inr h)), ih]
  unfold b64decode
  rw [if_pos (List.all_eq_true.mpr fun c hc => by simpa using ha c hc), if_pos (List.all_eq_true.mpr fun c hc => by simpa using ha c (List.mem_filter.mp hc).1), key]

/-- `QU` is no base64, nor is `QU=`; but `Q U==` and `QU===` are. -/
example : ¬(∃ b, b64decode ([81, 85] ++ List.replicate 0 61) = .ok b) ∧ ¬(∃ b, b64decode ([81, 85] ++ List.replicate 1 61) = .ok b) ∧
    (∃ b, b64decode ([81, 32, 85] ++ List.replicate 2 61) = .ok b) ∧ ∃ b, b64decode ([81, 85] ++ List.replicate 3 61) = .ok b :=
  ⟨fun h => absurd ((base64_accepts (by decide) (by decide) 0).mp h) (by decide), fun h => absurd ((base64_accepts (by decide) (by decide) 1).mp h) (by decide),
    (base64_accepts (by decide) (by decide) 2).mpr (by decide), (base64_accepts (by decide) (by decide) 3).mpr (by decide)⟩

end Thrift.Json
