import Verif.Model.Json
import Verif.Spec.IntText
/-
C68: what the JSON protocol takes for the digits of an escape or a UUID, `TJSONProtocol.py:295`.
-/

namespace Thrift.Json
open Spec.IntText

theorem isSpace_iff (c : Nat) : isSpace c = true ↔ Blank c := by
  unfold isSpace Blank
  simp

theorem hexVal_iff (c d : Nat) : hexVal c = some d ↔ HexDigit c d := by
  unfold hexVal HexDigit
  constructor
  · intro h
    split at h
    · cases h; omega
    · split at h
      · cases h; omega
      · split at h
        · cases h; omega
        · cases h
  · intro h
    rcases h with h | h | h
    · rw [if_pos (by omega)]; congr 1; omega
    · rw [if_neg (by omega), if_pos (by omega)]; congr 1; omega
    · rw [if_neg (by omega), if_neg (by omega), if_pos (by omega)]; congr 1; omega

theorem blank_none {c : Nat} (h : Blank c) : hexVal c = none := by
  cases e : hexVal c with
  | none => rfl
  | some d => rw [hexVal_iff] at e; unfold HexDigit at e; unfold Blank at h; omega

theorem hexDigits_more {acc : Nat} {t : List Nat} {n : Nat} (h : More acc t n) {b : List Nat} (hb : ∀ c ∈ b, Blank c) : hexDigits acc true (t ++ b) = some n := by
  induction h with
  | done =>
    cases b with
    | nil => rfl
    | cons c b =>
      have h0 := hb c List.mem_cons_self
      rw [List.nil_append, hexDigits, blank_none h0]
      dsimp only
      rw [if_neg (by unfold Blank at h0; omega), if_pos ⟨rfl, List.all_eq_true.mpr fun x hx => (isSpace_iff x).mpr (hb x hx)⟩]
  | digit hd _ ih =>
    rw [List.cons_append, hexDigits, (hexVal_iff _ _).mpr hd]
    exact ih
  | underscore hd _ ih =>
    rw [List.cons_append, hexDigits, show hexVal 95 = none from rfl]
    dsimp only
    rw [if_pos ⟨rfl, rfl⟩, List.cons_append, hexDigits, (hexVal_iff _ _).mpr hd]
    exact ih

theorem hexDigits_some : ∀ (s : List Nat) {acc n : Nat} {digit : Bool}, hexDigits acc digit s = some n →
    if digit then ∃ t b, s = t ++ b ∧ (∀ c ∈ b, Blank c) ∧ More acc t n
    else ∃ c d t b, s = c :: (t ++ b) ∧ HexDigit c d ∧ (∀ c ∈ b, Blank c) ∧ More (acc * 16 + d) t n
  | [], acc, n, digit, h => by
    rw [hexDigits] at h
    cases digit with
    | false => cases h
    | true => cases h; exact ⟨[], [], rfl, nofun, .done⟩
  | c :: cs, acc, n, digit, h => by
    rw [hexDigits] at h
    cases e : hexVal c with
    | some d =>
      rw [e] at h
      obtain ⟨t, b, rfl, hb, hm⟩ := hexDigits_some cs (digit := true) h
      cases digit with
      | false => exact ⟨c, d, t, b, rfl, (hexVal_iff _ _).mp e, hb, hm⟩
      | true => exact ⟨c :: t, b, rfl, hb, .digit ((hexVal_iff _ _).mp e) hm⟩
    | none =>
      rw [e] at h
      dsimp only at h
      split at h
      · rename_i hu
        obtain ⟨rfl, rfl⟩ := hu
        obtain ⟨c, d, t, b, rfl, hd, hb, hm⟩ := hexDigits_some cs (digit := false) h
        exact ⟨95 :: c :: t, b, rfl, hb, .underscore hd hm⟩
      · split at h
        · rename_i hs
          cases h
          obtain ⟨rfl, hs⟩ := hs
          exact ⟨[], c :: cs, rfl, fun x hx => (isSpace_iff x).mp (List.all_eq_true.mp hs x hx), .done⟩
        · cases h

theorem digits_iff (s : List Nat) (n : Nat) : hexDigits 0 false s = some n ↔ ∃ ds b, s = ds ++ b ∧ Digits ds n ∧ ∀ c ∈ b, Blank c := by
  constructor
  · intro h
    obtain ⟨c, d, t, b, rfl, hd, hb, hm⟩ := hexDigits_some s h
    rw [Nat.zero_mul, Nat.zero_add] at hm
    exact ⟨c :: t, b, rfl, ⟨c, d, t, rfl, hd, hm⟩, hb⟩
  · rintro ⟨_, b, rfl, ⟨c, d, t, rfl, hd, hm⟩, hb⟩
    rw [List.cons_append, hexDigits, (hexVal_iff _ _).mpr hd]
    dsimp only
    rw [Nat.zero_mul, Nat.zero_add]
    exact hexDigits_more hm hb

theorem hexPrefix_same {c : Nat} {t : List Nat} (h : ∀ x ∈ t.head?, x ≠ 120 ∧ x ≠ 88) : hexPrefix (c :: t) = c :: t := by
  unfold hexPrefix
  split
  · rename_i heq
    injection heq with h1 h2
    subst h1 h2
    have := h _ rfl
    rw [if_neg (by omega)]
  · rfl

theorem more_head {acc n : Nat} {t : List Nat} (h : More acc t n) {b : List Nat} (hb : ∀ c ∈ b, Blank c) : ∀ x ∈ (t ++ b).head?, x ≠ 120 ∧ x ≠ 88 := by
  intro x hx
  cases h with
  | done =>
    have := hb x (List.mem_of_mem_head? hx)
    unfold Blank at this; omega
  | digit hd _ =>
    cases hx
    unfold HexDigit at hd; omega
  | underscore _ _ => cases hx; omega

theorem prefix_iff (s : List Nat) (n : Nat) :
    hexDigits 0 false (hexPrefix s) = some n ↔ ∃ p ds b, s = p ++ (ds ++ b) ∧ Prefix p ∧ Digits ds n ∧ ∀ c ∈ b, Blank c := by
  constructor
  · intro h
    obtain ⟨ds, b, e, hd, hb⟩ := (digits_iff _ _).mp h
    have key : ∃ p, Prefix p ∧ s = p ++ hexPrefix s := by
      unfold hexPrefix
      split
      · rename_i x cs
        split
        · rename_i hx
          split
          · rcases hx with rfl | rfl
            · exact ⟨[48, 120, 95], by simp [Prefix], rfl⟩
            · exact ⟨[48, 88, 95], by simp [Prefix], rfl⟩
          · rcases hx with rfl | rfl
            · exact ⟨[48, 120], by simp [Prefix], rfl⟩
            · exact ⟨[48, 88], by simp [Prefix], rfl⟩
        · exact ⟨[], by simp [Prefix], rfl⟩
      · exact ⟨[], by simp [Prefix], rfl⟩
    obtain ⟨p, hp, hs⟩ := key
    exact ⟨p, ds, b, by rw [hs, e], hp, hd, hb⟩
  · rintro ⟨p, ds, b, rfl, hp, hd, hb⟩
    have goal : hexPrefix (p ++ (ds ++ b)) = ds ++ b := by
      obtain ⟨c, d, r, rfl, hc, hm⟩ := hd
      have hc95 : c ≠ 95 := by unfold HexDigit at hc; omega
      have cs : ∀ x, (x = 120 ∨ x = 88) → hexPrefix (48 :: x :: (c :: r ++ b)) = c :: r ++ b := fun x hx => by
        rw [hexPrefix, if_pos hx]
        intro cs' heq
        injection heq with h1 _
        exact absurd h1 hc95
      have us : ∀ x, (x = 120 ∨ x = 88) → hexPrefix (48 :: x :: 95 :: (c :: r ++ b)) = c :: r ++ b := fun x hx => by
        rw [hexPrefix, if_pos hx]
      simp only [Prefix, List.mem_cons, List.not_mem_nil, or_false] at hp
      rcases hp with rfl | rfl | rfl | rfl | rfl
      · exact hexPrefix_same (more_head hm hb)
      · exact cs 120 (.inl rfl)
      · exact cs 88 (.inr rfl)
      · exact us 120 (.inl rfl)
      · exact us 88 (.inr rfl)
    rw [goal]
    exact (digits_iff _ _).mpr ⟨ds, b, rfl, hd, hb⟩

theorem body_head {p ds b : List Nat} {n : Nat} (hp : Prefix p) (hd : Digits ds n) : ∃ c r, p ++ (ds ++ b) = c :: r ∧ ¬Blank c ∧ c ≠ 43 ∧ c ≠ 45 := by
  obtain ⟨c, d, r, rfl, hc, _⟩ := hd
  simp only [Prefix, List.mem_cons, List.not_mem_nil, or_false] at hp
  rcases hp with rfl | rfl | rfl | rfl | rfl
  · refine ⟨c, r ++ b, rfl, ?_⟩
    unfold HexDigit at hc
    unfold Blank
    omega
  all_goals exact ⟨48, _, rfl, by unfold Blank; omega, by omega, by omega⟩

theorem drop_blanks {b s : List Nat} (hb : ∀ c ∈ b, Blank c) {c : Nat} {r : List Nat} (hs : s = c :: r) (hc : ¬Blank c) : (b ++ s).dropWhile isSpace = s := by
  rw [List.dropWhile_append_of_pos fun x hx => (isSpace_iff x).mpr (hb x hx), hs, List.dropWhile_cons, if_neg]
  exact fun h => hc ((isSpace_iff c).mp h)

/-- The four characters after `\u`, and the digits of a UUID, are taken exactly if they are a numeral of Python: with blanks around it, a sign, `0x` and underscores. -/
theorem pyInt16_iff (t : PyStr) (v : Int) : pyInt16 t = some v ↔ Numeral t v := by
  constructor
  · intro h
    have hb : ∀ c ∈ t.takeWhile isSpace, Blank c := fun c hc => (isSpace_iff c).mp (List.all_eq_true.mp List.all_takeWhile c hc)
    have ht : t = t.takeWhile isSpace ++ t.dropWhile isSpace := List.takeWhile_append_dropWhile.symm
    unfold pyInt16 at h
    have fin : ∀ (s cs : List Nat) (f : Nat → Int), t.dropWhile isSpace = s ++ cs → (∀ n, Sign s n (f n)) → (hexDigits 0 false (hexPrefix cs)).map f = some v → Numeral t v := by
      intro s cs f e hs hm
      obtain ⟨n, hn, rfl⟩ := Option.map_eq_some_iff.mp hm
      obtain ⟨p, ds, b, rfl, hp, hd, hb'⟩ := (prefix_iff _ _).mp hn
      exact ⟨_, s, p, ds, b, n, ht.trans (by rw [e]), hb, hs n, hp, hd, hb'⟩
    split at h
    · rename_i cs e
      exact fin [45] cs _ e (fun n => .inr (.inr ⟨rfl, rfl⟩)) h
    · rename_i cs e
      exact fin [43] cs _ e (fun n => .inr (.inl ⟨rfl, rfl⟩)) h
    · exact fin [] _ _ rfl (fun n => .inl ⟨rfl, rfl⟩) h
  · rintro ⟨b, s, p, ds, b', n, rfl, hb, hs, hp, hd, hb'⟩
    have hx := (prefix_iff (p ++ (ds ++ b')) n).mpr ⟨p, ds, b', rfl, hp, hd, hb'⟩
    unfold pyInt16
    rcases hs with ⟨rfl, rfl⟩ | ⟨rfl, rfl⟩ | ⟨rfl, rfl⟩
    · obtain ⟨c, r, e, h1, h2, h3⟩ := body_head (b := b') hp hd
      rw [List.nil_append, drop_blanks hb e h1]
      split
      · rename_i heq
        rw [e] at heq
        injection heq with h _
        exact absurd h h3
      · rename_i heq
        rw [e] at heq
        injection heq with h _
        exact absurd h h2
      · rw [hx]; rfl
    · rw [drop_blanks (s := [43] ++ (p ++ (ds ++ b'))) hb (c := 43) rfl (by unfold Blank; omega)]
      show (hexDigits 0 false (hexPrefix (p ++ (ds ++ b')))).map _ = _
      rw [hx]; rfl
    · rw [drop_blanks (s := [45] ++ (p ++ (ds ++ b'))) hb (c := 45) rfl (by unfold Blank; omega)]
      show (hexDigits 0 false (hexPrefix (p ++ (ds ++ b')))).map _ = _
      rw [hx]; rfl

/-- ` 1_f` is 31, which RFC 8259 does not allow. -/
example : Numeral [32, 49, 95, 102] 31 := (pyInt16_iff _ _).mp (by decide)

/-- `1__f` is nothing. -/
example (v : Int) : ¬Numeral [49, 95, 95, 102] v := fun h => by
  have := (pyInt16_iff _ _).mpr h
  rw [show pyInt16 [49, 95, 95, 102] = none by decide] at this
  cases this

end Thrift.Json
