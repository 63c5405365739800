import Verif.Model.Doc
import Verif.Spec.Doc
import Verif.Proofs.Source
/-
Lemmas about `Doc`.
-/

namespace Thrift.Doc
open Spec.Doc Source

theorem blank_iff (c : UInt8) : blank c = true ↔ Blank c := by simp [blank, Blank]

theorem blank_eq : (fun c => decide (Blank c)) = blank := by
  funext c
  rw [Bool.eq_iff_iff, decide_eq_true_iff, blank_iff]

/-! ### The lexer -/

/-- The state of the lexer after some text without `*/` -/
def after (star : Bool) : Bytes → Option Bool
  | [] => some star
  | c :: r => if c = 42 then after true r else if c = 47 ∧ star then none else after false r

theorem after_append (s : Bool) (a b : Bytes) : after s (a ++ b) = (after s a).bind fun s => after s b := by
  induction a generalizing s with
  | nil => rfl
  | cons c a ih =>
    rw [List.cons_append, after.eq_def, after.eq_def]
    dsimp only
    split
    · exact ih _
    · split
      · rfl
      · exact ih _

theorem scan_after {s s' : Bool} {t : Bytes} (h : after s t = some s') (rest : Bytes) : scan s (t ++ 42 :: 47 :: rest) = some (t ++ [42, 47], rest) := by
  induction t generalizing s with
  | nil =>
    rw [List.nil_append, scan.eq_def]
    dsimp only
    rw [if_pos rfl, scan.eq_def]
    rfl
  | cons c t ih =>
    rw [List.cons_append, scan.eq_def]
    dsimp only
    rw [after.eq_def] at h
    dsimp only at h
    split at h
    · rename_i hc
      rw [if_pos hc, ih h]
      rfl
    · rename_i hc
      split at h
      · cases h
      · rename_i hc'
        rw [if_neg hc, if_neg hc', ih h]
        rfl

theorem after_line {l : Bytes} (h : ¬ [42, 47] <:+: l) {s : Bool} (hs : s = true → l.head? ≠ some 47) : ∃ s', after s l = some s' := by
  induction l generalizing s with
  | nil => exact ⟨s, rfl⟩
  | cons c l ih =>
    have hl : ¬ [42, 47] <:+: l := fun ⟨a, b, e⟩ => h ⟨c :: a, b, by rw [← e]; rfl⟩
    rw [after.eq_def]
    dsimp only
    split
    · rename_i hc
      subst hc
      refine ih hl fun _ e => h ?_
      cases l with
      | nil => cases e
      | cons d l => cases e; exact ⟨[], l, rfl⟩
    · split
      · rename_i hc
        exact absurd (by rw [hc.1]; rfl) (hs hc.2)
      · exact ih hl fun e => by cases e

theorem after_blanks {b : Bytes} (hb : ∀ c ∈ b, Blank c) (s : Bool) : after s b = some (s && b.isEmpty) := by
  induction b generalizing s with
  | nil => simp [after]
  | cons c b ih =>
    have h := hb c (by simp)
    rw [after.eq_def]
    dsimp only
    rw [if_neg (by rintro rfl; revert h; decide), if_neg (by rintro ⟨rfl, _⟩; revert h; decide), ih (fun d hd => hb d (by simp [hd]))]
    simp

theorem after_newline (s : Bool) : after s [10] = some false := rfl

theorem after_text {ls : List Bytes} (h : ∀ l ∈ ls, ∃ s, after false l = some s) : after false (text ls) = some false := by
  induction ls with
  | nil => rfl
  | cons l ls ih =>
    obtain ⟨s, hs⟩ := h l (by simp)
    rw [text, List.flatMap_cons, after_append, after_append, hs]
    exact ih fun l hl => h l (by simp [hl])

theorem body_end (t : Bytes) : body (t ++ [42, 47]) = t ++ [32] := by
  simp [body]

/-! ### Lines -/

theorem splitLines_text {ls : List Bytes} (h : ∀ l ∈ ls, 10 ∉ l) {last : Bytes} (hl : 10 ∉ last) : splitLines (text ls ++ last) = ls ++ [last] := by
  induction ls with
  | nil => exact splitLines_last hl
  | cons l ls ih =>
    rw [text, List.flatMap_cons, List.append_assoc, List.append_assoc, List.singleton_append, splitLines_line (h l (by simp))]
    show l :: splitLines (text ls ++ last) = _
    rw [ih fun l hl => h l (by simp [hl])]
    rfl

theorem filter_text {ls : List Bytes} (h : ∀ l ∈ ls, 13 ∉ l) {last : Bytes} (hl : 13 ∉ last) : (text ls ++ last).filter (· != 13) = text ls ++ last := by
  rw [List.filter_eq_self]
  intro c hc
  have : c ≠ 13 := by
    rintro rfl
    simp only [text, List.mem_append, List.mem_flatMap, List.mem_singleton] at hc
    rcases hc with ⟨l, hm, hc | hc⟩ | hc
    · exact h l hm hc
    · exact absurd hc (by decide)
    · exact hl hc
  simpa using this

theorem lines_text {ls : List Bytes} (h : ∀ l ∈ ls, 10 ∉ l ∧ 13 ∉ l) {last : Bytes} (hl : 10 ∉ last ∧ 13 ∉ last) :
    lines (text ls ++ last) = if last.all blank then ls else ls ++ [last] := by
  rw [lines, filter_text (fun l hm => (h l hm).2) hl.2, splitLines_text (fun l hm => (h l hm).1) hl.1]
  simp

theorem blanks_no {b : Bytes} (hb : ∀ c ∈ b, Blank c) : 10 ∉ b ∧ 13 ∉ b :=
  ⟨fun h => absurd (hb _ h) (by decide), fun h => absurd (hb _ h) (by decide)⟩

theorem blanks_all {b : Bytes} (hb : ∀ c ∈ b, Blank c) : b.all blank = true := by
  rw [List.all_eq_true]
  exact fun c hc => (blank_iff c).2 (hb c hc)

/-! ### Indentation -/

theorem indent_none (l : Bytes) : indent l = none ↔ l.all blank = true := by
  simp [indent, List.findIdx?_eq_none_iff]

theorem indent_append {b : Bytes} (hb : b.all blank = true) (l : Bytes) : indent (b ++ l) = (indent l).map (· + b.length) := by
  rw [indent, List.findIdx?_append]
  have : (b.findIdx? fun c => !blank c) = none := (indent_none b).2 hb
  rw [this]
  rfl

theorem indent_some {l : Bytes} {p : Nat} (h : indent l = some p) : ∃ a c r, l = a ++ c :: r ∧ a.all blank = true ∧ blank c = false ∧ a.length = p := by
  induction l generalizing p with
  | nil => cases h
  | cons d l ih =>
    rw [indent, List.findIdx?_cons] at h
    cases hd : blank d with
    | false =>
      rw [hd] at h
      cases h
      exact ⟨[], d, l, rfl, rfl, hd, rfl⟩
    | true =>
      rw [hd] at h
      cases e : indent l with
      | none =>
        rw [indent] at e
        rw [e] at h
        cases h
      | some q =>
        obtain ⟨a, c, r, rfl, h1, h2, rfl⟩ := ih e
        rw [indent] at e
        rw [e] at h
        cases h
        exact ⟨d :: a, c, r, rfl, by simp [hd, h1], h2, rfl⟩

theorem indent_at {a : Bytes} (ha : a.all blank = true) {c : UInt8} (hc : blank c = false) (r : Bytes) : indent (a ++ c :: r) = some a.length := by
  rw [indent_append ha]
  simp [indent, List.findIdx?_cons, hc]

theorem minIndent_none (least : Option Nat) (ls : List Bytes) : minIndent least ls = none ↔ least = none ∧ ∀ l ∈ ls, indent l = none := by
  induction ls generalizing least with
  | nil => simp [minIndent]
  | cons l ls ih =>
    rw [minIndent.eq_def]
    dsimp only
    cases hl : indent l with
    | none => simp [ih, hl]
    | some p => cases least <;> simp [ih, hl]

theorem minIndent_some {least : Option Nat} {ls : List Bytes} {n : Nat} (h : minIndent least ls = some n) :
    (∀ l ∈ ls, ∀ p, indent l = some p → n ≤ p) ∧ (∀ m, least = some m → n ≤ m) ∧ (least = some n ∨ ∃ l ∈ ls, indent l = some n) := by
  induction ls generalizing least with
  | nil =>
    rw [minIndent] at h
    exact ⟨by simp, fun m hm => by rw [h] at hm; cases hm; exact Nat.le_refl _, .inl h⟩
  | cons l ls ih =>
    rw [minIndent.eq_def] at h
    dsimp only at h
    cases hl : indent l with
    | none =>
      rw [hl] at h
      obtain ⟨h1, h2, h3⟩ := ih h
      refine ⟨?_, h2, ?_⟩
      · intro l' hl' p hp
        rcases List.mem_cons.1 hl' with rfl | hm
        · rw [hl] at hp; cases hp
        · exact h1 l' hm p hp
      · rcases h3 with h3 | ⟨l', hm, e⟩
        · exact .inl h3
        · exact .inr ⟨l', by simp [hm], e⟩
    | some p =>
      rw [hl] at h
      dsimp only at h
      have key : ∀ {q : Nat}, minIndent (some q) ls = some n → q ≤ p → (q = p ∨ least = some q) → (∀ m, least = some m → q ≤ m) →
          (∀ l' ∈ l :: ls, ∀ p, indent l' = some p → n ≤ p) ∧ (∀ m, least = some m → n ≤ m) ∧ (least = some n ∨ ∃ l' ∈ l :: ls, indent l' = some n) := by
        intro q hq hqp hql hqm
        obtain ⟨h1, h2, h3⟩ := ih hq
        have hnq := h2 q rfl
        refine ⟨?_, fun m hm => Nat.le_trans hnq (hqm m hm), ?_⟩
        · intro l' hl' p' hp'
          rcases List.mem_cons.1 hl' with rfl | hm
          · rw [hl] at hp'; cases hp'; exact Nat.le_trans hnq hqp
          · exact h1 l' hm p' hp'
        · rcases h3 with h3 | ⟨l', hm, e⟩
          · cases h3
            rcases hql with rfl | hql
            · exact .inr ⟨l, by simp, hl⟩
            · exact .inl hql
          · exact .inr ⟨l', by simp [hm], e⟩
      cases least with
      | none => exact key h (Nat.le_refl _) (.inl rfl) (by simp)
      | some m =>
        dsimp only at h
        split at h
        · exact key h (Nat.le_refl _) (.inl rfl) (by rintro _ ⟨⟩; omega)
        · exact key h (by omega) (.inr rfl) (by rintro _ ⟨⟩; omega)

/-! ### Blanks at the ends -/

theorem strip_eq (l : Bytes) : strip l = ((l.dropWhile blank).reverse.dropWhile blank).reverse := by
  rw [strip, blank_eq]

theorem dropWhile_all {l : Bytes} (h : l.all blank = true) : l.dropWhile blank = [] := by
  induction l with
  | nil => rfl
  | cons c l ih =>
    simp only [List.all_cons, Bool.and_eq_true] at h
    rw [List.dropWhile_cons, if_pos h.1, ih h.2]

theorem dropWhile_append_all {a : Bytes} (ha : a.all blank = true) (l : Bytes) : (a ++ l).dropWhile blank = l.dropWhile blank := by
  induction a with
  | nil => rfl
  | cons c a ih =>
    simp only [List.all_cons, Bool.and_eq_true] at ha
    rw [List.cons_append, List.dropWhile_cons, if_pos ha.1, ih ha.2]

theorem dropWhile_head {c : UInt8} (hc : blank c = false) (l : Bytes) : (c :: l).dropWhile blank = c :: l := by
  rw [List.dropWhile_cons, if_neg (by simp [hc])]

theorem strip_blank {l : Bytes} (h : l.all blank = true) : strip l = [] := by
  rw [strip_eq, dropWhile_all h]
  rfl

theorem strip_left {a : Bytes} (ha : a.all blank = true) (l : Bytes) : strip (a ++ l) = strip l := by
  rw [strip_eq, strip_eq, dropWhile_append_all ha]

theorem all_reverse {l : Bytes} (h : l.all blank = true) : l.reverse.all blank = true := by simpa using h

/-- A line that is not blank: the blanks before it, the text with no blanks at its ends, and the blanks after it -/
theorem split_line {l : Bytes} (h : ¬ l.all blank = true) :
    ∃ a w b, l = a ++ w ++ b ∧ a.all blank = true ∧ b.all blank = true ∧ (∃ c r, w = c :: r ∧ blank c = false) ∧ (∃ c r, w.reverse = c :: r ∧ blank c = false) := by
  cases e : indent l with
  | none => exact absurd ((indent_none l).1 e) h
  | some p =>
    obtain ⟨a, c, r, rfl, ha, hc, _⟩ := indent_some e
    cases e' : indent (c :: r).reverse with
    | none =>
      have := (indent_none _).1 e'
      rw [List.reverse_cons, List.all_append] at this
      simp [hc] at this
    | some q =>
      obtain ⟨b, d, s, hb', hb, hd, _⟩ := indent_some e'
      have er : c :: r = (d :: s).reverse ++ b.reverse := by
        rw [← List.reverse_append, ← hb', List.reverse_reverse]
      refine ⟨a, (d :: s).reverse, b.reverse, by rw [er]; simp, ha, all_reverse hb, ?_, ⟨d, s, by simp, hd⟩⟩
      cases f : (d :: s).reverse with
      | nil => simp at f
      | cons x y =>
        rw [f] at er
        cases er
        exact ⟨c, y, rfl, hc⟩

theorem strip_split {a w b : Bytes} (ha : a.all blank = true) (hb : b.all blank = true) (h1 : ∃ c r, w = c :: r ∧ blank c = false)
    (h2 : ∃ c r, w.reverse = c :: r ∧ blank c = false) : strip (a ++ w ++ b) = w := by
  obtain ⟨c, r, rfl, hc⟩ := h1
  obtain ⟨d, s, hw, hd⟩ := h2
  rw [List.append_assoc, strip_left ha, strip_eq, List.cons_append, dropWhile_head hc, ← List.cons_append, List.reverse_append, dropWhile_append_all (all_reverse hb), hw,
    dropWhile_head hd, ← hw, List.reverse_reverse]

theorem strip_right {b : Bytes} (hb : b.all blank = true) (l : Bytes) : strip (l ++ b) = strip l := by
  by_cases h : l.all blank = true
  · rw [strip_blank h, strip_blank (by simp only [List.all_append, h, hb, Bool.and_self])]
  · obtain ⟨a, w, b', rfl, ha, hb', h1, h2⟩ := split_line h
    rw [strip_split ha hb' h1 h2, List.append_assoc (a ++ w), strip_split ha (by simp only [List.all_append, hb', hb, Bool.and_self]) h1 h2]

theorem strip_nil_iff (l : Bytes) : strip l = [] ↔ l.all blank = true := by
  refine ⟨fun h => ?_, strip_blank⟩
  by_cases hl : l.all blank = true
  · exact hl
  · obtain ⟨a, w, b, rfl, ha, hb, h1, h2⟩ := split_line hl
    rw [strip_split ha hb h1 h2] at h
    subst h
    obtain ⟨c, r, e, _⟩ := h1
    cases e

theorem strip_strip (l : Bytes) : strip (strip l) = strip l := by
  by_cases h : l.all blank = true
  · rw [strip_blank h]; rfl
  · obtain ⟨a, w, b, rfl, ha, hb, h1, h2⟩ := split_line h
    rw [strip_split ha hb h1 h2]
    simpa using strip_split (a := []) (b := []) rfl rfl h1 h2

theorem trimRight_split {w b : Bytes} (hb : b.all blank = true) (h2 : ∃ c r, w.reverse = c :: r ∧ blank c = false) : trimRight (w ++ b) = w := by
  obtain ⟨d, s, hw, hd⟩ := h2
  have hn : ¬ (w ++ b).all blank = true := by
    intro h
    rw [List.all_append, Bool.and_eq_true] at h
    have := all_reverse h.1
    rw [hw] at this
    simp [hd] at this
  rw [trimRight, if_neg hn, List.reverse_append, dropWhile_append_all (all_reverse hb), hw, dropWhile_head hd, ← hw, List.reverse_reverse]

theorem strip_trimRight (l : Bytes) : strip (trimRight l) = strip l := by
  by_cases h : l.all blank = true
  · rw [trimRight, if_pos h]
  · obtain ⟨a, w, b, rfl, ha, hb, h1, h2⟩ := split_line h
    rw [trimRight_split hb, strip_split ha hb h1 h2, strip_left ha]
    · simpa using strip_split (a := []) (b := []) rfl rfl h1 h2
    · obtain ⟨d, s, hw, hd⟩ := h2
      exact ⟨d, s ++ a.reverse, by rw [List.reverse_append, hw]; rfl, hd⟩

theorem strip_dropWhile (l : Bytes) : strip (l.dropWhile blank) = strip l := by
  by_cases h : l.all blank = true
  · rw [dropWhile_all h, strip_blank h]; rfl
  · obtain ⟨a, w, b, rfl, ha, hb, ⟨c, r, rfl, hc⟩, h2⟩ := split_line h
    rw [List.append_assoc, dropWhile_append_all ha, List.cons_append, dropWhile_head hc, strip_left ha]

/-! ### The words -/

theorem strip_nil : strip [] = [] := rfl

theorem removeIndent_words (ls : List Bytes) : (removeIndent ls).map strip = ls.map strip := by
  rw [removeIndent]
  split
  · rfl
  · rename_i n h
    rw [List.map_map]
    apply List.map_congr_left
    intro l hl
    show strip (l.drop n) = strip l
    cases e : indent l with
    | none =>
      have hb := (indent_none l).1 e
      rw [strip_blank hb, strip_blank]
      rw [List.all_eq_true] at hb ⊢
      exact fun c hc => hb c (List.mem_of_mem_drop hc)
    | some p =>
      have hn := (minIndent_some h).1 l hl p e
      obtain ⟨a, c, r, rfl, ha, hc, rfl⟩ := indent_some e
      rw [List.drop_append_of_le_length hn, strip_left ha, strip_left]
      rw [List.all_eq_true] at ha ⊢
      exact fun c hc => ha c (List.mem_of_mem_drop hc)

theorem starLoop_words (found : Option Nat) (ls : List Bytes) : (starLoop found ls).1.map strip = ls.map strip := by
  induction ls generalizing found with
  | nil => rfl
  | cons l ls ih =>
    rw [starLoop.eq_def]
    dsimp only
    split
    · simp [ih]
    · cases e : indent l with
      | none => simp [ih, strip_nil, strip_blank ((indent_none l).1 e)]
      | some p =>
        dsimp only
        cases found with
        | none => dsimp only; split <;> simp [ih]
        | some n => dsimp only; split <;> simp [ih]

theorem starLoop_prefix {found f : Option Nat} {ls ls' : List Bytes} (h : starLoop found ls = (ls', true, f)) :
    (∀ n, found = some n → f = some n) ∧ ∀ l ∈ ls', l = [] ∨ ∃ n, f = some n ∧ indent l = some n ∧ l[n]? = some 42 := by
  induction ls generalizing found ls' with
  | nil =>
    cases h
    exact ⟨fun n h => h, by simp⟩
  | cons l ls ih =>
    rw [starLoop.eq_def] at h
    dsimp only at h
    split at h
    · rename_i hl
      have e : starLoop found ls = ((starLoop found ls).1, true, f) := by
        rw [Prod.mk.injEq] at h
        rw [← h.2]
      obtain ⟨h1, h2⟩ := ih e
      refine ⟨h1, ?_⟩
      rw [Prod.mk.injEq] at h
      rw [← h.1]
      intro l' hm
      rcases List.mem_cons.1 hm with rfl | hm
      · exact .inl hl
      · exact h2 l' hm
    · split at h
      · have e : starLoop found ls = ((starLoop found ls).1, true, f) := by
          rw [Prod.mk.injEq] at h
          rw [← h.2]
        obtain ⟨h1, h2⟩ := ih e
        refine ⟨h1, ?_⟩
        rw [Prod.mk.injEq] at h
        rw [← h.1]
        intro l' hm
        rcases List.mem_cons.1 hm with rfl | hm
        · exact .inl rfl
        · exact h2 l' hm
      · rename_i p hp
        split at h
        · split at h
          · rename_i hs
            have e : starLoop (some p) ls = ((starLoop (some p) ls).1, true, f) := by
              rw [Prod.mk.injEq] at h
              rw [← h.2]
            obtain ⟨h1, h2⟩ := ih e
            refine ⟨by simp, ?_⟩
            rw [Prod.mk.injEq] at h
            rw [← h.1]
            intro l' hm
            rcases List.mem_cons.1 hm with rfl | hm
            · exact .inr ⟨p, h1 p rfl, hp, hs⟩
            · exact h2 l' hm
          · cases h
        · rename_i n
          split at h
          · rename_i hs
            have e : starLoop (some n) ls = ((starLoop (some n) ls).1, true, f) := by
              rw [Prod.mk.injEq] at h
              rw [← h.2]
            obtain ⟨h1, h2⟩ := ih e
            refine ⟨h1, ?_⟩
            rw [Prod.mk.injEq] at h
            rw [← h.1]
            intro l' hm
            rcases List.mem_cons.1 hm with rfl | hm
            · exact .inr ⟨n, h1 n rfl, by rw [hp, hs.2], by rw [← hs.2]; exact hs.1⟩
            · exact h2 l' hm
          · cases h

/-- A line with a star -/
theorem strip_star {l : Bytes} {n : Nat} (h : indent l = some n) (hs : l[n]? = some 42) :
    ∃ r, strip l = 42 :: r ∧ strip (l.drop (n + 1)) = strip r := by
  obtain ⟨a, c, r, rfl, ha, hc, rfl⟩ := indent_some h
  rw [List.getElem?_append_right (Nat.le_refl _), Nat.sub_self] at hs
  cases hs
  have hd : (a ++ 42 :: r).drop (a.length + 1) = r := by
    rw [← List.drop_drop, List.drop_left]
    rfl
  rw [hd, strip_left ha]
  by_cases hr : r.all blank = true
  · refine ⟨[], ?_, by rw [strip_blank hr]; rfl⟩
    have := strip_split (a := []) (w := [42]) rfl hr ⟨42, [], rfl, rfl⟩ ⟨42, [], rfl, rfl⟩
    exact this
  · obtain ⟨x, w, y, rfl, hx, hy, h1, h2⟩ := split_line hr
    refine ⟨x ++ w, ?_, ?_⟩
    · have := strip_split (a := []) (w := 42 :: (x ++ w)) rfl hy ⟨42, _, rfl, rfl⟩ (by
        obtain ⟨d, s, hw, hd⟩ := h2
        exact ⟨d, s ++ (x.reverse ++ [42]), by rw [List.reverse_cons, List.reverse_append, hw]; simp, hd⟩)
      rw [← this]
      simp
    · rw [strip_split hx hy h1 h2, strip_left hx]
      have := strip_split (a := []) (b := []) rfl rfl h1 h2
      simpa using this.symm

theorem words_congr {a b : List Bytes} (h : a.map strip = b.map strip) : words a = words b := by rw [words, words, h]

theorem words_cons (l : Bytes) (ls : List Bytes) : words (l :: ls) = (if strip l = [] then [] else [strip l]) ++ words ls := by
  rw [words, List.map_cons, List.filter_cons]
  by_cases h : strip l = []
  · simp [h, words]
  · simp [h, words]

/-- All the lines after the first begin with a star, or no star is taken away. -/
theorem removeStars_words (ls : List Bytes) :
    words (removeStars ls) = words ls ∨ (∀ w ∈ words ls, w.head? = some 42) ∧ words (removeStars ls) = words ((words ls).map List.tail) := by
  rw [removeStars]
  have hw := words_congr (starLoop_words none ls)
  split
  · rename_i ls' f h
    right
    have hp := (starLoop_prefix h).2
    rw [h] at hw
    dsimp only at hw
    rw [← hw]
    clear hw h
    induction ls' with
    | nil => exact ⟨by simp [words], rfl⟩
    | cons l ls' ih =>
      obtain ⟨h1, h2⟩ := ih fun l hl => hp l (by simp [hl])
      rcases hp l (by simp) with rfl | ⟨n, rfl, hi, hs⟩
      · rw [words_cons, strip_nil, if_pos rfl, List.nil_append]
        refine ⟨h1, ?_⟩
        rw [← h2, List.map_cons, List.drop_nil, words_cons, strip_nil, if_pos rfl, List.nil_append]
      · obtain ⟨r, e1, e2⟩ := strip_star hi hs
        rw [words_cons l, e1, if_neg (by simp)]
        refine ⟨?_, ?_⟩
        · intro w hw
          rcases List.mem_append.1 hw with hw | hw
          · rw [List.mem_singleton] at hw
            rw [hw]
            rfl
          · exact h1 w hw
        · rw [List.map_cons, List.singleton_append, List.map_cons, words_cons, words_cons, h2]
          show (if strip (l.drop (n + 1)) = [] then [] else [strip (l.drop (n + 1))]) ++ _ = (if strip r = [] then [] else [strip r]) ++ _
          rw [e2]
  · rename_i ls' f h
    left
    rw [h] at hw
    exact hw

end Thrift.Doc
