import Verif.Proofs.Doc
import Verif.Props.Source
/-
C97: doc comments of the IDL are the docstrings of what they stand before.
-/

namespace Thrift.Doc
open Spec Spec.Doc Spec.Source Source

/-! ### The text of a comment -/

theorem removeIndent_of {ls : List Bytes} {b : Bytes} (hb : ∀ c ∈ b, Blank c) (hf : Flush ls) :
    removeIndent (ls.map fun l => if l = [] then [] else b ++ l) = ls := by
  have hall := blanks_all hb
  have hi : ∀ l : Bytes, indent (if l = [] then [] else b ++ l) = (indent l).map (· + b.length) := by
    intro l
    split
    · rename_i h; subst h; rfl
    · exact indent_append hall l
  rcases hf with hf | ⟨l, hl, c, hc, hb'⟩
  · have e : (ls.map fun l => if l = [] then [] else b ++ l) = ls := by
      rw [List.map_congr_left (g := id), List.map_id]
      intro l hl
      simp [hf l hl]
    rw [e, removeIndent, (minIndent_none none ls).2 ⟨rfl, fun l hl => by rw [hf l hl]; rfl⟩]
  · have hc' : blank c = false := by
      cases h : blank c with
      | false => rfl
      | true => exact absurd ((blank_iff c).1 h) hb'
    have h0 : indent l = some 0 := by
      cases l with
      | nil => cases hc
      | cons d r =>
        cases hc
        exact indent_at (a := []) rfl hc' r
    cases e : minIndent none (ls.map fun l => if l = [] then [] else b ++ l) with
    | none =>
      have := ((minIndent_none _ _).1 e).2 _ (List.mem_map.2 ⟨l, hl, rfl⟩)
      rw [hi, h0] at this
      cases this
    | some n =>
      obtain ⟨h1, _, h3⟩ := minIndent_some e
      have hle := h1 _ (List.mem_map.2 ⟨l, hl, rfl⟩) b.length (by rw [hi, h0]; simp)
      have hge : b.length ≤ n := by
        rcases h3 with h3 | ⟨l', hm, h3⟩
        · cases h3
        · obtain ⟨k, _, rfl⟩ := List.mem_map.1 hm
          rw [hi] at h3
          cases hk : indent k with
          | none => rw [hk] at h3; cases h3
          | some q => rw [hk] at h3; cases h3; exact Nat.le_add_left _ _
      have hn : n = b.length := by omega
      rw [removeIndent, e]
      dsimp only
      rw [hn, List.map_map, List.map_congr_left (g := id), List.map_id]
      intro k _
      show (if k = [] then [] else b ++ k).drop b.length = k
      split
      · rename_i h; subst h; exact List.drop_nil
      · exact List.drop_left

theorem trimRight_line {l : Bytes} (h : Line l) : trimRight l = l := by
  cases e : l.reverse with
  | nil =>
    rw [List.reverse_eq_nil_iff] at e
    subst e
    rfl
  | cons c r =>
    have hc : l.getLast? = some c := by rw [List.getLast?_eq_head?_reverse, e]; rfl
    have hb : blank c = false := by
      cases h' : blank c with
      | false => rfl
      | true => exact absurd ((blank_iff c).1 h') (h.tail c hc)
    have := trimRight_split (w := l) (b := []) rfl ⟨c, r, e, hb⟩
    rwa [List.append_nil] at this

theorem trimRight_lines {ls : List Bytes} (h : ∀ l ∈ ls, Line l) : ls.map trimRight = ls := by
  rw [List.map_congr_left (g := id), List.map_id]
  exact fun l hl => trimRight_line (h l hl)

theorem cleanUp_text {ls : List Bytes} {first t : Bytes} (hl : lines t = first :: ls) (hf : first.all blank = true) :
    cleanUp t = some (text ((removeIndent (removeStars ls)).map trimRight)) := by
  rw [cleanUp, hl]
  dsimp only
  rw [dropWhile_all hf, if_pos (by rfl)]
  rfl

theorem starLoop_starred {ind gap : Bytes} (hi : ∀ c ∈ ind, Blank c) (ls : List Bytes) (found : Option Nat) (hf : ∀ n, found = some n → n = ind.length) :
    starLoop found (ls.map fun l => ind ++ [42] ++ (if l = [] then [] else gap ++ l)) =
      (ls.map fun l => ind ++ [42] ++ (if l = [] then [] else gap ++ l), true, if ls = [] then found else some ind.length) := by
  induction ls generalizing found with
  | nil => rfl
  | cons l ls ih =>
    have hall := blanks_all hi
    rw [List.map_cons, starLoop.eq_def]
    dsimp only
    rw [if_neg (by simp)]
    have e : indent (ind ++ [42] ++ if l = [] then [] else gap ++ l) = some ind.length := by
      rw [List.append_assoc]
      exact indent_at hall rfl _
    have g : (ind ++ [42] ++ if l = [] then [] else gap ++ l)[ind.length]? = some 42 := by
      rw [List.append_assoc, List.getElem?_append_right (Nat.le_refl _), Nat.sub_self]
      rfl
    rw [e]
    dsimp only
    cases found with
    | none =>
      dsimp only
      rw [if_pos g, ih (some ind.length) (by rintro _ ⟨⟩; rfl)]
      simp
    | some n =>
      have := hf n rfl
      subst this
      dsimp only
      rw [if_pos ⟨g, rfl⟩, ih (some ind.length) (by rintro _ ⟨⟩; rfl)]
      simp

/-- A comment with a star before each line: the lexer finds its end, and its text is what was written, whatever the indentation. The lines keep their indentation among each other. -/
theorem starred_text {ind gap : Bytes} (hi : ∀ c ∈ ind, Blank c) (hg : ∀ c ∈ gap, Blank c) (hne : gap ≠ []) {ls : List Bytes} (hl : ∀ l ∈ ls, Line l)
    (he : ∀ l ∈ ls, ¬ [42, 47] <:+: l) (hf : Flush ls) (rest : Bytes) :
    ∃ p, scan false (starred ind gap ls ++ rest) = some (p, rest) ∧ cleanUp (body p) = some (text ls) := by
  let L := ls.map fun l => ind ++ [42] ++ (if l = [] then [] else gap ++ l)
  have e : starred ind gap ls = text ([] :: L) ++ ind ++ [42, 47] := by
    simp [starred, text, L, List.flatMap_map]
  have ha : after false (text ([] :: L) ++ ind) = some false := by
    rw [after_append, after_text]
    · exact after_blanks hi false
    · intro l hm
      rcases List.mem_cons.1 hm with rfl | hm
      · exact ⟨false, rfl⟩
      · obtain ⟨k, hk, rfl⟩ := List.mem_map.1 hm
        rw [after_append, after_append, after_blanks hi]
        show ∃ s, (after true (if k = [] then [] else gap ++ k)) = some s
        split
        · exact ⟨true, rfl⟩
        · rw [after_append, after_blanks hg]
          have : gap.isEmpty = false := by
            cases gap with
            | nil => exact absurd rfl hne
            | cons c g => rfl
          rw [this]
          exact after_line (he k hk) (by simp)
  refine ⟨text ([] :: L) ++ ind ++ [42, 47], ?_, ?_⟩
  · rw [e]
    have := scan_after ha rest
    rw [← this]
    simp
  · rw [body_end]
    have hL : ∀ l ∈ [] :: L, 10 ∉ l ∧ 13 ∉ l := by
      intro l hm
      rcases List.mem_cons.1 hm with rfl | hm
      · simp
      · obtain ⟨k, hk, rfl⟩ := List.mem_map.1 hm
        have h1 := blanks_no hi
        have h2 := blanks_no hg
        have h3 := hl k hk
        split
        · simp only [List.mem_append, List.mem_singleton, List.not_mem_nil, or_false, not_or]
          exact ⟨⟨h1.1, by decide⟩, h1.2, by decide⟩
        · simp only [List.mem_append, List.mem_singleton, not_or]
          exact ⟨⟨⟨h1.1, by decide⟩, h2.1, h3.newline⟩, ⟨h1.2, by decide⟩, h2.2, h3.return_⟩
    have hb : ∀ c ∈ ind ++ [32], Blank c := by
      intro c hc
      rcases List.mem_append.1 hc with hc | hc
      · exact hi c hc
      · rw [List.mem_singleton] at hc; subst hc; decide
    have hlines : lines (text ([] :: L) ++ ind ++ [32]) = [] :: L := by
      rw [List.append_assoc, lines_text hL (blanks_no hb), if_pos (blanks_all hb)]
    rw [cleanUp_text hlines rfl]
    have hs : removeStars L = ls.map fun l => if l = [] then [] else gap ++ l := by
      rw [removeStars, starLoop_starred hi ls none (by simp)]
      dsimp only
      rw [List.map_map]
      apply List.map_congr_left
      intro l hm
      show (ind ++ [42] ++ if l = [] then [] else gap ++ l).drop _ = _
      rw [if_neg (List.ne_nil_of_mem hm)]
      show (ind ++ [42] ++ if l = [] then [] else gap ++ l).drop (ind.length + 1) = _
      rw [List.drop_left' (by simp)]
    rw [hs, removeIndent_of hg hf, trimRight_lines hl]

theorem starLoop_unstarred {ind : Bytes} (hi : ∀ c ∈ ind, Blank c) {ls : List Bytes}
    (hs : ∀ l, ls.find? (fun l => !l.isEmpty) = some l → ¬ (l.dropWhile blank).head? = some 42) (hl : ∀ l ∈ ls, Line l) :
    removeStars (ls.map fun l => if l = [] then [] else ind ++ l) = ls.map fun l => if l = [] then [] else ind ++ l := by
  have key : starLoop none (ls.map fun l => if l = [] then [] else ind ++ l) = (ls.map (fun l => if l = [] then [] else ind ++ l), decide (∀ l ∈ ls, l = []), none) := by
    induction ls with
    | nil => rfl
    | cons l ls ih =>
      rw [List.map_cons, starLoop.eq_def]
      dsimp only
      by_cases h : l = []
      · subst h
        simp only [if_pos]
        rw [ih (fun l h => hs l (by simpa [List.find?_cons] using h)) fun l hm => hl l (by simp [hm])]
        simp
      · rw [if_neg h]
        have hn : ind ++ l ≠ [] := by simp [h]
        rw [if_neg hn]
        have hlb : ¬ l.all blank = true := by
          intro hb
          cases e : l.reverse with
          | nil => rw [List.reverse_eq_nil_iff] at e; exact h e
          | cons c r =>
            have hc : l.getLast? = some c := by rw [List.getLast?_eq_head?_reverse, e]; rfl
            have hmem : c ∈ l := List.mem_reverse.1 (by rw [e]; simp)
            rw [List.all_eq_true] at hb
            exact (hl l (by simp)).tail c hc ((blank_iff c).1 (hb c hmem))
        cases e : indent (ind ++ l) with
        | none =>
          rw [indent_none, List.all_append, Bool.and_eq_true] at e
          exact absurd e.2 hlb
        | some p =>
          dsimp only
          obtain ⟨a, c, r, el, ha, hc, rfl⟩ := indent_some e
          have hd : l.dropWhile blank = c :: r := by
            rw [← dropWhile_append_all (blanks_all hi), el, dropWhile_append_all ha, dropWhile_head hc]
          have hc' : c ≠ 42 := by
            rintro rfl
            exact hs l (by simp [h]) (by rw [hd]; rfl)
          have hg : (ind ++ l)[a.length]? = some c := by
            rw [el, List.getElem?_append_right (Nat.le_refl _), Nat.sub_self]
            rfl
          rw [if_neg (by rw [hg]; simpa using hc')]
          simp [h]
  rw [removeStars, key]
  cases hd : decide (∀ l ∈ ls, l = []) with
  | false => rfl
  | true =>
    have ha := of_decide_eq_true hd
    dsimp only
    rw [List.map_map]
    apply List.map_congr_left
    intro l hm
    simp [ha l hm]

/-- The same for a comment without stars, if the first line of the text does not begin with one. -/
theorem unstarred_text_partial {ind : Bytes} (hi : ∀ c ∈ ind, Blank c) {ls : List Bytes} (hl : ∀ l ∈ ls, Line l) (he : ∀ l ∈ ls, ¬ [42, 47] <:+: l) (hf : Flush ls)
    (hs : ∀ l, ls.find? (fun l => !l.isEmpty) = some l → ¬ (l.dropWhile (Blank ·)).head? = some 42) (rest : Bytes) :
    ∃ p, scan false (unstarred ind ls ++ rest) = some (p, rest) ∧ cleanUp (body p) = some (text ls) := by
  rw [blank_eq] at hs
  let L := ls.map fun l => if l = [] then [] else ind ++ l
  have e : unstarred ind ls = text ([] :: L) ++ ind ++ [42, 47] := by
    simp [unstarred, text, L, List.flatMap_map]
  have ha : after false (text ([] :: L) ++ ind) = some false := by
    rw [after_append, after_text]
    · exact after_blanks hi false
    · intro l hm
      rcases List.mem_cons.1 hm with rfl | hm
      · exact ⟨false, rfl⟩
      · obtain ⟨k, hk, rfl⟩ := List.mem_map.1 hm
        split
        · exact ⟨false, rfl⟩
        · rw [after_append, after_blanks hi]
          exact after_line (he k hk) (by simp)
  refine ⟨text ([] :: L) ++ ind ++ [42, 47], ?_, ?_⟩
  · rw [e]
    have := scan_after ha rest
    rw [← this]
    simp
  · rw [body_end]
    have hL : ∀ l ∈ [] :: L, 10 ∉ l ∧ 13 ∉ l := by
      intro l hm
      rcases List.mem_cons.1 hm with rfl | hm
      · simp
      · obtain ⟨k, hk, rfl⟩ := List.mem_map.1 hm
        have h1 := blanks_no hi
        have h3 := hl k hk
        split
        · simp
        · simp only [List.mem_append, not_or]
          exact ⟨⟨h1.1, h3.newline⟩, h1.2, h3.return_⟩
    have hb : ∀ c ∈ ind ++ [32], Blank c := by
      intro c hc
      rcases List.mem_append.1 hc with hc | hc
      · exact hi c hc
      · rw [List.mem_singleton] at hc; subst hc; decide
    have hlines : lines (text ([] :: L) ++ ind ++ [32]) = [] :: L := by
      rw [List.append_assoc, lines_text hL (blanks_no hb), if_pos (blanks_all hb)]
    rw [cleanUp_text hlines rfl, starLoop_unstarred hi hs hl, removeIndent_of hi hf, trimRight_lines hl]

/-- A comment on one line: the blanks around the text do not count. -/
theorem short_text {a l b : Bytes} (ha : ∀ c ∈ a, Blank c) (hb : ∀ c ∈ b, Blank c) (hl : Line l) (hne : l ≠ []) (hh : ∀ c, l.head? = some c → ¬ Blank c) (he : ¬ [42, 47] <:+: l)
    (rest : Bytes) : ∃ p, scan false (short a l b ++ rest) = some (p, rest) ∧ cleanUp (body p) = some (text [l]) := by
  obtain ⟨s, hs⟩ := after_line he (s := false) (by simp)
  have haf : after false (a ++ l ++ b) = some (s && b.isEmpty) := by
    rw [after_append, after_append, after_blanks ha]
    show ((after false l).bind _) = _
    rw [hs]
    exact after_blanks hb s
  refine ⟨a ++ l ++ b ++ [42, 47], ?_, ?_⟩
  · have := scan_after haf rest
    rw [← this, short]
    simp
  · rw [body_end]
    have h32 : ∀ c ∈ b ++ [32], Blank c := by
      intro c hc
      rcases List.mem_append.1 hc with hc | hc
      · exact hb c hc
      · rw [List.mem_singleton] at hc; subst hc; decide
    have h1 := blanks_no ha
    have h2 := blanks_no h32
    obtain ⟨c, r, rfl⟩ := List.exists_cons_of_ne_nil hne
    have hc : blank c = false := by
      cases h : blank c with
      | false => rfl
      | true => exact absurd ((blank_iff c).1 h) (hh c rfl)
    have hlines : lines (a ++ c :: r ++ b ++ [32]) = [a ++ c :: r ++ b ++ [32]] := by
      have := lines_text (ls := []) (by simp) (last := a ++ c :: r ++ (b ++ [32])) (by
        simp only [List.mem_append (s := a ++ c :: r), List.mem_append (s := a), not_or]
        exact ⟨⟨⟨h1.1, hl.newline⟩, h2.1⟩, ⟨h1.2, hl.return_⟩, h2.2⟩)
      rw [if_neg (by simp [hc])] at this
      simpa [text] using this
    have ht : trimRight ((a ++ c :: r ++ b ++ [32]).dropWhile blank) = c :: r := by
      rw [List.append_assoc, List.append_assoc, dropWhile_append_all (blanks_all ha), List.cons_append, dropWhile_head hc, ← List.cons_append]
      apply trimRight_split (blanks_all h32)
      cases e : (c :: r).reverse with
      | nil => simp at e
      | cons d s =>
        refine ⟨d, s, rfl, ?_⟩
        cases h : blank d with
        | false => rfl
        | true => exact absurd ((blank_iff d).1 h) (hl.tail d (by rw [List.getLast?_eq_head?_reverse, e]; rfl))
    rw [cleanUp, hlines]
    dsimp only
    rw [ht, if_neg (by simp)]
    rfl

-- `/**`, ` * ab`, ` *`, ` *   c`, ` */`
example (rest : Bytes) : ∃ p, scan false ([10, 32, 42, 32, 97, 98, 10, 32, 42, 10, 32, 42, 32, 32, 32, 99, 10, 32, 42, 47] ++ rest) = some (p, rest) ∧
    cleanUp (body p) = some [97, 98, 10, 10, 32, 32, 99, 10] :=
  starred_text (ind := [32]) (gap := [32]) (ls := [[97, 98], [], [32, 32, 99]]) (by decide) (by decide) (by decide)
    (by
      intro l hl
      simp only [List.mem_cons, List.not_mem_nil, or_false] at hl
      rcases hl with rfl | rfl | rfl
      · exact ⟨by decide, by decide, by rintro c ⟨⟩; decide⟩
      · exact ⟨by decide, by decide, by rintro c ⟨⟩⟩
      · exact ⟨by decide, by decide, by rintro c ⟨⟩; decide⟩)
    (by decide) (.inr ⟨[97, 98], by decide, 97, rfl, by decide⟩) rest
-- `/**`, `  a`, `  * b`, `*/`
example (rest : Bytes) : ∃ p, scan false ([10, 32, 32, 97, 10, 32, 32, 42, 32, 98, 10, 32, 32, 42, 47] ++ rest) = some (p, rest) ∧ cleanUp (body p) = some [97, 10, 42, 32, 98, 10] :=
  unstarred_text_partial (ind := [32, 32]) (ls := [[97], [42, 32, 98]]) (by decide)
    (by
      intro l hl
      simp only [List.mem_cons, List.not_mem_nil, or_false] at hl
      rcases hl with rfl | rfl
      · exact ⟨by decide, by decide, by rintro c ⟨⟩; decide⟩
      · exact ⟨by decide, by decide, by rintro c ⟨⟩; decide⟩)
    (by decide) (.inr ⟨[97], by decide, 97, rfl, by decide⟩) (by rintro l ⟨⟩; decide) rest
-- `/** a b */`
example (rest : Bytes) : ∃ p, scan false ([32, 97, 32, 98, 32, 42, 47] ++ rest) = some (p, rest) ∧ cleanUp (body p) = some [97, 32, 98, 10] :=
  short_text (a := [32]) (l := [97, 32, 98]) (b := [32]) (by decide) (by decide) ⟨by decide, by decide, by rintro c ⟨⟩; decide⟩ (by decide) (by rintro c ⟨⟩; decide) (by decide) rest

/-- Without stars, a list with a star at each item is taken for a comment with stars: the stars are gone. -/
theorem unstarred_text_fails : ∃ ls : List Bytes, (∀ l ∈ ls, Line l) ∧ (∀ l ∈ ls, ¬ [42, 47] <:+: l) ∧ Flush ls ∧
    ∃ p, scan false (unstarred [32] ls) = some (p, []) ∧ cleanUp (body p) ≠ some (text ls) := by
  refine ⟨[[42, 32, 97], [42, 32, 98]], ?_, by decide, .inr ⟨[42, 32, 97], by decide, 42, rfl, by decide⟩, _, rfl, by decide⟩
  intro l hl
  simp only [List.mem_cons, List.not_mem_nil, or_false] at hl
  rcases hl with rfl | rfl
  · exact ⟨by decide, by decide, by rintro c ⟨⟩; decide⟩
  · exact ⟨by decide, by decide, by rintro c ⟨⟩; decide⟩

theorem splitLines_intercalate {ls : List Bytes} (hne : ls ≠ []) (h : ∀ l ∈ ls, 10 ∉ l) : splitLines (List.intercalate [10] ls) = ls := by
  induction ls with
  | nil => exact absurd rfl hne
  | cons l ls ih =>
    cases ls with
    | nil =>
      rw [show List.intercalate [10] [l] = l by simp [List.intercalate]]
      exact splitLines_last (h l (by simp))
    | cons k ls =>
      rw [show List.intercalate [10] (l :: k :: ls) = l ++ 10 :: List.intercalate [10] (k :: ls) by simp [List.intercalate], splitLines_line (h l (by simp)),
        ih (by simp) fun l hl => h l (by simp [hl])]

theorem lines_of {t : Bytes} {ls : List Bytes} (hne : ls ≠ []) (hn : ∀ l ∈ ls, 10 ∉ l) (ht : t.filter (· ≠ 13) = List.intercalate [10] ls) :
    lines t = if ((ls.getLast?.getD []).all blank) then ls.dropLast else ls := by
  have e : t.filter (· != 13) = t.filter (· ≠ 13) := by
    congr 1
    funext c
    by_cases h : c = 13 <;> simp [h]
  rw [lines, e, ht, splitLines_intercalate hne hn]

theorem words_append (a b : List Bytes) : words (a ++ b) = words a ++ words b := by
  rw [words, words, words, List.map_append, List.filter_append]

theorem words_blank {l : Bytes} (h : l.all blank = true) : words [l] = [] := by
  rw [words_cons, strip_blank h]
  rfl

/-- Whatever a comment looks like: none of its words is lost and none is added, except that one star is taken away from each line after the first, if each of these lines that is not blank begins with one. -/
theorem words_kept {t first : Bytes} {rest : List Bytes} (hn : ∀ l ∈ first :: rest, 10 ∉ l) (ht : t.filter (· ≠ 13) = List.intercalate [10] (first :: rest)) {d : Bytes}
    (h : cleanUp t = some d) :
    ∃ ls, d = text ls ∧ (words ls = words (first :: rest) ∨
      (∀ w ∈ words rest, w.head? = some 42) ∧ words ls = words (first :: (words rest).map List.tail)) := by
  have hl := lines_of (by simp) hn ht
  obtain ⟨r, hr, hw⟩ : ∃ r, lines t = first :: r ∧ words r = words rest := by
    split at hl
    · rename_i hb
      cases rest with
      | nil =>
        rw [cleanUp, hl] at h
        cases h
      | cons k rest =>
        rw [List.dropLast_cons_of_ne_nil (by simp)] at hl
        refine ⟨_, hl, ?_⟩
        have hne : k :: rest ≠ [] := by simp
        have e : k :: rest = (k :: rest).dropLast ++ [(k :: rest).getLast hne] := (List.dropLast_concat_getLast hne).symm
        have hb' : ((k :: rest).getLast hne).all blank = true := by
          rw [List.getLast?_cons_cons, List.getLast?_eq_some_getLast hne] at hb
          exact hb
        conv => rhs; rw [e, words_append, words_blank hb', List.append_nil]
    · exact ⟨rest, hl, rfl⟩
  rw [cleanUp, hr] at h
  dsimp only at h
  injection h with h
  refine ⟨_, h.symm, ?_⟩
  have hf : strip (trimRight (first.dropWhile blank)) = strip first := by rw [strip_trimRight, strip_dropWhile]
  have hrest : words ((removeIndent (removeStars r)).map trimRight) = words (removeStars r) := by
    apply words_congr
    rw [List.map_map, ← removeIndent_words]
    apply List.map_congr_left
    exact fun l _ => strip_trimRight l
  have hall : words (if trimRight (first.dropWhile blank) = [] then (removeIndent (removeStars r)).map trimRight
      else trimRight (first.dropWhile blank) :: (removeIndent (removeStars r)).map trimRight) = words (first :: removeStars r) := by
    rw [words_cons, ← hrest]
    split
    · rename_i h0
      rw [h0] at hf
      rw [← hf, strip_nil, if_pos rfl, List.nil_append]
    · rw [words_cons, hf]
  rw [hall, words_cons, words_cons, words_cons, ← hw]
  rcases removeStars_words r with e | ⟨e1, e2⟩
  · exact .inl (by rw [e])
  · exact .inr ⟨e1, by rw [e2]⟩

-- `/** a`, `  * b`, `    c */`: the star stays; `/** a`, `  * b`, `  * c */`
example : cleanUp [32, 97, 10, 32, 32, 42, 32, 98, 10, 32, 32, 32, 32, 99, 32] = some [97, 10, 42, 32, 98, 10, 32, 32, 99, 10] := by decide
example : cleanUp [32, 97, 10, 32, 32, 42, 32, 98, 10, 32, 32, 42, 32, 99, 32] = some [97, 10, 98, 10, 99, 10] := by decide

theorem all_lines {t : Bytes} : ∃ ls, ls ≠ [] ∧ (∀ l ∈ ls, 10 ∉ l) ∧ t.filter (· ≠ 13) = List.intercalate [10] ls := by
  generalize t.filter (· ≠ 13) = u
  induction u with
  | nil => exact ⟨[[]], by simp, by simp, by simp [List.intercalate]⟩
  | cons c u ih =>
    obtain ⟨ls, hne, hn, e⟩ := ih
    by_cases hc : c = 10
    · subst hc
      refine ⟨[] :: ls, by simp, ?_, ?_⟩
      · intro l hl
        rcases List.mem_cons.1 hl with rfl | hl
        · simp
        · exact hn l hl
      · cases ls with
        | nil => exact absurd rfl hne
        | cons k ls => rw [e]; simp [List.intercalate]
    · cases ls with
      | nil => exact absurd rfl hne
      | cons k ls =>
        refine ⟨(c :: k) :: ls, by simp, ?_, ?_⟩
        · intro l hl
          rcases List.mem_cons.1 hl with rfl | hl
          · rw [List.mem_cons, not_or]
            exact ⟨fun h => hc h.symm, hn k (by simp)⟩
          · exact hn l (by simp [hl])
        · rw [e]
          cases ls <;> simp [List.intercalate]

/-- Only a comment of blanks on one line counts as none. -/
theorem no_text (t : Bytes) : cleanUp t = none ↔ ∀ c ∈ t, Blank c ∨ c = 13 := by
  have hiff : cleanUp t = none ↔ lines t = [] := by
    rw [cleanUp]
    cases lines t <;> simp
  rw [hiff]
  obtain ⟨ls, hne, hn, e⟩ := all_lines (t := t)
  rw [lines_of hne hn e]
  have hc : (∀ c ∈ t, Blank c ∨ c = 13) ↔ ∀ c ∈ t.filter (· ≠ 13), Blank c := by
    constructor
    · intro h c hc
      rw [List.mem_filter] at hc
      rcases h c hc.1 with h | h
      · exact h
      · simp [h] at hc
    · intro h c hc
      by_cases h13 : c = 13
      · exact .inr h13
      · exact .inl (h c (by rw [List.mem_filter]; exact ⟨hc, by simpa using h13⟩))
  rw [hc, e]
  cases ls with
  | nil => exact absurd rfl hne
  | cons l ls =>
    cases ls with
    | nil =>
      rw [show List.intercalate [10] [l] = l by simp [List.intercalate]]
      have : (∀ c ∈ l, Blank c) ↔ l.all blank = true := by
        rw [List.all_eq_true]
        exact ⟨fun h c hc => (blank_iff c).2 (h c hc), fun h c hc => (blank_iff c).1 (h c hc)⟩
      rw [this]
      simp
    | cons k ls =>
      constructor
      · intro h
        split at h
        · simp at h
        · cases h
      · intro h
        exact absurd (h 10 (by simp [List.intercalate])) (by decide)

/-- Only a comment of blanks on two lines is empty. -/
theorem empty_text (t : Bytes) : cleanUp t = some [] ↔ ∃ a b, t.filter (· ≠ 13) = a ++ 10 :: b ∧ (∀ c ∈ a, Blank c) ∧ ∀ c ∈ b, Blank c := by
  obtain ⟨ls, hne, hn, e⟩ := all_lines (t := t)
  have hl := lines_of hne hn e
  constructor
  · intro h
    rw [cleanUp] at h
    cases hf : lines t with
    | nil => rw [hf] at h; cases h
    | cons f r =>
      rw [hf] at h
      dsimp only at h
      injection h with h
      have h2 : trimRight (f.dropWhile blank) = [] ∧ r = [] := by
        split at h
        · rename_i h0
          refine ⟨h0, ?_⟩
          rw [List.flatMap_eq_nil_iff] at h
          cases hr : (removeIndent (removeStars r)).map trimRight with
          | nil =>
            have hw : ((removeIndent (removeStars r)).map trimRight).length = r.length := by
              rw [List.length_map]
              have h1 : ∀ ls : List Bytes, (removeIndent ls).length = ls.length := by
                intro ls; rw [removeIndent]; split <;> simp
              have h3 : ∀ ls : List Bytes, (removeStars ls).length = ls.length := by
                intro ls
                have := congrArg List.length (starLoop_words none ls)
                rw [List.length_map, List.length_map] at this
                rw [removeStars]
                split
                · rename_i e; rw [e] at this; simpa using this
                · rename_i e; rw [e] at this; simpa using this
              rw [h1, h3]
            rw [hr] at hw
            exact List.length_eq_zero_iff.1 hw.symm
          | cons x xs =>
            have := h x (by rw [hr]; simp)
            simp at this
        · simp at h
      obtain ⟨h0, rfl⟩ := h2
      have hb : f.all blank = true := by
        rw [← strip_nil_iff, ← strip_dropWhile, ← strip_trimRight, h0, strip_nil]
      rw [hf] at hl
      split at hl
      · rename_i hlast
        have hls : ls = [f] ++ [ls.getLast hne] := by
          conv => lhs; rw [← List.dropLast_concat_getLast hne, ← hl]
        rw [List.getLast?_eq_some_getLast hne] at hlast
        refine ⟨f, ls.getLast hne, ?_, ?_, ?_⟩
        · rw [e]
          conv => lhs; rw [hls]
          simp [List.intercalate]
        · rw [List.all_eq_true] at hb
          exact fun c hc => (blank_iff c).1 (hb c hc)
        · have hlast : (ls.getLast hne).all blank = true := hlast
          rw [List.all_eq_true] at hlast
          exact fun c hc => (blank_iff c).1 (hlast c hc)
      · rename_i hlast
        subst hl
        exact absurd hb hlast
  · rintro ⟨a, b, e', ha, hb⟩
    have hl2 : lines t = [a] := by
      rw [lines_of (ls := [a, b]) (by simp) (by
        intro l hl
        simp only [List.mem_cons, List.not_mem_nil, or_false] at hl
        rcases hl with rfl | rfl
        · exact (blanks_no ha).1
        · exact (blanks_no hb).1) (by rw [e']; simp [List.intercalate])]
      rw [if_pos (by simpa using blanks_all hb)]
      rfl
    rw [cleanUp_text hl2 (blanks_all ha)]
    rfl

/-! ### Which declaration gets it -/

/-- The comment that a declaration at this place gets: the last one since the declaration before it has begun -/
def last (pre : List Ev) : Option Bytes :=
  (pre.reverse.takeWhile fun e => e ≠ .declare ∧ e ≠ .destroy).findSome? fun e =>
    match e with
    | .comment t => some t
    | _ => none

/-- `g_doctext` after an event -/
def step (d : Option Bytes) : Ev → Option Bytes
  | .comment t => cleanUp t
  | .header => d
  | _ => none

theorem docs_at {s : St} {pre post : List Ev} {ds : List (Option Bytes)} (h : docs s (pre ++ .declare :: post) = some ds) :
    ds[pre.count .declare]? = some (pre.foldl step s.doc) := by
  induction pre generalizing s ds with
  | nil =>
    rw [List.nil_append, docs] at h
    rw [Option.map_eq_some_iff] at h
    obtain ⟨x, _, rfl⟩ := h
    rfl
  | cons e pre ih =>
    rw [List.cons_append] at h
    cases e with
    | comment t =>
      rw [docs] at h
      rw [List.count_cons_of_ne (by simp), List.foldl_cons]
      split at h
      · split at h
        · cases h
        · rename_i c hc
          rw [ih h, step]
      · rw [ih h, step]
    | destroy =>
      rw [docs] at h
      rw [List.count_cons_of_ne (by simp), List.foldl_cons, ih h]
      rfl
    | header =>
      rw [docs] at h
      rw [List.count_cons_of_ne (by simp), List.foldl_cons, ih h]
      rfl
    | declare =>
      rw [docs, Option.map_eq_some_iff] at h
      obtain ⟨x, hx, rfl⟩ := h
      rw [List.count_cons_self, List.getElem?_cons_succ, ih hx, List.foldl_cons]
      rfl

theorem foldl_last (q : List Ev) : q.reverse.foldl step none = (last q.reverse).bind cleanUp := by
  rw [last, List.reverse_reverse]
  induction q with
  | nil => rfl
  | cons e q ih =>
    rw [List.reverse_cons, List.foldl_append, List.foldl_cons, List.foldl_nil]
    cases e with
    | comment t => rw [List.takeWhile_cons_of_pos (by simp)]; rfl
    | header => rw [List.takeWhile_cons_of_pos (by simp)]; exact ih
    | destroy => rw [List.takeWhile_cons_of_neg (by simp)]; rfl
    | declare => rw [List.takeWhile_cons_of_neg (by simp)]; rfl

/-- Each definition, enum value, function and field gets the last doc comment before it that comes after the beginning of the one before it, and after the last header. -/
theorem attached {es pre post : List Ev} {ds : List (Option Bytes)} (h : docs {} es = some ds) (e : es = pre ++ .declare :: post) :
    ds[pre.count .declare]? = some ((last pre).bind cleanUp) := by
  subst e
  rw [docs_at h]
  have := foldl_last pre.reverse
  rw [List.reverse_reverse] at this
  rw [this]

theorem docs_length {s : St} {es : List Ev} {ds : List (Option Bytes)} (h : docs s es = some ds) : ds.length = es.count .declare := by
  induction es generalizing s ds with
  | nil => cases h; rfl
  | cons e es ih =>
    cases e with
    | comment t =>
      rw [docs] at h
      rw [List.count_cons_of_ne (by simp)]
      split at h
      · split at h
        · cases h
        · exact ih h
      · exact ih h
    | destroy => rw [docs] at h; rw [List.count_cons_of_ne (by simp)]; exact ih h
    | header => rw [docs] at h; rw [List.count_cons_of_ne (by simp)]; exact ih h
    | declare =>
      rw [docs, Option.map_eq_some_iff] at h
      obtain ⟨x, hx, rfl⟩ := h
      rw [List.count_cons_self, List.length_cons, ih hx]

-- `/** a */ struct S { /** b */ 1: i32 x  2: i32 y }`
example : docs {} [.comment [32, 97, 32], .declare, .comment [32, 98, 32], .declare, .declare] = some [some [97, 10], some [98, 10], none] := by decide

/-- A comment after each declaration, on the same line say: it is taken for the doc of the next one. -/
theorem trailing {ts : List Bytes} (h : ∀ t ∈ ts, ∃ c ∈ t, ¬ Blank c ∧ c ≠ 13) :
    docs {} (ts.flatMap (fun t => [.declare, .comment t]) ++ [.declare]) = some (none :: ts.map cleanUp) := by
  have key : ∀ (ts : List Bytes), (∀ t ∈ ts, ∃ c ∈ t, ¬ Blank c ∧ c ≠ 13) → ∀ s : St,
      docs s (ts.flatMap (fun t => [.declare, .comment t]) ++ [.declare]) = some (s.doc :: ts.map cleanUp) := by
    intro ts
    induction ts with
    | nil => intro _ s; rfl
    | cons t ts ih =>
      intro h s
      rw [List.flatMap_cons, List.append_assoc]
      show docs s (.declare :: .comment t :: (ts.flatMap (fun t => [.declare, .comment t]) ++ [.declare])) = _
      have ht : ∃ d, cleanUp t = some d := by
        cases hd : cleanUp t with
        | some d => exact ⟨d, rfl⟩
        | none =>
          obtain ⟨c, hc, h1, h2⟩ := h t (by simp)
          rcases (no_text t).1 hd c hc with h | h
          · exact absurd h h1
          · exact absurd h h2
      obtain ⟨d, hd⟩ := ht
      rw [docs, docs]
      have hrec := ih fun t ht => h t (by simp [ht])
      dsimp only
      split
      · rw [hd]
        dsimp only
        rw [hrec, List.map_cons, hd]
        rfl
      · rw [hrec, List.map_cons]
        rfl
  exact key ts h {}

-- `1: i32 x /** of x */  2: i32 y /** of y */ }  struct T`
example : docs {} [.declare, .comment [120], .declare, .comment [121], .declare] = some [none, some [120, 10], some [121, 10]] :=
  trailing (ts := [[120], [121]]) (by decide)

/-- The compiler does not survive a blank doc comment before any other, unless a header comes first. -/
theorem crash (es : List Ev) : docs {} es = none ↔
    ∃ pre t post, es = pre ++ .comment t :: post ∧ (∀ e ∈ pre, e = .declare ∨ e = .destroy) ∧ ∀ c ∈ t, Blank c ∨ c = 13 := by
  have done : ∀ (es : List Ev) (s : St), (s.candidate ≠ none ∨ s.invalid = false) → docs s es ≠ none := by
    intro es
    induction es with
    | nil => intro s _ h; cases h
    | cons e es ih =>
      intro s hs
      have hn : ¬ (s.candidate = none ∧ s.invalid = true) := by
        rintro ⟨h1, h2⟩
        rcases hs with h | h
        · exact h h1
        · rw [h2] at h; cases h
      cases e with
      | comment t =>
        rw [docs, if_neg hn]
        exact ih _ hs
      | destroy => rw [docs]; exact ih _ hs
      | header => rw [docs]; exact ih _ (.inr rfl)
      | declare =>
        rw [docs]
        intro h
        rw [Option.map_eq_none_iff] at h
        exact ih { s with doc := none } hs h
  have key : ∀ (es : List Ev) (d : Option Bytes), docs { doc := d } es = none ↔
      ∃ pre t post, es = pre ++ .comment t :: post ∧ (∀ e ∈ pre, e = .declare ∨ e = .destroy) ∧ ∀ c ∈ t, Blank c ∨ c = 13 := by
    intro es
    induction es with
    | nil => intro d; simp [docs]
    | cons e es ih =>
      intro d
      have later : (e = .declare ∨ e = .destroy) → ((∃ pre t post, es = pre ++ .comment t :: post ∧ (∀ e ∈ pre, e = .declare ∨ e = .destroy) ∧ ∀ c ∈ t, Blank c ∨ c = 13) ↔
          ∃ pre t post, e :: es = pre ++ .comment t :: post ∧ (∀ e ∈ pre, e = .declare ∨ e = .destroy) ∧ ∀ c ∈ t, Blank c ∨ c = 13) := by
        intro he
        constructor
        · rintro ⟨pre, t, post, rfl, h1, h2⟩
          refine ⟨e :: pre, t, post, rfl, ?_, h2⟩
          intro x hx
          rcases List.mem_cons.1 hx with rfl | hx
          · exact he
          · exact h1 x hx
        · rintro ⟨pre, t, post, h0, h1, h2⟩
          cases pre with
          | nil =>
            injection h0 with h0 _
            subst h0
            rcases he with he | he <;> cases he
          | cons x pre =>
            injection h0 with _ h0
            exact ⟨pre, t, post, h0, fun y hy => h1 y (by simp [hy]), h2⟩
      cases e with
      | comment t =>
        rw [docs]
        dsimp only
        rw [if_pos ⟨rfl, rfl⟩]
        constructor
        · intro h
          split at h
          · rename_i hd
            exact ⟨[], t, es, rfl, by simp, (no_text t).1 hd⟩
          · exact absurd h (done _ _ (.inl (by simp)))
        · rintro ⟨pre, t', post, h0, h1, h2⟩
          cases pre with
          | nil =>
            injection h0 with h0 _
            injection h0 with h0
            subst h0
            rw [(no_text t).2 h2]
          | cons x pre =>
            injection h0 with h0 _
            subst h0
            rcases h1 _ List.mem_cons_self with h | h <;> cases h
      | destroy => rw [docs, ← later (.inr rfl)]; exact ih none
      | header =>
        rw [docs]
        constructor
        · intro h
          exact absurd h (done _ _ (.inr rfl))
        · rintro ⟨pre, t', post, h0, h1, h2⟩
          cases pre with
          | nil => injection h0 with h0 _; cases h0
          | cons x pre =>
            injection h0 with h0 _
            subst h0
            rcases h1 _ List.mem_cons_self with h | h <;> cases h
      | declare => rw [docs, Option.map_eq_none_iff, ← later (.inl rfl)]; exact ih none
  exact key es none

-- `struct S {} /** */`; after another comment, it does not matter
example : docs {} [.declare, .comment [32, 32]] = none := (crash _).2 ⟨[.declare], [32, 32], [], rfl, by decide, by decide⟩
example : docs {} [.comment [97], .declare, .comment [32, 32], .declare] = some [some [97, 10], none] := by decide

/-! ### The docstring -/

/-- The lines of an entry -/
def entryLines (f : Bytes × Option (List Bytes)) : List Bytes :=
  match f.2 with
  | none => [[32, 45, 32] ++ f.1]
  | some [] => []
  | some (l :: ls) => ([32, 45, 32] ++ f.1 ++ [58, 32] ++ l) :: ls

/-- The docstring of a class or method with members has its own doc, an empty line and the heading, and an entry for each member, in order, if no comment of a member is empty. -/
theorem listed_partial (sub : Bytes) (doc : Option (List Bytes)) {fields : List (Bytes × Option (List Bytes))} (hne : fields ≠ []) (h : ∀ f ∈ fields, f.2 ≠ some []) :
    contents sub (doc.map text) (fields.map fun f => (f.1, f.2.map text)) =
      some (text ((match doc with
        | some ls => ls ++ [[]]
        | none => []) ++ [sub ++ [58]] ++ fields.flatMap entryLines)) := by
  have hf : (fields.map fun f => (f.1, f.2.map text)).flatMap entry = text (fields.flatMap entryLines) := by
    clear hne
    induction fields with
    | nil => rfl
    | cons f fs ih =>
      have h1 := h f (by simp)
      rw [List.map_cons, List.flatMap_cons, List.flatMap_cons, text, List.flatMap_append, ih fun f hf => h f (by simp [hf])]
      congr 1
      obtain ⟨n, d⟩ := f
      cases d with
      | none => simp [entry, entryLines]
      | some ls =>
        cases ls with
        | nil => exact absurd rfl h1
        | cons l ls => simp [entry, entryLines, text]
  rw [contents.eq_def, if_neg (by simpa using hne), hf]
  cases doc <;> simp [text]

/-- With an empty comment (`/**` and `*/` on two lines, `empty_text`) the member after it is on the same line. -/
theorem listed_fails (sub x y : Bytes) (d : Option Bytes) : ∃ b, contents sub none [(x, some []), (y, d)] = some (sub ++ [58, 10] ++ [32, 45, 32] ++ x ++ [58, 32] ++ [32, 45, 32] ++ y ++ b) := by
  refine ⟨match d with
    | some d => [58, 32] ++ d
    | none => [10], ?_⟩
  cases d <;> simp [contents, entry]

-- a struct with a doc and two fields
example : contents [65] (some [100, 10]) [([120], some [101, 10]), ([121], none)] = some [100, 10, 10, 65, 58, 10, 32, 45, 32, 120, 58, 32, 101, 10, 32, 45, 32, 121, 10] :=
  listed_partial [65] (some [[100]]) (fields := [([120], some [[101]]), ([121], none)]) (by simp) (by decide)

theorem utf8_text (ls : List PyStr) : text (ls.map utf8) = utf8 (comment (ls ++ [[]])) := by
  induction ls with
  | nil => rfl
  | cons l ls ih =>
    have e : comment (l :: ls ++ [[]]) = l ++ [10] ++ comment (ls ++ [[]]) := by
      cases ls <;> simp [comment, List.intercalate]
    rw [e, Json.utf8_append, Json.utf8_append, ← ih, List.map_cons, text, List.flatMap_cons]
    rfl

/-- From the IDL file to Python: a doc comment with stars is the docstring, line by line, of the enum or the service or the struct or the function without members it stands before. -/
theorem python_partial {ind gap : Bytes} (hi : ∀ c ∈ ind, Blank c) (hg : ∀ c ∈ gap, Blank c) (hne : gap ≠ []) {ls : List PyStr} (hp : ∀ l ∈ ls, PlainLine l)
    (hl : ∀ l ∈ ls, Line (utf8 l)) (he : ∀ l ∈ ls, ¬ [42, 47] <:+: utf8 l) (hf : Flush (ls.map utf8)) (names : PyStr → Option Nat) (n : Nat) {rest post : Bytes} {p : PyStr}
    (hpost : utf8Decode post = .ok p) :
    ∃ t d, scan false (starred ind gap (ls.map utf8) ++ rest) = some (t, rest) ∧ cleanUp (body t) = some d ∧ contents [] (some d) [] = some d ∧
      pySource names (renderDoc (List.replicate n 32) d ++ post) =
        some (.text (10 :: (docText (List.replicate n 32) (ls ++ [[]]) ++ List.replicate n 32)), 10 :: p) := by
  obtain ⟨t, h1, h2⟩ := starred_text hi hg hne (ls := ls.map utf8) (by
      intro l h
      obtain ⟨k, hk, rfl⟩ := List.mem_map.1 h
      exact hl k hk) (by
      intro l h
      obtain ⟨k, hk, rfl⟩ := List.mem_map.1 h
      exact he k hk) hf rest
  refine ⟨t, _, h1, h2, rfl, ?_⟩
  rw [utf8_text]
  refine docstring_partial n (by simp) ?_ hpost
  intro l h
  rcases List.mem_append.1 h with h | h
  · exact hp l h
  · rw [List.mem_singleton] at h
    subst h
    exact ⟨by simp, by simp, by simp, by simp, by decide⟩

-- ` * é`
example (names : PyStr → Option Nat) : ∃ t d, scan false (starred [32] [32] [utf8 [233]] ++ [10]) = some (t, [10]) ∧ cleanUp (body t) = some d ∧ contents [] (some d) [] = some d ∧
    pySource names (renderDoc (List.replicate 4 32) d ++ [112]) = some (.text [10, 32, 32, 32, 32, 233, 10, 10, 32, 32, 32, 32], [10, 112]) :=
  python_partial (ls := [[233]]) (by decide) (by decide) (by decide) (by
      intro l h
      rw [List.mem_singleton] at h
      subst h
      exact ⟨by decide, by decide, by decide, by decide, by decide⟩) (by
      intro l h
      rw [List.mem_singleton] at h
      subst h
      exact ⟨by decide, by decide, by rintro c ⟨⟩; decide⟩) (by decide) (.inr ⟨utf8 [233], by simp, 0xC3, rfl, by decide⟩) names 4 rfl

end Thrift.Doc
