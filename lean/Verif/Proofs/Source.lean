import Verif.Model.Source
import Verif.Spec.Source
import Verif.Proofs.JsonLang
import Verif.Proofs.Utf8
/-
Lemmas for `Props/Source.lean`: UTF-8 with ASCII characters in it, the string tokens of Python.
-/

namespace Thrift.Source
open Spec Spec.Source
open Json (utf8_append utf8_cons utf8_ascii utf8_high)

theorem scalar_ascii {c : Nat} (h : c < 0x80) : Scalar c := by unfold Scalar; omega

theorem utf8_nil : utf8 [] = [] := rfl

theorem utf8_ascii_cons {c : Nat} (h : c < 0x80) (s : PyStr) : utf8 (c :: s) = UInt8.ofNat c :: utf8 s := by
  rw [utf8_cons, utf8_ascii h]; rfl

theorem utf8Decode_append {s : PyStr} (h : ∀ c ∈ s, Scalar c) (post : Bytes) :
    utf8Decode (utf8 s ++ post) = (utf8Decode post).map (s ++ ·) := by
  induction s with
  | nil =>
    show utf8Decode post = _
    cases utf8Decode post <;> rfl
  | cons c cs ih =>
    have hc : utf8EncodeChar c = .ok (utf8 [c]) := by
      rw [utf8EncodeChar_eq (h c (by simp))]
      simp [utf8]
    rw [utf8_cons, List.append_assoc, utf8Decode_encodeChar hc, ih fun d hd => h d (by simp [hd])]
    cases utf8Decode post <;> rfl

/-- Where an ASCII byte stands in UTF-8, a character stands in the text. -/
theorem utf8_split {s : PyStr} (hs : ∀ c ∈ s, Scalar c) {a b : Bytes} {x : UInt8} (hx : x.toNat < 0x80) (h : utf8 s = a ++ x :: b) :
    ∃ s₁ s₂, s = s₁ ++ x.toNat :: s₂ ∧ utf8 s₁ = a ∧ utf8 s₂ = b := by
  induction s generalizing a with
  | nil => cases a <;> cases h
  | cons c cs ih =>
    have hcs : ∀ d ∈ cs, Scalar d := fun d hd => hs d (by simp [hd])
    rw [utf8_cons] at h
    rcases List.append_eq_append_iff.1 h with ⟨a', h1, h2⟩ | ⟨c', h1, h2⟩
    · obtain ⟨s₁, s₂, e1, e2, e3⟩ := ih hcs h2
      exact ⟨c :: s₁, s₂, by rw [e1]; rfl, by rw [utf8_cons, e2, h1], e3⟩
    · cases c' with
      | nil =>
        rw [List.nil_append] at h2
        obtain ⟨s₁, s₂, e1, e2, e3⟩ := ih (a := []) hcs h2.symm
        exact ⟨c :: s₁, s₂, by rw [e1]; rfl, by rw [utf8_cons, e2, h1, List.append_nil, List.append_nil], e3⟩
      | cons y c' =>
        rw [List.cons_append] at h2
        injection h2 with h2 h3
        subst h2
        by_cases hc : c < 0x80
        · rw [utf8_ascii hc] at h1
          cases a with
          | nil =>
            simp only [List.nil_append, List.cons.injEq] at h1
            obtain ⟨rfl, rfl⟩ := h1
            refine ⟨[], cs, ?_, rfl, h3.symm⟩
            rw [UInt8.toNat_ofNat', Nat.mod_eq_of_lt (by omega)]
            rfl
          | cons z a => simp at h1
        · have := (utf8_high (hs c (by simp)) (by omega)).2 x (by rw [h1]; simp)
          omega

/-! ### `escape_string` -/

/-- The escapes on characters -/
def escapeChar (c : Nat) : PyStr :=
  if c = 10 then [92, 110]
  else if c = 13 then [92, 114]
  else if c = 9 then [92, 116]
  else if c = 34 then [92, 34]
  else if c = 92 then [92, 92]
  else [c]

theorem escapeByte_high {c : UInt8} (h : 0x80 ≤ c.toNat) : escapeByte c = [c] := by
  unfold escapeByte
  have : ∀ d : UInt8, d.toNat < 0x80 → c ≠ d := by rintro d hd rfl; omega
  rw [if_neg (this _ (by decide)), if_neg (this _ (by decide)), if_neg (this _ (by decide)), if_neg (this _ (by decide)), if_neg (this _ (by decide))]

theorem escapeString_append (a b : Bytes) : escapeString (a ++ b) = escapeString a ++ escapeString b := List.flatMap_append ..

theorem escapeString_high {s : Bytes} (h : ∀ c ∈ s, 0x80 ≤ c.toNat) : escapeString s = s := by
  induction s with
  | nil => rfl
  | cons c cs ih =>
    unfold escapeString at *
    rw [List.flatMap_cons, escapeByte_high (h c (by simp)), ih fun d hd => h d (by simp [hd])]
    rfl

theorem escapeChar_utf8 {c : Nat} (h : Scalar c) : escapeString (utf8 [c]) = utf8 (escapeChar c) := by
  by_cases hc : c < 0x80
  · have : ∀ c < 0x80, escapeString (utf8 [c]) = utf8 (escapeChar c) := by decide +kernel
    exact this c hc
  · rw [escapeString_high (utf8_high h (by omega)).2]
    unfold escapeChar
    rw [if_neg (by omega), if_neg (by omega), if_neg (by omega), if_neg (by omega), if_neg (by omega)]

theorem escapeString_utf8 {s : PyStr} (h : ∀ c ∈ s, Scalar c) : escapeString (utf8 s) = utf8 (s.flatMap escapeChar) := by
  induction s with
  | nil => rfl
  | cons c cs ih =>
    rw [utf8_cons, escapeString_append, ih fun d hd => h d (by simp [hd]), escapeChar_utf8 (h c (by simp)), List.flatMap_cons, utf8_append]

theorem escapeChar_scalar {c : Nat} (h : Scalar c) : ∀ d ∈ escapeChar c, Scalar d := by
  intro d hd
  unfold escapeChar at hd
  repeat' split at hd
  all_goals simp only [List.mem_cons, List.not_mem_nil, or_false] at hd
  all_goals first
    | (rcases hd with rfl | rfl <;> decide)
    | (subst hd; exact h)

theorem flatMap_scalar {s : PyStr} (h : ∀ c ∈ s, Scalar c) : ∀ d ∈ s.flatMap escapeChar, Scalar d := by
  intro d hd
  rw [List.mem_flatMap] at hd
  obtain ⟨c, hc, hd⟩ := hd
  exact escapeChar_scalar (h c hc) d hd

/-- Bytes that are not escaped come from the same bytes. -/
theorem escapeString_prefix {h r s : Bytes} (hh : ∀ c ∈ h, 0x80 ≤ c.toNat) (e : escapeString s = h ++ r) :
    ∃ s', s = h ++ s' ∧ escapeString s' = r := by
  induction h generalizing s with
  | nil => exact ⟨s, rfl, e⟩
  | cons c h ih =>
    cases s with
    | nil => cases e
    | cons d s =>
      have hc := hh c (by simp)
      have hd : escapeByte d = [d] ∧ d = c := by
        by_cases hd : 0x80 ≤ d.toNat
        · have := escapeByte_high hd
          rw [show escapeString (d :: s) = escapeByte d ++ escapeString s from rfl, this] at e
          exact ⟨this, by injection e⟩
        · exfalso
          have h0 : ∃ x xs, escapeByte d = x :: xs ∧ x.toNat < 0x80 := by
            unfold escapeByte
            repeat' split
            all_goals exact ⟨_, _, rfl, by first | decide | omega⟩
          obtain ⟨x, xs, h0, h1⟩ := h0
          rw [show escapeString (d :: s) = escapeByte d ++ escapeString s from rfl, h0] at e
          injection e with e
          subst e
          omega
      obtain ⟨h1, rfl⟩ := hd
      rw [show escapeString (d :: s) = escapeByte d ++ escapeString s from rfl, h1] at e
      injection e with _ e
      obtain ⟨s', h2, h3⟩ := ih (fun x hx => hh x (by simp [hx])) e
      exact ⟨s', by rw [h2]; rfl, h3⟩

theorem isUtf8_cons {c : Nat} (hc : Scalar c) {s : Bytes} (h : IsUtf8 s) : IsUtf8 (utf8 [c] ++ s) := by
  obtain ⟨x, h1, rfl⟩ := h
  exact ⟨c :: x, by simpa using ⟨hc, h1⟩, utf8_cons c x⟩

/-- If the escaped bytes are UTF-8, so are the bytes. -/
theorem escapeString_isUtf8 : ∀ (n : Nat) (u : PyStr) (s : Bytes), u.length ≤ n → (∀ c ∈ u, Scalar c) → escapeString s = utf8 u → IsUtf8 s := by
  intro n
  induction n with
  | zero =>
    intro u s hl _ e
    cases u with
    | nil =>
      cases s with
      | nil => exact ⟨[], by simp, rfl⟩
      | cons c s =>
        exfalso
        rw [show escapeString (c :: s) = escapeByte c ++ escapeString s from rfl] at e
        have : escapeByte c ≠ [] := by
          unfold escapeByte
          repeat' split
          all_goals simp
        cases h : escapeByte c with
        | nil => exact this h
        | cons _ _ => rw [h] at e; cases e
    | cons _ _ => simp at hl
  | succ n ih =>
    intro u s hl hu e
    cases u with
    | nil => exact ih [] s (by simp) (by simp) e
    | cons c u =>
      have hcs : ∀ d ∈ u, Scalar d := fun d hd => hu d (by simp [hd])
      have hlu : u.length ≤ n := by simpa using hl
      by_cases hc : c < 0x80
      · rw [utf8_ascii_cons hc] at e
        cases s with
        | nil => cases e
        | cons d s =>
          rw [show escapeString (d :: s) = escapeByte d ++ escapeString s from rfl] at e
          have key : escapeByte d = [d] ∨ ∃ k : UInt8, k.toNat < 0x80 ∧ escapeByte d = [92, k] := by
            unfold escapeByte
            repeat' split
            all_goals first
              | exact .inl rfl
              | exact .inr ⟨_, by decide, rfl⟩
          rcases key with h | ⟨k, hk, h⟩
          · rw [h] at e
            injection e with e1 e2
            subst e1
            have := isUtf8_cons (hu c (by simp)) (ih u s hlu hcs e2)
            rwa [utf8_ascii hc] at this
          · rw [h] at e
            injection e with e1 e2
            have hd : d.toNat < 0x80 := by
              refine Decidable.byContradiction fun hd => ?_
              rw [escapeByte_high (by omega)] at h
              cases h
            obtain ⟨u₁, u₂, h1, h2, h3⟩ := utf8_split (a := []) hcs hk e2.symm
            have hs := ih u₂ s (by rw [h1] at hlu; simp at hlu; omega) (fun x hx => hcs x (by rw [h1]; simp [hx])) h3.symm
            have := isUtf8_cons (scalar_ascii hd) hs
            rw [utf8_ascii hd, UInt8.ofNat_toNat] at this
            exact this
      · rw [utf8_cons] at e
        obtain ⟨s', rfl, h2⟩ := escapeString_prefix (utf8_high (hu c (by simp)) (by omega)).2 e
        exact isUtf8_cons (hu c (by simp)) (ih u s' hlu hcs h2)

/-! ### Tokens -/

theorem scanShort_escaped (s p : PyStr) : scanShort (s.flatMap escapeChar ++ 34 :: p) = some (s.flatMap escapeChar, p) := by
  induction s with
  | nil =>
    show scanShort (34 :: p) = _
    rw [scanShort.eq_def]
    rfl
  | cons c s ih =>
    rw [List.flatMap_cons, List.append_assoc]
    have key : escapeChar c = [c] ∧ c ≠ 10 ∧ c ≠ 34 ∧ c ≠ 92 ∨ ∃ k, escapeChar c = [92, k] := by
      unfold escapeChar
      repeat' split
      all_goals first
        | exact .inr ⟨_, rfl⟩
        | exact .inl ⟨rfl, by assumption, by assumption, by assumption⟩
    rcases key with ⟨h, h1, h2, h3⟩ | ⟨k, h⟩
    · rw [h]
      show scanShort (c :: (s.flatMap escapeChar ++ 34 :: p)) = _
      rw [scanShort.eq_def]
      dsimp only
      rw [if_neg h1, if_neg h2, if_neg h3, ih]
      rfl
    · rw [h]
      show scanShort (92 :: k :: (s.flatMap escapeChar ++ 34 :: p)) = _
      rw [scanShort.eq_def]
      dsimp only
      rw [if_neg (by decide), if_neg (by decide), if_pos rfl, ih]
      rfl

theorem unescape_plain {bytes : Bool} {names : PyStr → Option Nat} {c : Nat} (h : c ≠ 92) (n : Nat) (s : PyStr) :
    unescape bytes names (n + 1) (c :: s) = (unescape bytes names n s).map (c :: ·) := by
  rw [unescape, if_neg h]

theorem unescape_simple {bytes : Bool} {names : PyStr → Option Nat} {k x : Nat} (h : simpleEscape k = some x) (n : Nat) (s : PyStr) :
    unescape bytes names (n + 1) (92 :: k :: s) = (unescape bytes names n s).map (x :: ·) := by
  rw [unescape, if_pos rfl, escapeSeq.eq_def]
  dsimp only
  rw [h]
  rfl

theorem unescape_escaped (bytes : Bool) (names : PyStr → Option Nat) (s : PyStr) : ∀ n, (s.flatMap escapeChar).length ≤ n →
    unescape bytes names n (s.flatMap escapeChar) = some s := by
  induction s with
  | nil => intro n _; cases n <;> rfl
  | cons c s ih =>
    intro n hn
    rw [List.flatMap_cons] at hn ⊢
    have key : escapeChar c = [c] ∧ c ≠ 92 ∨ ∃ k, escapeChar c = [92, k] ∧ simpleEscape k = some c := by
      unfold escapeChar
      repeat' split
      all_goals first
        | exact .inl ⟨rfl, by assumption⟩
        | (rename_i h; subst h; exact .inr ⟨_, rfl, by decide⟩)
    rcases key with ⟨h, h1⟩ | ⟨k, h, h1⟩
    · rw [h] at hn ⊢
      cases n with
      | zero => simp at hn
      | succ n =>
        show unescape bytes names (n + 1) (c :: s.flatMap escapeChar) = _
        rw [unescape_plain h1, ih n (by simpa using hn)]
        rfl
    · rw [h] at hn ⊢
      cases n with
      | zero => simp at hn
      | succ n =>
        show unescape bytes names (n + 1) (92 :: k :: s.flatMap escapeChar) = _
        rw [unescape_simple h1, ih n (by simp at hn ⊢; omega)]
        rfl

theorem unescape_none {bytes : Bool} {names : PyStr → Option Nat} {s : PyStr} (h : 92 ∉ s) : ∀ n, s.length ≤ n →
    unescape bytes names n s = some s := by
  induction s with
  | nil => intro n _; cases n <;> rfl
  | cons c s ih =>
    intro n hn
    cases n with
    | zero => simp at hn
    | succ n =>
      simp only [List.mem_cons, not_or] at h
      rw [unescape_plain (Ne.symm h.1), ih h.2 n (by simpa using hn)]
      rfl

/-- The end of a token in three quotes: what is before it does not end with a quote. -/
theorem scanLong_plain {s : PyStr} (hb : 92 ∉ s) (hq : ¬ [34, 34, 34] <:+: s ++ [34, 34]) (p : PyStr) :
    scanLong (s ++ 34 :: 34 :: 34 :: p) = some (s, p) := by
  induction s with
  | nil => rfl
  | cons c s ih =>
    simp only [List.mem_cons, not_or] at hb
    have ih := ih hb.2 fun h => hq (h.trans (List.suffix_cons c _).isInfix)
    rw [List.cons_append, scanLong.eq_def]
    dsimp only
    rw [if_neg (Ne.symm hb.1)]
    have hne : ∀ r, s ++ 34 :: 34 :: 34 :: p = 34 :: 34 :: r → c ≠ 34 := by
      rintro r hr rfl
      apply hq
      cases s with
      | nil => exact ⟨[], [], rfl⟩
      | cons a s =>
        injection hr with h1 hr
        subst h1
        cases s with
        | nil => exact ⟨[], [34], rfl⟩
        | cons b s =>
          injection hr with h1 hr
          subst h1
          exact ⟨[], s ++ [34, 34], rfl⟩
    split
    · rename_i r h1
      exact absurd rfl (hne _ h1)
    · rw [ih]
      rfl

/-! ### Lines -/

/-- A list without `x` in it is on one side of an `x`. -/
theorem infix_split {q a b : PyStr} {x : Nat} (hx : x ∉ q) (h : q <:+: a ++ x :: b) : q <:+: a ∨ q <:+: b := by
  obtain ⟨s, t, h⟩ := h
  rcases List.append_eq_append_iff.1 h with ⟨a', h1, _⟩ | ⟨c, h1, h2⟩
  · exact .inl ⟨s, a', h1.symm⟩
  · cases c with
    | nil => exact .inl ⟨s, [], by rw [List.append_nil, h1]; simp⟩
    | cons y c =>
      injection h2 with h2 h3
      subst h2
      rw [show a ++ x :: c = (a ++ [x]) ++ c by simp] at h1
      rcases List.append_eq_append_iff.1 h1 with ⟨a', h4, h5⟩ | ⟨c', h4, h5⟩
      · cases a'.eq_nil_or_concat with
        | inl h => subst h; exact .inr ⟨[], t, by rw [h3, h5]; simp⟩
        | inr h =>
          obtain ⟨L, y, rfl⟩ := h
          have := congrArg List.getLast? h4
          simp at this
          subst this
          exact absurd (by rw [h5]; simp) hx
      · exact .inr ⟨c', t, by rw [h3, h5]; rfl⟩

theorem infix_single {q : PyStr} (hq : q ≠ []) {x : Nat} (hx : x ∉ q) {b : PyStr} (h : q <:+: x :: b) : q <:+: b := by
  rcases infix_split (a := []) hx h with h | h
  · obtain ⟨s, t, h⟩ := h
    simp at h
    exact absurd h.2.1 hq
  · exact h

theorem infix_replicate {q : PyStr} (hq : q ≠ []) {x : Nat} (hx : x ∉ q) {b : PyStr} (n : Nat) (h : q <:+: List.replicate n x ++ b) : q <:+: b := by
  induction n with
  | zero => exact h
  | succ n ih => exact ih (infix_single hq hx h)

theorem splitLines_line {a : Bytes} (h : 10 ∉ a) (b : Bytes) : splitLines (a ++ 10 :: b) = a :: splitLines b := by
  induction a with
  | nil => rw [List.nil_append, splitLines.eq_def]; rfl
  | cons c a ih =>
    simp only [List.mem_cons, not_or] at h
    rw [List.cons_append, splitLines.eq_def]
    dsimp only
    rw [if_neg (Ne.symm h.1), ih h.2]

theorem splitLines_last {a : Bytes} (h : 10 ∉ a) : splitLines a = [a] := by
  induction a with
  | nil => rfl
  | cons c a ih =>
    simp only [List.mem_cons, not_or] at h
    rw [splitLines.eq_def]
    dsimp only
    rw [if_neg (Ne.symm h.1), ih h.2]

theorem splitLines_ne (a : Bytes) : splitLines a ≠ [] := by
  cases a with
  | nil => simp [splitLines]
  | cons c a =>
    rw [splitLines.eq_def]
    dsimp only
    split
    · simp
    · split <;> simp

/-- The first line of `a ++ b` begins with `a`. -/
theorem splitLines_append {a : Bytes} (h : 10 ∉ a) (b : Bytes) : ∃ l ls, splitLines b = l :: ls ∧ splitLines (a ++ b) = (a ++ l) :: ls := by
  induction a with
  | nil =>
    cases e : splitLines b with
    | nil => exact absurd e (splitLines_ne b)
    | cons l ls => exact ⟨l, ls, rfl, e⟩
  | cons c a ih =>
    simp only [List.mem_cons, not_or] at h
    obtain ⟨l, ls, h1, h2⟩ := ih h.2
    refine ⟨l, ls, h1, ?_⟩
    rw [List.cons_append, splitLines.eq_def]
    dsimp only
    rw [if_neg (Ne.symm h.1), h2]
    rfl

theorem utf8_newline {l : PyStr} (hs : ∀ c ∈ l, Scalar c) (h : 10 ∉ l) : 10 ∉ utf8 l := by
  intro hm
  obtain ⟨a, b, e⟩ := List.append_of_mem hm
  obtain ⟨s₁, s₂, h1, _⟩ := utf8_split hs (by decide) e
  exact h (by rw [h1]; simp)

theorem comment_cons {l : PyStr} {ls : List PyStr} (h : ls ≠ []) : comment (l :: ls) = l ++ 10 :: comment ls := by
  cases ls with
  | nil => exact absurd rfl h
  | cons m ls => simp [comment, List.intercalate, List.intersperse]

theorem splitLines_comment {ls : List PyStr} (hne : ls ≠ []) (h : ∀ l ∈ ls, PlainLine l) : splitLines (utf8 (comment ls)) = ls.map utf8 := by
  induction ls with
  | nil => exact absurd rfl hne
  | cons l ls ih =>
    have hl := h l (by simp)
    have hn := utf8_newline hl.scalar hl.newline
    by_cases e : ls = []
    · subst e
      rw [show comment [l] = l by simp [comment, List.intercalate, List.intersperse], splitLines_last hn]
      rfl
    · rw [comment_cons e, utf8_append, utf8_ascii_cons (by decide)]
      show splitLines (utf8 l ++ 10 :: _) = _
      rw [splitLines_line hn, ih e fun m hm => h m (by simp [hm])]
      rfl

theorem emitLines_comment (ind : PyStr) {ls : List PyStr} (h : ∀ l ∈ ls, PlainLine l) : emitLines (utf8 ind) (ls.map utf8) = utf8 (docText ind ls) := by
  induction ls with
  | nil => rfl
  | cons l ls ih =>
    have hl := h l (by simp)
    rw [List.map_cons, emitLines, if_neg (by have := hl.short; rw [utf8_length hl.scalar]; omega), ih fun m hm => h m (by simp [hm]),
      show docText ind (l :: ls) = ((if l = [] then [] else ind ++ l) ++ [10]) ++ docText ind ls from rfl]
    by_cases e : l = []
    · subst e
      rw [if_pos rfl, if_pos utf8_nil, List.nil_append, List.cons_append, List.nil_append, utf8_ascii_cons (by decide)]
      rfl
    · rw [if_neg e, if_neg, utf8_append, utf8_append, utf8_append]
      · rfl
      · intro h0
        cases l with
        | nil => exact e rfl
        | cons c l =>
          have hc := hl.scalar c (by simp)
          have : utf8 [c] = [] := by rw [utf8_cons] at h0; exact (List.append_eq_nil_iff.1 h0).1
          by_cases hc' : c < 0x80
          · rw [utf8_ascii hc'] at this; cases this
          · exact (utf8_high hc (by omega)).1 this

theorem docText_no_quotes (n : Nat) {ls : List PyStr} (h : ∀ l ∈ ls, PlainLine l) :
    ¬ [34, 34, 34] <:+: (docText (List.replicate n 32) ls ++ List.replicate n 32) ++ [34, 34] := by
  induction ls with
  | nil =>
    intro hq
    rw [show docText (List.replicate n 32) [] = [] from rfl, List.nil_append] at hq
    exact absurd (infix_replicate (by simp) (by decide) n hq) (by decide)
  | cons l ls ih =>
    intro hq
    rw [show docText (List.replicate n 32) (l :: ls) = ((if l = [] then [] else List.replicate n 32 ++ l) ++ [10]) ++ docText (List.replicate n 32) ls from rfl] at hq
    simp only [List.append_assoc, List.cons_append, List.nil_append] at hq
    rcases infix_split (by decide) hq with hq | hq
    · split at hq
      · exact absurd hq (by decide)
      · exact (h l (by simp)).quotes (infix_replicate (by simp) (by decide) n hq)
    · exact ih (fun m hm => h m (by simp [hm])) (by simpa only [List.append_assoc] using hq)

theorem docText_backslash (n : Nat) {ls : List PyStr} (h : ∀ l ∈ ls, PlainLine l) : 92 ∉ docText (List.replicate n 32) ls := by
  intro hm
  rw [docText, List.mem_flatMap] at hm
  obtain ⟨l, hl, hm⟩ := hm
  rw [List.mem_append] at hm
  rcases hm with hm | hm
  · split at hm
    · cases hm
    · rw [List.mem_append] at hm
      rcases hm with hm | hm
      · exact absurd (List.eq_of_mem_replicate hm) (by decide)
      · exact (h l hl).backslash hm
  · simp at hm

theorem docText_scalar (n : Nat) {ls : List PyStr} (h : ∀ l ∈ ls, PlainLine l) : ∀ c ∈ docText (List.replicate n 32) ls, Scalar c := by
  intro c hm
  rw [docText, List.mem_flatMap] at hm
  obtain ⟨l, hl, hm⟩ := hm
  rw [List.mem_append] at hm
  rcases hm with hm | hm
  · split at hm
    · cases hm
    · rw [List.mem_append] at hm
      rcases hm with hm | hm
      · rw [List.eq_of_mem_replicate hm]; decide
      · exact (h l hl).scalar c hm
  · simp at hm; subst hm; decide

theorem utf8_spaces (n : Nat) : utf8 (List.replicate n 32) = List.replicate n 32 := by
  induction n with
  | zero => rfl
  | succ n ih => rw [List.replicate_succ, utf8_ascii_cons (by decide), ih]; rfl

end Thrift.Source
