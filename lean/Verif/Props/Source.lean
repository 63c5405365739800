import Verif.Proofs.Source
/-
C77: string constants have in Python the value they have in the IDL. C78: doc comments in generated modules.

In all the theorems `post` is the rest of the module after the literal, and `pySource` the Python literal at the beginning of some bytes. A
module is read as a whole: bytes that are not UTF-8 anywhere in it make it unusable.
-/

namespace Thrift.Source
open Spec Spec.Source
open Json (utf8_append utf8_cons utf8_ascii utf8_high)

variable {names : PyStr → Option Nat}

/-! ### C77 -/

/-- Every value without restriction can be written in the IDL, in either kind of quotes, and the lexer reads that value. -/
theorem spelled {mark : UInt8} (hm : mark = 34 ∨ mark = 39) (s rest : Bytes) : idlLiteral mark (spell mark s ++ mark :: rest) = some (s, rest) := by
  induction s with
  | nil =>
    rw [show spell mark [] = [] from rfl, List.nil_append, idlLiteral.eq_def]
    rcases hm with rfl | rfl <;> rfl
  | cons c s ih =>
    rw [show spell mark (c :: s) = (if c = 10 then [92, 110] else if c = mark ∨ c = 92 then [92, c] else [c]) ++ spell mark s from rfl]
    have two : ∀ e x, idlEscape e = some x → idlLiteral mark (92 :: e :: (spell mark s ++ mark :: rest)) = some (x :: s, rest) := by
      intro e x he
      rw [idlLiteral.eq_def]
      dsimp only
      rw [if_neg (by decide), if_pos rfl, he]
      dsimp only
      rw [ih]
      rfl
    split
    · rename_i h
      subst h
      exact two 110 10 rfl
    · split
      · rename_i h
        rcases h with rfl | rfl
        · exact two c c (by rcases hm with rfl | rfl <;> rfl)
        · exact two 92 92 rfl
      · rename_i h1 h2
        rw [not_or] at h2
        show idlLiteral mark (c :: (spell mark s ++ mark :: rest)) = _
        rw [idlLiteral.eq_def]
        dsimp only
        rw [if_neg h1, if_neg h2.2, if_neg h2.1, ih]
        rfl

-- `'it\'s\\n'` after its first quote
theorem idlEscape_iff (e x : UInt8) : idlEscape e = some x ↔ (e, x) ∈ ([(114, 13), (110, 10), (116, 9), (34, 34), (39, 39), (92, 92)] : List (UInt8 × UInt8)) := by
  unfold idlEscape
  simp only [List.mem_cons, Prod.mk.injEq, List.not_mem_nil, or_false]
  grind

/-- What the lexer reads is exactly what the literal stands for. -/
theorem literal_iff {mark : UInt8} (hm : mark = 34 ∨ mark = 39) (b v rest : Bytes) :
    idlLiteral mark b = some (v, rest) ↔ ∃ l, b = l ++ mark :: rest ∧ Spells mark l v := by
  have h10 : mark ≠ 10 := by rcases hm with rfl | rfl <;> decide
  have h92 : mark ≠ 92 := by rcases hm with rfl | rfl <;> decide
  constructor
  · intro h
    fun_induction idlLiteral mark b generalizing v <;> try (cases h; done)
    · rename_i e _ x hx ih
      simp only [Option.map_eq_some_iff] at h
      obtain ⟨⟨v', r'⟩, h1, h2⟩ := h
      cases h2
      obtain ⟨l, rfl, hl⟩ := ih _ h1
      refine ⟨92 :: _ :: l, ?_, .escape ((idlEscape_iff _ _).1 (by assumption)) hl⟩
      simp_all
    · cases h
      exact ⟨[], by simp_all, .nil⟩
    · rename_i c r h1 h2 h3 ih
      simp only [Option.map_eq_some_iff] at h
      obtain ⟨⟨v', r'⟩, h4, h5⟩ := h
      cases h5
      obtain ⟨l, rfl, hl⟩ := ih _ h4
      exact ⟨c :: l, rfl, .plain h1 h2 h3 hl⟩
  · rintro ⟨l, rfl, hl⟩
    induction hl with
    | nil =>
      rw [List.nil_append, idlLiteral.eq_def]
      dsimp only
      rw [if_neg h10, if_neg h92, if_pos rfl]
    | plain h1 h2 h3 _ ih =>
      rw [List.cons_append, idlLiteral.eq_def]
      dsimp only
      rw [if_neg h1, if_neg h2, if_neg h3, ih]
      rfl
    | escape he _ ih =>
      rw [List.cons_append, List.cons_append, idlLiteral.eq_def]
      dsimp only
      rw [if_neg (by decide), if_pos rfl, (idlEscape_iff _ _).2 he]
      dsimp only
      rw [ih]
      rfl

-- `'a\r\'"'`
example : Spells 39 [97, 92, 114, 92, 39, 34] [97, 13, 39, 34] :=
  .plain (by decide) (by decide) (by decide) (.escape (by decide) (.escape (by decide) (.plain (by decide) (by decide) (by decide) .nil)))

example : idlLiteral 39 [105, 116, 92, 39, 115, 92, 92, 110, 39, 59] = some ([105, 116, 39, 115, 92, 110], [59]) :=
  spelled (.inr rfl) [105, 116, 39, 115, 92, 110] [59]

theorem decode_string {t : PyStr} (ht : ∀ c ∈ t, Scalar c) {post : Bytes} {p : PyStr} (hp : utf8Decode post = .ok p) (binary : Bool) :
    utf8Decode (renderString binary (utf8 t) ++ post) = .ok ((if binary then [98] else []) ++ 34 :: (t.flatMap escapeChar ++ 34 :: p)) := by
  have h : renderString binary (utf8 t) = utf8 ((if binary then [98] else []) ++ 34 :: (t.flatMap escapeChar ++ [34])) := by
    rw [utf8_append, utf8_ascii_cons (by decide), utf8_append, utf8_ascii (by decide), renderString, escapeString_utf8 ht]
    cases binary <;> simp [utf8_ascii, utf8_nil]
  rw [h, utf8Decode_append, hp]
  · cases binary <;> simp [Except.map]
  · intro c hc
    simp only [List.mem_append, List.mem_cons, List.not_mem_nil, or_false] at hc
    rcases hc with hc | rfl | hc | rfl
    · cases binary
      · cases hc
      · simp at hc; subst hc; decide
    · decide
    · exact flatMap_scalar ht c hc
    · decide

/-- The first character of an escaped text is not a quote, so that the token is not in three quotes, unless the text is empty. -/
theorem escaped_head (t p : PyStr) (hp : p.head? ≠ some 34) : ∀ r, t.flatMap escapeChar ++ 34 :: p ≠ 34 :: 34 :: r := by
  intro r h
  cases t with
  | nil =>
    injection h with _ h
    rw [h] at hp
    exact hp rfl
  | cons c t =>
    rw [List.flatMap_cons, List.append_assoc] at h
    unfold escapeChar at h
    repeat' split at h
    all_goals first
      | (injection h with h; exact absurd h (by decide))
      | (injection h with h; subst h; contradiction)

/-- A constant or default of type `string` with a text as its value becomes a literal with that text as its value, and the code after it is
as it was. -/
theorem string_const {t : PyStr} (ht : ∀ c ∈ t, Scalar c) {post : Bytes} {p : PyStr} (hp : utf8Decode post = .ok p) (hq : p.head? ≠ some 34) :
    pySource names (renderString false (utf8 t) ++ post) = some (.text t, p) := by
  rw [pySource, decode_string ht hp]
  show pyLiteral names (34 :: (t.flatMap escapeChar ++ 34 :: p)) = _
  rw [pyLiteral.eq_def]
  have key : textToken names (scanShort (t.flatMap escapeChar ++ 34 :: p)) = some (.text t, p) := by
    rw [scanShort_escaped]
    show (unescape false names _ _ >>= fun s => some (Value.text s, p)) = _
    rw [unescape_escaped false names t _ (Nat.le_refl _)]
    rfl
  split
  · rename_i h
    injection h with _ h
    exact absurd h (escaped_head t p hq _)
  · rename_i h
    injection h with _ h
    rw [← h, key]
  · rename_i h; injection h with h; exact absurd h (by decide)
  · rename_i h; injection h with h; exact absurd h (by decide)
  · rename_i h _ _; exact absurd rfl (h _)

-- a text with a quote, a backslash, a newline and a character that is not ASCII; an empty one
example : pySource names (renderString false (utf8 [233, 34, 92, 10, 0x1F600]) ++ [44, 10]) = some (.text [233, 34, 92, 10, 0x1F600], [44, 10]) :=
  string_const (by decide) rfl (by decide)
example : pySource names (renderString false [] ++ [44, 10]) = some (.text [], [44, 10]) := string_const (t := []) (by decide) rfl (by decide)

/-- From the IDL file to Python: what a text is spelled like is what Python sees. -/
theorem string_end_to_end {mark : UInt8} (hm : mark = 34 ∨ mark = 39) {t : PyStr} (ht : ∀ c ∈ t, Scalar c) (rest : Bytes) {post : Bytes} {p : PyStr}
    (hp : utf8Decode post = .ok p) (hq : p.head? ≠ some 34) :
    ∃ v, idlLiteral mark (spell mark (utf8 t) ++ mark :: rest) = some (v, rest) ∧ pySource names (renderString false v ++ post) = some (.text t, p) :=
  ⟨utf8 t, spelled hm _ _, string_const ht hp hq⟩

theorem isUtf8_append {a b : Bytes} (ha : IsUtf8 a) (hb : IsUtf8 b) : IsUtf8 (a ++ b) := by
  obtain ⟨x, h1, rfl⟩ := ha
  obtain ⟨y, h2, rfl⟩ := hb
  refine ⟨x ++ y, ?_, utf8_append x y⟩
  intro c hc
  rw [List.mem_append] at hc
  exact hc.elim (h1 c) (h2 c)

theorem utf8Decode_of_isUtf8 {b : Bytes} (h : IsUtf8 b) : (utf8Decode b).isOk = true := by
  obtain ⟨s, hs, rfl⟩ := h
  rw [utf8Decode_utf8 hs]
  rfl

/-- Cut at ASCII characters, UTF-8 stays UTF-8. -/
theorem isUtf8_middle {a b c : Bytes} {x y : UInt8} (hx : x.toNat < 0x80) (hy : y.toNat < 0x80) (h : IsUtf8 (a ++ x :: (b ++ y :: c))) : IsUtf8 b := by
  obtain ⟨s, hs, e⟩ := h
  obtain ⟨s₁, s₂, h1, _, h3⟩ := utf8_split hs hx e
  have h2 : ∀ c ∈ s₂, Scalar c := fun c hc => hs c (by rw [h1]; simp [hc])
  obtain ⟨s₃, s₄, h4, h5, _⟩ := utf8_split h2 hy h3
  exact ⟨s₃, fun c hc => h2 c (by rw [h4]; simp [hc]), h5⟩

/-- A value that is not UTF-8 (an IDL file in another encoding) makes the whole module one that Python refuses to read, whatever else is in it. -/
theorem not_utf8 {v : Bytes} (hv : ¬ IsUtf8 v) (binary : Bool) (pre post : Bytes) : ¬ IsUtf8 (pre ++ renderString binary v ++ post) := by
  intro h
  apply hv
  have : IsUtf8 (escapeString v) := by
    apply isUtf8_middle (x := 34) (y := 34) (a := pre ++ if binary then [98] else []) (c := post) (by decide) (by decide)
    simpa [renderString] using h
  obtain ⟨u, hu, e⟩ := this
  exact escapeString_isUtf8 u.length u v (Nat.le_refl _) hu e.symm

-- `const string x = "é"` in a file in Latin-1
example (pre post : Bytes) : ¬ IsUtf8 (pre ++ renderString false [0xE9] ++ post) :=
  not_utf8 (fun h => by have := utf8Decode_of_isUtf8 h; revert this; decide) false pre post

theorem scan_bytes (t p : PyStr) (hq : p.head? ≠ some 34) :
    pyLiteral names (98 :: 34 :: (t.flatMap escapeChar ++ 34 :: p)) = bytesToken names (some (t.flatMap escapeChar, p)) := by
  rw [pyLiteral.eq_def]
  split
  · rename_i h; injection h with h; exact absurd h (by decide)
  · rename_i h; injection h with h; exact absurd h (by decide)
  · rename_i h
    injection h with _ h
    injection h with _ h
    exact absurd h (escaped_head t p hq _)
  · rename_i h
    injection h with _ h
    injection h with _ h
    rw [← h, scanShort_escaped]
  · rename_i h; exact absurd rfl (h _)

theorem utf8_ascii_bytes {v : Bytes} (h : ∀ c ∈ v, c.toNat < 0x80) : v = utf8 (v.map UInt8.toNat) := by
  induction v with
  | nil => rfl
  | cons c v ih =>
    rw [List.map_cons, utf8_ascii_cons (h c (by simp)), ← ih fun d hd => h d (by simp [hd]), UInt8.ofNat_toNat]

/-- A constant of type `binary` whose value is ASCII has that value. -/
theorem binary_const_partial {v : Bytes} (hv : ∀ c ∈ v, c.toNat < 0x80) {post : Bytes} {p : PyStr} (hp : utf8Decode post = .ok p) (hq : p.head? ≠ some 34) :
    pySource names (renderString true v ++ post) = some (.bytes v, p) := by
  have ht : ∀ c ∈ v.map UInt8.toNat, c < 0x80 := by
    intro c hc
    rw [List.mem_map] at hc
    obtain ⟨d, hd, rfl⟩ := hc
    exact hv d hd
  have e := utf8_ascii_bytes hv
  generalize ht' : v.map UInt8.toNat = t at *
  rw [pySource, e, decode_string (fun c hc => scalar_ascii (ht c hc)) hp]
  show pyLiteral names (98 :: 34 :: (t.flatMap escapeChar ++ 34 :: p)) = _
  rw [scan_bytes t p hq]
  show (if (t.flatMap escapeChar).all (· < 128) = true then unescape true names _ _ >>= fun s => some (Value.bytes (s.map UInt8.ofNat), p) else none) = _
  rw [if_pos, unescape_escaped true names t _ (Nat.le_refl _)]
  · show some (Value.bytes (t.map UInt8.ofNat), p) = _
    rw [← e, ← ht', List.map_map]
    congr 3
    conv => rhs; rw [← List.map_id v]
    apply List.map_congr_left
    intro c _
    exact UInt8.ofNat_toNat
  · rw [List.all_eq_true]
    intro d hd
    rw [List.mem_flatMap] at hd
    obtain ⟨c, hc, hd⟩ := hd
    have : ∀ c < 0x80, ∀ d ∈ escapeChar c, d < 128 := by decide +kernel
    simpa using this c (ht c hc) d hd

example : pySource names (renderString true [97, 34, 9, 0] ++ [10]) = some (.bytes [97, 34, 9, 0], [10]) := binary_const_partial (by decide) rfl (by decide)

/-- Any other value of a constant of type `binary` is a syntax error in the generated module: the module cannot be imported. -/
theorem binary_const_fails {v : Bytes} (hv : ∃ c ∈ v, 0x80 ≤ c.toNat) {post : Bytes} {p : PyStr} (hp : utf8Decode post = .ok p) (hq : p.head? ≠ some 34) :
    pySource names (renderString true v ++ post) = none := by
  by_cases hu : IsUtf8 v
  · obtain ⟨t, ht, rfl⟩ := hu
    rw [pySource, decode_string ht hp]
    show pyLiteral names (98 :: 34 :: (t.flatMap escapeChar ++ 34 :: p)) = _
    rw [scan_bytes t p hq]
    show (if (t.flatMap escapeChar).all (· < 128) = true then unescape true names _ _ >>= fun s => some (Value.bytes (s.map UInt8.ofNat), p) else none) = _
    rw [if_neg]
    intro hall
    rw [List.all_eq_true] at hall
    have : ∀ c ∈ t, c < 0x80 := by
      intro c hc
      refine Decidable.byContradiction fun hlt => ?_
      have hm : c ∈ t.flatMap escapeChar := by
        rw [List.mem_flatMap]
        refine ⟨c, hc, ?_⟩
        unfold escapeChar
        rw [if_neg (by omega), if_neg (by omega), if_neg (by omega), if_neg (by omega), if_neg (by omega)]
        simp
      have := hall c hm
      simp at this
      omega
    obtain ⟨b, hb, hb'⟩ := hv
    have low : ∀ b ∈ utf8 t, b.toNat < 0x80 := by
      clear hall hp hq hb hb' ht
      induction t with
      | nil => intro b hb; cases hb
      | cons c t ih =>
        intro b hb
        have hc := this c (by simp)
        rw [utf8_ascii_cons hc, List.mem_cons] at hb
        rcases hb with rfl | hb
        · rw [UInt8.toNat_ofNat']; omega
        · exact ih (fun d hd => this d (by simp [hd])) b hb
    have := low b hb
    omega
  · have := not_utf8 hu true [] post
    rw [List.nil_append] at this
    rw [pySource, utf8Decode_not_utf8 this]

-- `const binary x = "é"`
example : pySource names (renderString true [0xC3, 0xA9] ++ [10]) = none := binary_const_fails ⟨0xC3, by decide, by decide⟩ rfl (by decide)

/-! ### C78 -/

theorem cut_example (n : Nat) : ¬ IsUtf8 (List.replicate n 97 ++ [0xC3]) := by
  induction n with
  | zero => intro h; have := utf8Decode_of_isUtf8 h; revert this; decide
  | succ n ih =>
    rintro ⟨s, hs, e⟩
    obtain ⟨s₁, s₂, h1, _, h3⟩ := utf8_split (a := []) (x := 97) hs (by decide) e
    exact ih ⟨s₂, fun c hc => hs c (by rw [h1]; simp [hc]), h3⟩

theorem doc_utf8 (n : Nat) {ls : List PyStr} (hne : ls ≠ []) (h : ∀ l ∈ ls, PlainLine l) :
    renderDoc (List.replicate n 32) (utf8 (comment ls)) =
      utf8 (34 :: 34 :: 34 :: 10 :: (docText (List.replicate n 32) ls ++ List.replicate n 32 ++ [34, 34, 34, 10])) := by
  rw [renderDoc, splitLines_comment hne h]
  have := emitLines_comment (List.replicate n 32) h
  rw [utf8_spaces] at this
  rw [this, utf8_ascii_cons (by decide), utf8_ascii_cons (by decide), utf8_ascii_cons (by decide), utf8_ascii_cons (by decide), utf8_append, utf8_append,
    utf8_spaces, utf8_ascii_cons (by decide), utf8_ascii_cons (by decide), utf8_ascii_cons (by decide), utf8_ascii_cons (by decide)]
  simp [quotes3, utf8_nil]

/-- A comment of lines without backslashes, without three quotes in a row and without lines of more than 1023 bytes becomes a docstring with the lines of
the comment in it, and the code after it is as it was. -/
theorem docstring_partial (n : Nat) {ls : List PyStr} (hne : ls ≠ []) (h : ∀ l ∈ ls, PlainLine l) {post : Bytes} {p : PyStr} (hp : utf8Decode post = .ok p) :
    pySource names (renderDoc (List.replicate n 32) (utf8 (comment ls)) ++ post) =
      some (.text (10 :: (docText (List.replicate n 32) ls ++ List.replicate n 32)), 10 :: p) := by
  rw [doc_utf8 n hne h, pySource, utf8Decode_append, hp]
  · show pyLiteral names (34 :: 34 :: 34 :: 10 :: (docText (List.replicate n 32) ls ++ List.replicate n 32 ++ [34, 34, 34, 10]) ++ p) = _
    have e : (34 :: 34 :: 34 :: 10 :: (docText (List.replicate n 32) ls ++ List.replicate n 32 ++ [34, 34, 34, 10]) ++ p : PyStr) =
      34 :: 34 :: 34 :: ((10 :: (docText (List.replicate n 32) ls ++ List.replicate n 32)) ++ 34 :: 34 :: 34 :: 10 :: p) := by simp
    rw [e]
    show textToken names (scanLong _) = _
    have hb : 92 ∉ (10 :: (docText (List.replicate n 32) ls ++ List.replicate n 32) : PyStr) := by
      simp only [List.mem_cons, List.mem_append, not_or]
      exact ⟨by decide, docText_backslash n h, fun hm => absurd (List.eq_of_mem_replicate hm) (by decide)⟩
    rw [scanLong_plain hb]
    · show (unescape false names _ _ >>= fun s => some (Value.text s, 10 :: p)) = _
      rw [unescape_none hb _ (Nat.le_refl _)]
      rfl
    · intro hq
      exact docText_no_quotes n h (infix_single (by simp) (by decide) hq)
  · intro c hc
    simp only [List.mem_cons, List.mem_append, List.not_mem_nil, or_false] at hc
    rcases hc with rfl | rfl | rfl | rfl | (hc | hc) | rfl | rfl | rfl | rfl
    all_goals first
      | decide
      | exact docText_scalar n h c hc
      | (rw [List.eq_of_mem_replicate hc]; decide)

-- two lines with an empty one between them, quotes among their characters
example : pySource names (renderDoc (List.replicate 4 32) (utf8 (comment [[97, 34, 34], [], [233]])) ++ [112]) =
    some (.text ([10, 32, 32, 32, 32, 97, 34, 34, 10, 10, 32, 32, 32, 32, 233, 10, 32, 32, 32, 32]), [10, 112]) :=
  docstring_partial 4 (by simp) (by
    intro l hl
    simp only [List.mem_cons, List.not_mem_nil, or_false] at hl
    rcases hl with rfl | rfl | rfl <;> exact ⟨by decide, by decide, by decide, by decide, by decide⟩) rfl

/-- One line of a comment as it is in the module -/
theorem doc_line (n : Nat) {l : PyStr} (hne : l ≠ []) (hs : ∀ c ∈ l, Scalar c) (hn : 10 ∉ l) (hl : utf8Len l ≤ 1023) :
    renderDoc (List.replicate n 32) (utf8 l) = utf8 (34 :: 34 :: 34 :: 10 :: (List.replicate n 32 ++ l ++ 10 :: (List.replicate n 32 ++ [34, 34, 34, 10]))) := by
  have hne' : utf8 l ≠ [] := by
    intro h0
    cases l with
    | nil => exact hne rfl
    | cons c l =>
      have hc := hs c (by simp)
      have : utf8 [c] = [] := by rw [utf8_cons] at h0; exact (List.append_eq_nil_iff.1 h0).1
      by_cases hc' : c < 0x80
      · rw [utf8_ascii hc'] at this; cases this
      · exact (utf8_high hc (by omega)).1 this
  rw [renderDoc, splitLines_last (utf8_newline hs hn), emitLines, if_neg (by rw [utf8_length hs]; omega), if_neg hne', emitLines,
    utf8_ascii_cons (by decide), utf8_ascii_cons (by decide), utf8_ascii_cons (by decide), utf8_ascii_cons (by decide), utf8_append, utf8_append,
    utf8_spaces, utf8_ascii_cons (by decide), utf8_append, utf8_spaces, utf8_ascii_cons (by decide), utf8_ascii_cons (by decide), utf8_ascii_cons (by decide),
    utf8_ascii_cons (by decide)]
  simp [quotes3, utf8_nil]

theorem doc_decode (n : Nat) {l : PyStr} (hne : l ≠ []) (hs : ∀ c ∈ l, Scalar c) (hn : 10 ∉ l) (hl : utf8Len l ≤ 1023) {post : Bytes} {p : PyStr}
    (hp : utf8Decode post = .ok p) :
    pySource names (renderDoc (List.replicate n 32) (utf8 l) ++ post) =
      textToken names (scanLong (10 :: (List.replicate n 32 ++ l ++ 10 :: (List.replicate n 32 ++ [34, 34, 34, 10])) ++ p)) := by
  rw [doc_line n hne hs hn hl, pySource, utf8Decode_append, hp]
  · rfl
  · intro c hc
    simp only [List.mem_cons, List.mem_append, List.not_mem_nil, or_false] at hc
    rcases hc with rfl | rfl | rfl | rfl | (hc | hc) | rfl | hc | rfl | rfl | rfl | rfl
    all_goals first
      | decide
      | exact hs c hc
      | (rw [List.eq_of_mem_replicate hc]; decide)

/-- Three quotes in a comment end the docstring: what follows them in the comment is code of the module. -/
theorem docstring_injection (n : Nat) {a code : PyStr} (hs : ∀ c ∈ a ++ [34, 34, 34] ++ code, Scalar c) (hn : 10 ∉ a ++ code) (ha : 92 ∉ a)
    (hq : ¬ [34, 34, 34] <:+: a ++ [34, 34]) (hl : utf8Len (a ++ [34, 34, 34] ++ code) ≤ 1023) {post : Bytes} {p : PyStr} (hp : utf8Decode post = .ok p) :
    pySource names (renderDoc (List.replicate n 32) (utf8 (a ++ [34, 34, 34] ++ code)) ++ post) =
      some (.text (10 :: (List.replicate n 32 ++ a)), code ++ 10 :: (List.replicate n 32 ++ [34, 34, 34, 10] ++ p)) := by
  rw [doc_decode n (by simp) hs (by simp only [List.mem_append, not_or] at hn ⊢; exact ⟨⟨hn.1, by decide⟩, hn.2⟩) hl hp]
  have e : (10 :: (List.replicate n 32 ++ (a ++ [34, 34, 34] ++ code) ++ 10 :: (List.replicate n 32 ++ [34, 34, 34, 10])) ++ p : PyStr) =
    (10 :: (List.replicate n 32 ++ a)) ++ 34 :: 34 :: 34 :: (code ++ 10 :: (List.replicate n 32 ++ [34, 34, 34, 10] ++ p)) := by simp
  have hb : 92 ∉ (10 :: (List.replicate n 32 ++ a) : PyStr) := by
    simp only [List.mem_cons, List.mem_append, not_or]
    exact ⟨by decide, fun hm => absurd (List.eq_of_mem_replicate hm) (by decide), ha⟩
  rw [e, scanLong_plain hb]
  · show (unescape false names _ _ >>= fun s => some (Value.text s, _)) = _
    rw [unescape_none hb _ (Nat.le_refl _)]
    rfl
  · intro h
    have h : [34, 34, 34] <:+: List.replicate n 32 ++ a ++ [34, 34] := infix_single (by simp) (by decide) h
    rw [List.append_assoc] at h
    exact hq (infix_replicate (by simp) (by decide) n h)

-- `/** a"""; f() */`
example : pySource names (renderDoc (List.replicate 1 32) [97, 34, 34, 34, 59, 32, 102, 40, 41] ++ [112]) =
    some (.text [10, 32, 97], [59, 32, 102, 40, 41, 10, 32, 34, 34, 34, 10, 112]) :=
  docstring_injection 1 (a := [97]) (code := [59, 32, 102, 40, 41]) (by decide) (by decide) (by decide) (by decide) (by decide) rfl

theorem unescape_bad {a r : PyStr} (ha : 92 ∉ a) (hr : hexDigits 2 0 r = none) : ∀ n, unescape false names n (a ++ 92 :: 120 :: r) = none := by
  induction a with
  | nil =>
    intro n
    cases n with
    | zero => rfl
    | succ n =>
      rw [List.nil_append, unescape, if_pos rfl, escapeSeq.eq_def]
      have h0 : simpleEscape 120 = none := by decide
      dsimp only
      rw [h0]
      dsimp only
      rw [if_neg (by decide), if_neg (by decide), if_pos rfl, hr]
      rfl
  | cons c a ih =>
    intro n
    simp only [List.mem_cons, not_or] at ha
    cases n with
    | zero => rfl
    | succ n => rw [List.cons_append, unescape_plain (Ne.symm ha.1), ih ha.2 n]; rfl

theorem scanLong_prefix {a : PyStr} (ha : 92 ∉ a) (hq : 34 ∉ a) (s : PyStr) : scanLong (a ++ s) = (scanLong s).map fun r => (a ++ r.1, r.2) := by
  induction a with
  | nil => cases h : scanLong s <;> simp [h]
  | cons c a ih =>
    simp only [List.mem_cons, not_or] at ha hq
    rw [List.cons_append, scanLong.eq_def]
    dsimp only
    rw [if_neg (Ne.symm ha.1)]
    split
    · exact absurd rfl hq.1
    · rw [ih ha.2 hq.2]
      cases scanLong s <;> rfl

/-- `\x` in a comment that two hexadecimal digits do not follow, as in `C:\xampp`, is a syntax error in the generated module: it cannot be imported. -/
theorem docstring_backslash (n : Nat) {a b : PyStr} {c : Nat} (hc : Json.hexVal c = none) (hs : ∀ d ∈ a ++ 92 :: 120 :: c :: b, Scalar d)
    (hn : 10 ∉ a ++ c :: b) (ha : 92 ∉ a) (hq : 34 ∉ a) (hl : utf8Len (a ++ 92 :: 120 :: c :: b) ≤ 1023) {post : Bytes} {p : PyStr} (hp : utf8Decode post = .ok p) :
    pySource names (renderDoc (List.replicate n 32) (utf8 (a ++ 92 :: 120 :: c :: b)) ++ post) = none := by
  rw [doc_decode n (by simp) hs (by
    simp only [List.mem_append, List.mem_cons, not_or] at hn ⊢
    exact ⟨hn.1, by decide, by decide, hn.2⟩) hl hp]
  have e : (10 :: (List.replicate n 32 ++ (a ++ 92 :: 120 :: c :: b) ++ 10 :: (List.replicate n 32 ++ [34, 34, 34, 10])) ++ p : PyStr) =
    (10 :: (List.replicate n 32 ++ a)) ++ 92 :: 120 :: c :: (b ++ 10 :: (List.replicate n 32 ++ [34, 34, 34, 10] ++ p)) := by simp
  have hb : 92 ∉ (10 :: (List.replicate n 32 ++ a) : PyStr) := by
    simp only [List.mem_cons, List.mem_append, not_or]
    exact ⟨by decide, fun hm => absurd (List.eq_of_mem_replicate hm) (by decide), ha⟩
  have hb' : 34 ∉ (10 :: (List.replicate n 32 ++ a) : PyStr) := by
    simp only [List.mem_cons, List.mem_append, not_or]
    exact ⟨by decide, fun hm => absurd (List.eq_of_mem_replicate hm) (by decide), hq⟩
  rw [e, scanLong_prefix hb hb']
  generalize (b ++ 10 :: (List.replicate n 32 ++ [34, 34, 34, 10] ++ p) : PyStr) = rest
  generalize (10 :: (List.replicate n 32 ++ a) : PyStr) = A at hb
  rw [scanLong.eq_def]
  dsimp only
  rw [if_pos rfl]
  cases h : scanLong (c :: rest) with
  | none => rfl
  | some r =>
    show (unescape false names _ (A ++ 92 :: 120 :: r.1) >>= fun s => some (Value.text s, r.2)) = _
    rw [unescape_bad hb]
    · rfl
    · have hr : r.1 = [] ∨ ∃ r', r.1 = c :: r' := by
        rw [scanLong.eq_def] at h
        dsimp only at h
        split at h
        · rename_i h92
          split at h
          · cases h
          · cases h2 : scanLong ‹_› with
            | none => rw [h2] at h; cases h
            | some r2 => rw [h2] at h; injection h with h; subst h; exact .inr ⟨_, by rw [h92]⟩
        · split at h
          · injection h with h; subst h; exact .inl rfl
          · cases h2 : scanLong rest with
            | none => rw [h2] at h; cases h
            | some r2 => rw [h2] at h; injection h with h; subst h; exact .inr ⟨_, rfl⟩
      rcases hr with hr | ⟨r', hr⟩
      · rw [hr]; rfl
      · rw [hr, hexDigits, hc]

theorem unescape_join {a r : PyStr} (ha : 92 ∉ a) (hr : 92 ∉ r) : ∀ n, a.length + 2 + r.length ≤ n → unescape false names n (a ++ 92 :: 10 :: r) = some (a ++ r) := by
  induction a with
  | nil =>
    intro n hn
    cases n with
    | zero => simp at hn
    | succ n =>
      rw [List.nil_append, unescape, if_pos rfl, escapeSeq.eq_def]
      have h0 : simpleEscape 10 = none := by decide
      dsimp only
      rw [h0]
      dsimp only
      rw [if_pos rfl]
      dsimp only
      rw [unescape_none hr n (by simp at hn; omega)]
      rfl
  | cons c a ih =>
    intro n hn
    simp only [List.mem_cons, not_or] at ha
    cases n with
    | zero => simp at hn
    | succ n => rw [List.cons_append, unescape_plain (Ne.symm ha.1), ih ha.2 n (by simp at hn; omega)]; rfl

/-- A backslash at the end of a line joins the line with the next: neither the backslash nor the end of the line is in the docstring. -/
theorem docstring_joined (n : Nat) {a : PyStr} (hs : ∀ c ∈ a, Scalar c) (hn : 10 ∉ a) (ha : 92 ∉ a) (hq : 34 ∉ a) (hl : utf8Len (a ++ [92]) ≤ 1023)
    {post : Bytes} {p : PyStr} (hp : utf8Decode post = .ok p) :
    pySource names (renderDoc (List.replicate n 32) (utf8 (a ++ [92])) ++ post) =
      some (.text (10 :: (List.replicate n 32 ++ a ++ List.replicate n 32)), 10 :: p) := by
  rw [doc_decode n (by simp) (by
    intro c hc
    simp only [List.mem_append, List.mem_cons, List.not_mem_nil, or_false] at hc
    rcases hc with hc | rfl
    · exact hs c hc
    · decide) (by
    simp only [List.mem_append, not_or]
    exact ⟨hn, by decide⟩) hl hp]
  have e : (10 :: (List.replicate n 32 ++ (a ++ [92]) ++ 10 :: (List.replicate n 32 ++ [34, 34, 34, 10])) ++ p : PyStr) =
    (10 :: (List.replicate n 32 ++ a)) ++ 92 :: 10 :: (List.replicate n 32 ++ 34 :: 34 :: 34 :: (10 :: p)) := by simp
  have hsp : ∀ c : Nat, c ≠ 32 → c ∉ (List.replicate n 32 : PyStr) := fun c hc hm => hc (List.eq_of_mem_replicate hm)
  have hb : 92 ∉ (10 :: (List.replicate n 32 ++ a) : PyStr) := by
    simp only [List.mem_cons, List.mem_append, not_or]
    exact ⟨by decide, hsp 92 (by decide), ha⟩
  have hb' : 34 ∉ (10 :: (List.replicate n 32 ++ a) : PyStr) := by
    simp only [List.mem_cons, List.mem_append, not_or]
    exact ⟨by decide, hsp 34 (by decide), hq⟩
  have h1 : scanLong (List.replicate n 32 ++ 34 :: 34 :: 34 :: (10 :: p)) = some (List.replicate n 32, 10 :: p) := by
    rw [scanLong_prefix (hsp 92 (by decide)) (hsp 34 (by decide))]
    show Option.map _ (some (([] : PyStr), 10 :: p)) = _
    simp
  rw [e, scanLong_prefix hb hb', scanLong.eq_def]
  dsimp only
  rw [if_pos rfl, h1]
  show (unescape false names _ ((10 :: (List.replicate n 32 ++ a)) ++ 92 :: 10 :: List.replicate n 32) >>= fun s => some (Value.text s, 10 :: p)) = _
  rw [unescape_join hb (hsp 92 (by decide)) _ (by simp; omega)]
  show some (Value.text _, _) = _
  simp

-- `/** a\ */`
example : pySource names (renderDoc (List.replicate 2 32) [97, 92] ++ [112]) = some (.text [10, 32, 32, 97, 32, 32], [10, 112]) :=
  docstring_joined 2 (a := [97]) (by decide) (by decide) (by decide) (by decide) (by decide) rfl

-- `/** C:\xampp */`
example : pySource names (renderDoc (List.replicate 4 32) [67, 58, 92, 120, 109, 112] ++ [112]) = none :=
  docstring_backslash 4 (a := [67, 58]) (c := 109) (b := [112]) (by decide) (by decide) (by decide) (by decide) (by decide) (by decide) rfl

/-- A line of more than 1023 bytes is cut there, and what follows it in the comment, on this line and on the others, is lost. -/
theorem docstring_cut (ind : Bytes) {l r : Bytes} (hl : l.length = 1023) (hn : 10 ∉ l) (hr : r ≠ []) (hr' : r.head? ≠ some 10) :
    renderDoc ind (l ++ r) = renderDoc ind l := by
  obtain ⟨m, ls, h1, h2⟩ := splitLines_append hn r
  rw [renderDoc, renderDoc, h2, splitLines_last hn]
  have hm : m ≠ [] := by
    rintro rfl
    cases r with
    | nil => exact hr rfl
    | cons c r =>
      rw [splitLines.eq_def] at h1
      dsimp only at h1
      split at h1
      · rename_i h; subst h; exact hr' rfl
      · split at h1 <;> cases h1
  have hlen : 1023 < (l ++ m).length := by
    cases m with
    | nil => exact absurd rfl hm
    | cons => simp; omega
  rw [emitLines, if_pos hlen, emitLines, if_neg (by omega), if_neg (by rintro rfl; simp at hl), emitLines, List.take_left' hl]
  simp

example (ind more : Bytes) : renderDoc ind (List.replicate 1023 97 ++ 98 :: 10 :: more) = renderDoc ind (List.replicate 1023 97) :=
  docstring_cut ind (by rw [List.length_replicate]) (fun h => absurd (List.eq_of_mem_replicate h) (by decide)) (by simp) (by simp)

/-- If it is cut inside a character, the module is one that Python refuses to read, whatever else is in it. -/
theorem docstring_cut_inside (n : Nat) {l r : Bytes} (hl : l.length = 1023) (hn : 10 ∉ l) (hr : r ≠ []) (hr' : r.head? ≠ some 10) (hu : ¬ IsUtf8 l) (pre post : Bytes) :
    ¬ IsUtf8 (pre ++ renderDoc (List.replicate n 32) (l ++ r) ++ post) := by
  rw [docstring_cut _ hl hn hr hr', renderDoc, splitLines_last hn, emitLines, if_neg (by omega), if_neg (by rintro rfl; simp at hl), emitLines]
  intro h
  apply hu
  cases n with
  | zero =>
    apply isUtf8_middle (x := 10) (y := 10) (a := pre ++ quotes3) (c := quotes3 ++ [10] ++ post) (by decide) (by decide)
    simpa using h
  | succ n =>
    apply isUtf8_middle (x := 32) (y := 10) (a := pre ++ quotes3 ++ [10] ++ List.replicate n 32) (c := List.replicate (n + 1) 32 ++ quotes3 ++ [10] ++ post) (by decide) (by decide)
    rw [show List.replicate (n + 1) (32 : UInt8) = List.replicate n 32 ++ [32] by rw [List.replicate_succ']] at h ⊢
    simpa using h

-- a character of two bytes at the limit
example (pre post : Bytes) : ¬ IsUtf8 (pre ++ renderDoc (List.replicate 4 32) ((List.replicate 1022 97 ++ [0xC3]) ++ [0xA9]) ++ post) := by
  refine docstring_cut_inside 4 (by rw [List.length_append, List.length_replicate]; rfl) ?_ (by simp) (by simp) ?_ pre post
  · intro h
    rw [List.mem_append] at h
    rcases h with h | h
    · exact absurd (List.eq_of_mem_replicate h) (by decide)
    · simp at h
  · exact cut_example 1022

end Thrift.Source
