import Verif.Spec.Repr
/-
Numbers, names and strings in the text of a value, for C94.
-/

namespace Thrift.Repr
open Rpc Spec.Repr

/-- What follows an expression in a text -/
def Stop (rest : PyStr) : Prop := ∀ c, rest.head? = some c → c = 44 ∨ c = 41 ∨ c = 93 ∨ c = 125 ∨ c = 58

theorem Stop.nil : Stop [] := fun _ h => nomatch h

theorem Stop.cons {c : Nat} {s : PyStr} (h : c = 44 ∨ c = 41 ∨ c = 93 ∨ c = 125 ∨ c = 58) : Stop (c :: s) := by
  intro d hd
  cases hd
  exact h

theorem skip_cons {c : Nat} {s : PyStr} (h : c ≠ 32) : skip (c :: s) = c :: s := by
  unfold skip
  rw [List.dropWhile_cons, if_neg (by simpa using h)]

theorem skip_space (s : PyStr) : skip (32 :: s) = skip s := rfl

theorem skip_stop {rest : PyStr} (h : Stop rest) : skip rest = rest := by
  cases rest with
  | nil => rfl
  | cons c s =>
    refine skip_cons ?_
    have := h c rfl
    omega

/-! ### Numbers -/

theorem dec_digits (n : Nat) : ∀ c ∈ dec n, isDigit c = true := by
  induction n using Nat.strongRecOn with
  | ind n ih =>
    intro c hc
    rw [dec] at hc
    split at hc
    · rw [List.mem_singleton.1 hc]
      simp only [isDigit, Bool.and_eq_true, decide_eq_true_eq]
      omega
    · rcases List.mem_append.1 hc with hc | hc
      · exact ih _ (by omega) c hc
      · rw [List.mem_singleton.1 hc]
        simp only [isDigit, Bool.and_eq_true, decide_eq_true_eq]
        omega

theorem dec_ne (n : Nat) : dec n ≠ [] := by
  rw [dec]
  split <;> simp

theorem dec_head (n : Nat) : (dec n).length = 1 ∨ (dec n).head? ≠ some 48 := by
  induction n using Nat.strongRecOn with
  | ind n ih =>
    rw [dec]
    split
    · exact .inl rfl
    · rename_i hn
      right
      rw [List.head?_append]
      rcases ih (n / 10) (by omega) with h | h
      · rw [dec] at h ⊢
        split
        · rename_i h10
          simp only [List.head?_cons, Option.some_or, ne_eq, Option.some.injEq]
          omega
        · rename_i h10
          rw [if_neg h10] at h
          have := dec_ne (n / 10 / 10)
          rw [List.length_append] at h
          have := List.length_pos_iff.2 this
          simp only [List.length_cons, List.length_nil] at h
          omega
      · cases e : (dec (n / 10)).head? with
        | none => exact absurd (List.head?_eq_none_iff.1 e) (dec_ne _)
        | some x => rw [e] at h; exact h

theorem decVal_dec (n : Nat) : decVal (dec n) = n := by
  induction n using Nat.strongRecOn with
  | ind n ih =>
    rw [dec]
    split
    · simp [decVal]
    · have := ih (n / 10) (by omega)
      unfold decVal at this ⊢
      rw [List.foldl_append, this]
      simp only [List.foldl_cons, List.foldl_nil]
      omega

/-- Characters that end a number -/
def noNum (rest : PyStr) : Prop := ∀ c, rest.head? = some c → isDigit c = false ∧ c ≠ 46 ∧ c ≠ 101 ∧ c ≠ 43 ∧ c ≠ 45

theorem Stop.noNum {rest : PyStr} (h : Stop rest) : noNum rest := by
  intro c hc
  have := h c hc
  refine ⟨?_, by omega, by omega, by omega, by omega⟩
  simp only [isDigit, Bool.and_eq_false_iff, decide_eq_false_iff_not]
  omega

theorem numTok_end (e : Bool) {rest : PyStr} (h : noNum rest) : numTok e rest = ([], rest) := by
  cases rest with
  | nil => rfl
  | cons c s =>
    obtain ⟨h1, h2, h3, h4, h5⟩ := h c rfl
    rw [numTok, if_neg]
    simp [h1, h2, h3, h4, h5]

theorem numTok_digits (s : PyStr) (hs : ∀ c ∈ s, isDigit c = true) (e : Bool) (rest : PyStr) (he : s = [] → e = false) : numTok e (s ++ rest) = (s ++ (numTok false rest).1, (numTok false rest).2) := by
  induction s generalizing e with
  | nil => rw [he rfl]; rfl
  | cons c s ih =>
    have hc := hs c List.mem_cons_self
    have h101 : (c == 101) = false := by
      simp only [isDigit, Bool.and_eq_true, decide_eq_true_eq] at hc
      simp only [beq_eq_false_iff_ne]
      omega
    rw [List.cons_append, numTok, if_pos (by simp [hc]), h101, ih (fun d hd => hs d (List.mem_cons_of_mem _ hd)) false fun _ => rfl]
    rfl

theorem digits_is {s : PyStr} (h : Digits s) : ∀ c ∈ s, isDigit c = true := by
  intro c hc
  have := h.2 c hc
  simpa [isDigit] using this

theorem numTok_float {s rest : PyStr} (h : FloatText s) (hr : noNum rest) : numTok false (s ++ rest) = (s, rest) := by
  obtain ⟨i, f, x, hi, hf, hx, _, rfl⟩ := h
  rw [List.append_assoc, List.append_assoc, numTok_digits i (digits_is hi) false _ fun _ => rfl]
  have hx' : ∀ e, numTok e (x ++ rest) = (x, rest) := by
    intro e
    rcases hx with rfl | ⟨g, d, rfl, hg, hd⟩
    · exact numTok_end e hr
    · rw [List.cons_append, numTok, if_pos (by simp), List.cons_append, numTok, if_pos (by rcases hg with rfl | rfl <;> simp)]
      have : (g == 101) = false := by rcases hg with rfl | rfl <;> rfl
      rw [this, numTok_digits d (digits_is hd) false _ fun _ => rfl, numTok_end false hr]
      simp
  rcases hf with rfl | ⟨d, rfl, hd⟩
  · rw [List.nil_append, hx']
    simp
  · rw [List.cons_append, numTok, if_pos (by simp), show ((46 : Nat) == 101) = false from rfl, numTok_digits d (digits_is hd) false _ fun _ => rfl, hx']
    simp

theorem floatText_head {s : PyStr} (h : FloatText s) : ∃ c t, s = c :: t ∧ isDigit c = true := by
  obtain ⟨i, f, x, hi, _, _, _, rfl⟩ := h
  cases i with
  | nil => exact absurd rfl hi.1
  | cons c i => exact ⟨c, _, rfl, digits_is hi c List.mem_cons_self⟩

theorem floatText_not {s : PyStr} (h : FloatText s) : s.all isDigit = false := by
  obtain ⟨i, f, x, hi, hf, hx, hne, rfl⟩ := h
  rw [List.all_eq_false]
  rcases hf with rfl | ⟨d, rfl, _⟩
  · rcases hx with rfl | ⟨g, d, rfl, _⟩
    · exact absurd ⟨rfl, rfl⟩ hne
    · exact ⟨101, by simp, by decide⟩
  · exact ⟨46, by simp, by decide⟩

theorem number_int (P : Py) (n : Nat) {rest : PyStr} (hr : noNum rest) : number P (dec n ++ rest) = some (.const (.int n), rest) := by
  unfold number
  rw [numTok_digits _ (dec_digits n) false _ fun _ => rfl, numTok_end false hr]
  dsimp only
  rw [List.append_nil, if_pos (List.all_eq_true.2 (dec_digits n)), if_pos (dec_head n), decVal_dec]

theorem number_float {P : Py} {s rest : PyStr} {x : UInt64} (h : FloatText s) (hx : P.read s = some x) (hr : noNum rest) : number P (s ++ rest) = some (.const (.float x), rest) := by
  unfold number
  rw [numTok_float h hr]
  dsimp only
  rw [if_neg (by rw [floatText_not h]; exact Bool.false_ne_true), hx]
  rfl

/-! ### Names -/

/-- Characters that end a name -/
def noIdent (rest : PyStr) : Prop := ∀ c, rest.head? = some c → isIdent c = false

theorem Stop.noIdent {rest : PyStr} (h : Stop rest) : noIdent rest := by
  intro c hc
  have := h c hc
  rcases this with rfl | rfl | rfl | rfl | rfl <;> rfl

theorem takeWhile_ident {w rest : PyStr} (hw : ∀ c ∈ w, isIdent c = true) (hr : noIdent rest) : (w ++ rest).takeWhile isIdent = w := by
  rw [List.takeWhile_append_of_pos hw]
  cases rest with
  | nil => simp
  | cons c s => rw [List.takeWhile_cons, if_neg (by rw [hr c rfl]; exact Bool.false_ne_true), List.append_nil]

theorem dropWhile_ident {w rest : PyStr} (hw : ∀ c ∈ w, isIdent c = true) (hr : noIdent rest) : (w ++ rest).dropWhile isIdent = rest := by
  rw [List.dropWhile_append_of_pos hw]
  cases rest with
  | nil => rfl
  | cons c s => rw [List.dropWhile_cons, if_neg (by rw [hr c rfl]; exact Bool.false_ne_true)]

theorem name_ident {w : PyStr} (h : Name w) : ∀ c ∈ w, isIdent c = true := by
  obtain ⟨c, t, rfl, hc, ht⟩ := h
  intro d hd
  rcases List.mem_cons.1 hd with rfl | hd
  · simp [isIdent, hc]
  · exact ht d hd

/-! ### Strings -/

theorem hexN_length (w v : Nat) : (hexN w v).length = w := by
  induction w generalizing v with
  | zero => rfl
  | succ w ih => rw [hexN, List.length_append, ih]; rfl

theorem hexDigit_val {d : Nat} (h : d < 16) : Json.hexVal (hexDigit d) = some d := by
  have : ∀ d : Fin 16, Json.hexVal (hexDigit d.val) = some d.val := by decide
  exact this ⟨d, h⟩

theorem hexDigits_append (w : Nat) : ∀ (acc v : Nat) (rest : PyStr), Source.hexDigits (w) acc (hexN w v ++ rest) = some (acc * 16 ^ w + v % 16 ^ w, rest) := by
  have step : ∀ (n acc a : Nat) (s s' : PyStr), Source.hexDigits n acc s = some (a, s') → ∀ d t, s' = hexDigit d :: t → d < 16 → Source.hexDigits (n + 1) acc s = some (a * 16 + d, t) := by
    intro n
    induction n with
    | zero =>
      intro acc a s s' h d t e hd
      cases h
      subst e
      rw [Source.hexDigits, hexDigit_val hd]
      rfl
    | succ n ih =>
      intro acc a s s' h d t e hd
      cases s with
      | nil => cases h
      | cons c s =>
        rw [Source.hexDigits] at h ⊢
        split at h
        · rename_i v hv
          exact ih _ _ _ _ h d t e hd
        · cases h
  induction w with
  | zero => intro acc v rest; simp [Source.hexDigits, hexN, Nat.mod_one]
  | succ w ih =>
    intro acc v rest
    rw [hexN, List.append_assoc]
    have h := step w acc _ _ _ (ih acc (v / 16) ([hexDigit (v % 16)] ++ rest)) (v % 16) rest rfl (Nat.mod_lt _ (by decide))
    rw [h]
    congr 2
    rw [Nat.pow_succ, Nat.add_mul, Nat.mul_assoc]
    rw [Nat.mul_comm (16 ^ w) 16, Nat.mod_mul, Nat.add_assoc]
    congr 1
    rw [Nat.mul_comm, Nat.add_comm]

theorem hexN_mem {w v : Nat} : ∀ c ∈ hexN w v, (48 ≤ c ∧ c ≤ 57) ∨ (97 ≤ c ∧ c ≤ 102) := by
  induction w generalizing v with
  | zero => intro c hc; cases hc
  | succ w ih =>
    intro c hc
    rw [hexN] at hc
    rcases List.mem_append.1 hc with hc | hc
    · exact ih c hc
    · rw [List.mem_singleton.1 hc]
      unfold hexDigit
      split <;> omega

theorem quoteFor_eq (s : PyStr) : quoteFor s = 39 ∨ quoteFor s = 34 := by
  unfold quoteFor
  split <;> simp

/-- A piece of a string literal: what a character is written as -/
inductive Piece (bytes : Bool) (names : PyStr → Option Nat) (q c : Nat) : PyStr → Prop
  | plain : c ≠ 10 → c ≠ q → c ≠ 92 → Piece bytes names q c [c]
  | esc (e : Nat) (h : PyStr) : (∀ d ∈ h, d ≠ 10 ∧ d ≠ q ∧ d ≠ 92) → (∀ rest, Source.escapeSeq bytes names (e :: h ++ rest) = some ([c], rest)) → Piece bytes names q c (92 :: e :: h)

theorem scan_cons {q c : Nat} {s : PyStr} (h1 : c ≠ 10) (h2 : c ≠ q) (h3 : c ≠ 92) : scan q (c :: s) = (scan q s).map fun r => (c :: r.1, r.2) := by
  rw [scan.eq_def]
  dsimp only
  rw [if_neg h1, if_neg h2, if_neg h3]

theorem scan_quote {q : Nat} {s : PyStr} (h : q ≠ 10) : scan q (q :: s) = some ([], s) := by
  rw [scan.eq_def]
  dsimp only
  rw [if_neg h, if_pos rfl]

theorem scan_esc {q e : Nat} {s : PyStr} (h : q ≠ 92) : scan q (92 :: e :: s) = (scan q s).map fun r => (92 :: e :: r.1, r.2) := by
  rw [scan.eq_def]
  dsimp only
  rw [if_neg (by decide), if_neg h.symm, if_pos rfl]

theorem scan_plain {q : Nat} (h rest : PyStr) (hh : ∀ d ∈ h, d ≠ 10 ∧ d ≠ q ∧ d ≠ 92) : scan q (h ++ rest) = (scan q rest).map fun r => (h ++ r.1, r.2) := by
  induction h with
  | nil => simp
  | cons c h ih =>
    obtain ⟨h1, h2, h3⟩ := hh c List.mem_cons_self
    rw [List.cons_append, scan_cons h1 h2 h3, ih fun d hd => hh d (List.mem_cons_of_mem _ hd), Option.map_map]
    rfl

theorem scan_pieces {bytes : Bool} {names : PyStr → Option Nat} {q : Nat} (hq : q ≠ 10 ∧ q ≠ 92) (f : Nat → PyStr) (s : List Nat) (hf : ∀ c ∈ s, Piece bytes names q c (f c)) (rest : PyStr) :
    scan q (s.flatMap f ++ q :: rest) = some (s.flatMap f, rest) := by
  induction s with
  | nil => rw [List.flatMap_nil, List.nil_append, scan_quote hq.1]
  | cons c s ih =>
    have ih := ih fun d hd => hf d (List.mem_cons_of_mem _ hd)
    rw [List.flatMap_cons, List.append_assoc]
    generalize hg : f c = g
    have hp := hf c List.mem_cons_self
    rw [hg] at hp
    cases hp with
    | plain h1 h2 h3 =>
      rw [scan_plain [c] _ (by intro d hd; rw [List.mem_singleton.1 hd]; exact ⟨h1, h2, h3⟩), ih]
      rfl
    | esc e h hh he =>
      rw [List.cons_append, List.cons_append, scan_esc hq.2, scan_plain h _ hh, ih]
      rfl

theorem unescape_pieces {bytes : Bool} {names : PyStr → Option Nat} {q : Nat} (f : Nat → PyStr) (s : List Nat) (hf : ∀ c ∈ s, Piece bytes names q c (f c)) (n : Nat)
    (hn : (s.flatMap f).length ≤ n) : Source.unescape bytes names n (s.flatMap f) = some s := by
  induction s generalizing n with
  | nil => cases n <;> rfl
  | cons c s ih =>
    rw [List.flatMap_cons, List.length_append] at hn
    rw [List.flatMap_cons]
    generalize hg : f c = g at hn ⊢
    have hp := hf c List.mem_cons_self
    rw [hg] at hp
    have ih := ih fun d hd => hf d (List.mem_cons_of_mem _ hd)
    cases hp with
    | plain h1 h2 h3 =>
      simp only [List.length_cons, List.length_nil] at hn
      obtain ⟨n, rfl⟩ : ∃ k, n = k + 1 := ⟨n - 1, by omega⟩
      rw [List.singleton_append, Source.unescape, if_neg h3, ih n (by omega)]
      rfl
    | esc e h hh he =>
      simp only [List.length_cons] at hn
      obtain ⟨n, rfl⟩ : ∃ k, n = k + 1 := ⟨n - 1, by omega⟩
      rw [List.cons_append, Source.unescape, if_pos rfl, he]
      dsimp only
      rw [ih n (by omega)]
      rfl

theorem short_pieces {bytes : Bool} {names : PyStr → Option Nat} {q : Nat} (hq : q ≠ 10 ∧ q ≠ 92) (f : Nat → PyStr) (s : List Nat) (hf : ∀ c ∈ s, Piece bytes names q c (f c)) {rest : PyStr}
    (hr : rest.head? ≠ some q) : short q (s.flatMap f ++ q :: rest) = some (s.flatMap f, rest) := by
  unfold short
  rw [if_neg, scan_pieces hq f s hf]
  intro hp
  cases s with
  | nil =>
    rw [List.flatMap_nil, List.nil_append] at hp
    obtain ⟨t, ht⟩ := hp
    cases ht
    exact hr rfl
  | cons c s =>
    rw [List.flatMap_cons, List.append_assoc] at hp
    generalize hg : f c = g at hp
    have hpc := hf c List.mem_cons_self
    rw [hg] at hpc
    obtain ⟨t, ht⟩ := hp
    cases hpc with
    | plain h1 h2 h3 => injection ht with e _; exact h2 e.symm
    | esc e h hh he => injection ht with e _; exact hq.2 e

theorem hex_plain {q w v : Nat} (hq : q = 39 ∨ q = 34) : ∀ d ∈ hexN w v, d ≠ 10 ∧ d ≠ q ∧ d ≠ 92 := by
  intro d hd
  have := hexN_mem d hd
  omega

theorem escape_x (bytes : Bool) (names : PyStr → Option Nat) {c : Nat} (hc : c < 256) (rest : PyStr) : Source.escapeSeq bytes names (120 :: hexN 2 c ++ rest) = some ([c], rest) := by
  rw [List.cons_append, Source.escapeSeq.eq_def]
  dsimp only
  rw [show Source.simpleEscape 120 = none from rfl]
  dsimp only
  rw [if_neg (by decide), if_neg (by decide), if_pos rfl, hexDigits_append]
  simp only [Option.map_some]
  rw [show (16 : Nat) ^ 2 = 256 from rfl, Nat.mod_eq_of_lt hc, Nat.zero_mul, Nat.zero_add]

theorem escape_u (names : PyStr → Option Nat) {c : Nat} (hc : c < 65536) (rest : PyStr) : Source.escapeSeq false names (117 :: hexN 4 c ++ rest) = some ([c], rest) := by
  rw [List.cons_append, Source.escapeSeq.eq_def]
  dsimp only
  rw [show Source.simpleEscape 117 = none from rfl]
  dsimp only
  rw [if_neg (by decide), if_neg (by decide), if_neg (by decide), if_neg (by decide), if_pos rfl, hexDigits_append]
  simp only [Option.map_some]
  rw [show (16 : Nat) ^ 4 = 65536 from rfl, Nat.mod_eq_of_lt hc, Nat.zero_mul, Nat.zero_add]

theorem escape_U (names : PyStr → Option Nat) {c : Nat} (hc : c < 0x110000) (rest : PyStr) : Source.escapeSeq false names (85 :: hexN 8 c ++ rest) = some ([c], rest) := by
  rw [List.cons_append, Source.escapeSeq.eq_def]
  dsimp only
  rw [show Source.simpleEscape 85 = none from rfl]
  dsimp only
  rw [if_neg (by decide), if_neg (by decide), if_neg (by decide), if_neg (by decide), if_neg (by decide), if_pos rfl, hexDigits_append]
  dsimp only
  rw [show (16 : Nat) ^ 8 = 4294967296 from rfl, Nat.mod_eq_of_lt (by omega), Nat.zero_mul, Nat.zero_add, if_pos hc]

theorem escape_simple (bytes : Bool) (names : PyStr → Option Nat) {e c : Nat} (h : Source.simpleEscape e = some c) (rest : PyStr) : Source.escapeSeq bytes names ([e] ++ rest) = some ([c], rest) := by
  rw [List.singleton_append, Source.escapeSeq.eq_def]
  dsimp only
  rw [h]

theorem strChar_piece (P : Py) {q c : Nat} (hq : q = 39 ∨ q = 34) (hc : c < 0x110000) : Piece false P.names q c (strChar P q c) := by
  unfold strChar
  split
  · rename_i h
    refine .esc c [] (fun _ h => nomatch h) (fun rest => escape_simple _ _ ?_ _)
    rcases h with rfl | rfl
    · rcases hq with rfl | rfl <;> rfl
    · rfl
  · rename_i h
    split
    · rename_i e; subst e; exact .esc 116 [] (fun _ h => nomatch h) (fun rest => escape_simple _ _ rfl _)
    · split
      · rename_i e; subst e; exact .esc 110 [] (fun _ h => nomatch h) (fun rest => escape_simple _ _ rfl _)
      · split
        · rename_i e; subst e; exact .esc 114 [] (fun _ h => nomatch h) (fun rest => escape_simple _ _ rfl _)
        · split
          · exact .esc 120 _ (hex_plain hq) (fun rest => escape_x _ _ (by omega) _)
          · split
            · exact .plain (by omega) (by omega) (by omega)
            · split
              · exact .plain (by omega) (by omega) (by omega)
              · split
                · exact .esc 120 _ (hex_plain hq) (fun rest => escape_x _ _ (by omega) _)
                · split
                  · exact .esc 117 _ (hex_plain hq) (fun rest => escape_u _ (by omega) _)
                  · exact .esc 85 _ (hex_plain hq) (fun rest => escape_U _ hc _)

theorem byteChar_piece (names : PyStr → Option Nat) {q c : Nat} (hq : q = 39 ∨ q = 34) (hc : c < 256) : Piece true names q c (byteChar q c) := by
  unfold byteChar
  split
  · rename_i h
    refine .esc c [] (fun _ h => nomatch h) (fun rest => escape_simple _ _ ?_ _)
    rcases h with rfl | rfl
    · rcases hq with rfl | rfl <;> rfl
    · rfl
  · rename_i h
    split
    · rename_i e; subst e; exact .esc 116 [] (fun _ h => nomatch h) (fun rest => escape_simple _ _ rfl _)
    · split
      · rename_i e; subst e; exact .esc 110 [] (fun _ h => nomatch h) (fun rest => escape_simple _ _ rfl _)
      · split
        · rename_i e; subst e; exact .esc 114 [] (fun _ h => nomatch h) (fun rest => escape_simple _ _ rfl _)
        · split
          · exact .esc 120 _ (hex_plain hq) (fun rest => escape_x _ _ hc _)
          · exact .plain (by omega) (by omega) (by omega)

theorem strLit_text (P : Py) (s : PyStr) (hs : ∀ c ∈ s, c < 0x110000) {rest : PyStr} (hr : Stop rest) :
    strLit P (quoteFor s) (s.flatMap (strChar P (quoteFor s)) ++ quoteFor s :: rest) = some (.const (.str s), rest) := by
  have hq := quoteFor_eq s
  generalize quoteFor s = q at hq
  have hp := fun c hc => strChar_piece P (q := q) (c := c) hq (hs c hc)
  unfold strLit
  rw [short_pieces (by omega) _ s hp (by intro h; have := hr _ h; omega)]
  show (Source.unescape false P.names _ _).bind _ = _
  rw [unescape_pieces _ s hp _ (Nat.le_refl _)]
  rfl

theorem hexN_lt {w v : Nat} : ∀ c ∈ hexN w v, c < 128 := by
  intro c hc
  have := hexN_mem c hc
  omega

theorem byteChar_lt {q c : Nat} (hq : q = 39 ∨ q = 34) : ∀ d ∈ byteChar q c, d < 128 := by
  intro d hd
  unfold byteChar at hd
  repeat' (split at hd)
  all_goals simp only [List.cons_append, List.nil_append, List.mem_cons, List.not_mem_nil, or_false] at hd
  all_goals first | omega | skip
  rcases hd with h | h | h
  · omega
  · omega
  · exact hexN_lt d h

theorem bytesLit_text (P : Py) (b : Bytes) {rest : PyStr} (hr : Stop rest) :
    bytesLit P (quoteFor (b.map UInt8.toNat)) ((b.map UInt8.toNat).flatMap (byteChar (quoteFor (b.map UInt8.toNat))) ++ quoteFor (b.map UInt8.toNat) :: rest) = some (.const (.bytes b), rest) := by
  have hq := quoteFor_eq (b.map UInt8.toNat)
  generalize quoteFor (b.map UInt8.toNat) = q at hq
  have hs : ∀ c ∈ b.map UInt8.toNat, c < 256 := by
    intro c hc
    obtain ⟨x, _, rfl⟩ := List.mem_map.1 hc
    exact x.toNat_lt
  have hp := fun c hc => byteChar_piece P.names (q := q) (c := c) hq (hs c hc)
  unfold bytesLit
  rw [short_pieces (by omega) _ _ hp (by intro h; have := hr _ h; omega)]
  show (if _ then (Source.unescape true P.names _ _).bind _ else none) = _
  rw [if_pos, unescape_pieces _ _ hp _ (Nat.le_refl _)]
  · show some (Expr.const (.bytes ((b.map UInt8.toNat).map UInt8.ofNat)), rest) = _
    rw [List.map_map, show (UInt8.ofNat ∘ UInt8.toNat) = id from funext fun x => by simp, List.map_id]
  · rw [List.all_eq_true]
    intro d hd
    obtain ⟨c, _, hd⟩ := List.mem_flatMap.1 hd
    simpa using byteChar_lt hq d hd

end Thrift.Repr
