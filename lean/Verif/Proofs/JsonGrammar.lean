import Verif.Proofs.JsonGood
/-
Documents against the grammar of RFC 8259.
-/

namespace Thrift.Json
open Spec Spec.Json

/-! ### Documents that satisfy the grammar -/

mutual
/-- The texts inside satisfy the grammar. -/
def Lexical : J → Prop
  | .num d => Rfc8259.Number d
  | .str s => Rfc8259.Chars s
  | .arr xs => LexicalItems xs
  | .obj xs => LexicalMembers xs
def LexicalItems : List J → Prop
  | [] => True
  | x :: xs => Lexical x ∧ LexicalItems xs
def LexicalMembers : List (Bytes × J) → Prop
  | [] => True
  | (k, x) :: xs => Rfc8259.Chars k ∧ Lexical x ∧ LexicalMembers xs
end

theorem blank_nil : Rfc8259.Blank [] := by intro x hx; cases hx

theorem text_of_value {b : Bytes} (h : Rfc8259.Value b) : Rfc8259.Text b := by
  have := Rfc8259.Text.mk [] b [] blank_nil h blank_nil
  simpa using this

theorem member_of {k v : Bytes} (hk : Rfc8259.Chars k) (hv : Rfc8259.Value v) :
    Rfc8259.Member (quoted k ++ 58 :: v) := by
  have := Rfc8259.Member.mk [] k [] v blank_nil hk blank_nil (text_of_value hv)
  simpa [quoted] using this

mutual
theorem render_value : (x : J) → Lexical x → Rfc8259.Value (render x)
  | .num d, h => by simp only [render]; exact .number d h
  | .str s, h => by simp only [render]; exact .string s h
  | .arr [], _ => by simp only [render]; exact .emptyArray [] blank_nil
  | .arr (x :: xs), h => by
    simp only [Lexical, LexicalItems] at h
    simp only [render]
    have := Rfc8259.Value.array _ (items_of x xs h.1 h.2)
    simpa using this
  | .obj [], _ => by simp only [render]; exact .emptyObject [] blank_nil
  | .obj ((k, x) :: xs), h => by
    simp only [Lexical, LexicalMembers] at h
    simp only [render]
    have := Rfc8259.Value.object _ (members_of k x xs h.1 h.2.1 h.2.2)
    simpa using this
termination_by x => (sizeOf x, 0)
decreasing_by all_goals (simp_wf; omega)
theorem items_of : (x : J) → (xs : List J) → Lexical x → LexicalItems xs →
    Rfc8259.Items (render x ++ renderItems xs)
  | x, [], h, _ => by
    simp only [renderItems, List.append_nil]
    exact .one _ (text_of_value (render_value x h))
  | x, y :: ys, h, h' => by
    simp only [LexicalItems] at h'
    simp only [renderItems]
    exact .more _ _ (text_of_value (render_value x h)) (items_of y ys h'.1 h'.2)
termination_by x xs => (sizeOf x + sizeOf xs, 1)
decreasing_by all_goals (simp_wf; omega)
theorem members_of : (k : Bytes) → (x : J) → (xs : List (Bytes × J)) → Rfc8259.Chars k → Lexical x →
    LexicalMembers xs → Rfc8259.Members (quoted k ++ (58 :: render x ++ renderMembers xs))
  | k, x, [], hk, h, _ => by
    simp only [renderMembers, List.append_nil]
    exact .one _ (member_of hk (render_value x h))
  | k, x, (l, y) :: ys, hk, h, h' => by
    simp only [LexicalMembers] at h'
    simp only [renderMembers]
    have := Rfc8259.Members.more _ _ (member_of hk (render_value x h)) (members_of l y ys h'.1 h'.2.1 h'.2.2)
    simpa using this
termination_by k x xs => (sizeOf x + sizeOf xs, 1)
decreasing_by all_goals (simp_wf; omega)
end

theorem chars_append {a b : Bytes} (ha : Rfc8259.Chars a) (hb : Rfc8259.Chars b) : Rfc8259.Chars (a ++ b) := by
  induction ha with
  | nil => exact hb
  | plain c d h1 h2 h3 h4 _ ih => rw [List.append_assoc]; exact .plain c _ h1 h2 h3 h4 ih
  | escaped x d h1 _ ih => exact .escaped x _ h1 ih
  | unicode h d h1 h2 _ ih =>
    have := Rfc8259.Chars.unicode h _ h1 h2 ih
    simpa using this

theorem chars_plain {b : Bytes} (h : ∀ x ∈ b, Plain x) : Rfc8259.Chars b := by
  induction b with
  | nil => exact .nil
  | cons x xs ih =>
    obtain ⟨h1, h2, h3, h4⟩ := h x (by simp)
    have := Rfc8259.Chars.plain x.toNat xs (by unfold Scalar; omega) h1
      h3 h4 (ih fun y hy => h y (by simp [hy]))
    rw [utf8_ascii h2] at this
    simpa using this

theorem chars_escapedChar {c : Nat} (hs : Scalar c) (hc : 0x20 ≤ c ∨ c ∈ [0x08, 0x09, 0x0A, 0x0C, 0x0D]) :
    Rfc8259.Chars (escapedChar c) := by
  by_cases h : c = 34 ∨ c = 92 ∨ c = 8 ∨ c = 12 ∨ c = 10 ∨ c = 13 ∨ c = 9
  · rcases h with rfl | rfl | rfl | rfl | rfl | rfl | rfl <;>
      exact .escaped _ [] (by decide) .nil
  · rw [escapedChar_plain (by omega)]
    have := Rfc8259.Chars.plain c [] hs (by
      rcases hc with hc | hc
      · exact hc
      · simp at hc; omega) (by omega) (by omega) .nil
    simpa using this

theorem chars_escaped {s : PyStr} (hs : ∀ c ∈ s, Scalar c) (hc : Clean s) : Rfc8259.Chars (escaped s) := by
  induction s with
  | nil => exact .nil
  | cons c cs ih =>
    rw [escaped_cons]
    exact chars_append (chars_escapedChar (hs c (by simp)) (hc c (by simp)))
      (ih (fun x hx => hs x (by simp [hx])) (fun x hx => hc x (by simp [hx])))

theorem number_chars {b : Bytes} (h : Rfc8259.Number b) : Rfc8259.Chars b :=
  chars_plain fun x hx => numeric_plain (number_numeric h x hx)

theorem typeName_chars (t : Ty) : Rfc8259.Chars (Spec.Json.typeName t) := by
  apply chars_plain
  cases t <;> (simp only [Spec.Json.typeName]; decide +kernel)

theorem number_decimal (i : Int) : Rfc8259.Number (decimal i) := by rw [← intDigits_eq]; exact number_intDigits i

theorem number_bool (b : Bool) : Rfc8259.Number (if b then ascii "1" else ascii "0") := by
  rw [← bool_digits]
  exact number_decimal _

theorem chars_base64 (b : Bytes) : Rfc8259.Chars (base64 b) := by
  rw [← b64encode_eq]
  exact chars_plain (b64encode_plain b)

theorem chars_uuid (u : Bytes) : Rfc8259.Chars (Spec.Json.uuidText u) :=
  chars_plain (by rw [uuidText_eq]; exact uuidText_plain u)

section
variable (fmt : UInt64 → Bytes) (sch : Schema) (hfmt : ∀ x, Finite x → Rfc8259.Number (fmt x))
include hfmt

theorem key_chars (v : Val) (t : Ty) (hwt : WT sch t v) (hd : Doubles Finite v) (hs : Strings Clean v) :
    Rfc8259.Chars (keyText fmt v) := by
  cases v <;> simp only [keyText]
  case bool b => exact number_chars (number_bool b)
  case int i => exact number_chars (number_decimal i)
  case double x => exact number_chars (hfmt x hd)
  case str s =>
    cases t <;> simp only [WT] at hwt
    exact chars_escaped hwt.1 hs
  case bin b => exact chars_base64 b
  case uuid u => exact chars_uuid u
  all_goals exact .nil

mutual
theorem tree_lexical : (v : Val) → (t : Ty) → WT sch t v → Doubles Finite v → Strings Clean v →
    Lexical (tree fmt sch t v) := by
  intro v t hwt hd hs
  cases v with
  | bool b => cases t <;> simp only [WT] at hwt <;> (simp only [tree, Lexical]; exact number_bool b)
  | int i => cases t <;> simp only [WT] at hwt <;> (simp only [tree, Lexical]; exact number_decimal i)
  | double x => cases t <;> simp only [WT] at hwt <;> (simp only [tree, Lexical]; exact hfmt x hd)
  | str s => cases t <;> simp only [WT] at hwt <;> (simp only [tree, Lexical]; exact chars_escaped hwt.1 hs)
  | bin b => cases t <;> simp only [WT] at hwt <;> (simp only [tree, Lexical]; exact chars_base64 b)
  | uuid u => cases t <;> simp only [WT] at hwt <;> (simp only [tree, Lexical]; exact chars_uuid u)
  | list vs =>
    cases t <;> simp only [WT] at hwt
    simp only [Doubles] at hd
    simp only [Strings] at hs
    simp only [tree, Lexical, LexicalItems]
    exact ⟨typeName_chars _, number_decimal _, trees_lexical vs _ hwt.2 hd hs⟩
  | set vs =>
    cases t <;> simp only [WT] at hwt
    simp only [Doubles] at hd
    simp only [Strings] at hs
    simp only [tree, Lexical, LexicalItems]
    exact ⟨typeName_chars _, number_decimal _, trees_lexical vs _ hwt.2.2 hd hs⟩
  | map kvs =>
    cases t <;> simp only [WT] at hwt
    simp only [Doubles] at hd
    simp only [Strings] at hs
    simp only [tree, Lexical, LexicalItems]
    exact ⟨typeName_chars _, typeName_chars _, number_decimal _, treep_lexical kvs _ _ hwt.2.2 hd hs, trivial⟩
  | struct as =>
    cases t <;> simp only [WT] at hwt
    simp only [Doubles] at hd
    simp only [Strings] at hs
    simp only [tree, Lexical]
    exact treef_lexical as _ hwt hd hs
theorem trees_lexical : (vs : List Val) → (e : Ty) → WTs sch e vs → Doubless Finite vs → Stringss Clean vs →
    LexicalItems (trees fmt sch e vs) := by
  intro vs e hwt hd hs
  cases vs with
  | nil => simp only [trees, LexicalItems]
  | cons v vs =>
    simp only [WTs] at hwt
    simp only [Doubless] at hd
    simp only [Stringss] at hs
    simp only [trees, LexicalItems]
    exact ⟨tree_lexical v e hwt.1 hd.1 hs.1, trees_lexical vs e hwt.2 hd.2 hs.2⟩
theorem treep_lexical : (kvs : List (Val × Val)) → (k v : Ty) → WTp sch k v kvs → Doublesp Finite kvs →
    Stringsp Clean kvs → LexicalMembers (treep fmt sch v kvs) := by
  intro kvs k v hwt hd hs
  match kvs with
  | [] => simp only [treep, LexicalMembers]
  | (a, b) :: kvs =>
    simp only [WTp] at hwt
    simp only [Doublesp] at hd
    simp only [Stringsp] at hs
    simp only [treep, LexicalMembers]
    exact ⟨key_chars fmt sch hfmt a k hwt.1 hd.1 hs.1, tree_lexical b v hwt.2.1 hd.2.1 hs.2.1,
      treep_lexical kvs k v hwt.2.2 hd.2.2 hs.2.2⟩
theorem treef_lexical : (as : List (Option Val)) → (fs : List Field) → WTf sch fs as → Doublesf Finite as →
    Stringsf Clean as → LexicalMembers (treef fmt sch fs as) := by
  intro as fs hwt hd hs
  match as with
  | [] => cases fs <;> simp only [treef, LexicalMembers]
  | none :: as =>
    cases fs with
    | nil => simp only [WTf] at hwt
    | cons f fs =>
      simp only [WTf] at hwt
      simp only [Doublesf] at hd
      simp only [Stringsf] at hs
      simp only [treef]
      exact treef_lexical as fs hwt.2 hd hs
  | some v :: as =>
    cases fs with
    | nil => simp only [WTf] at hwt
    | cons f fs =>
      simp only [WTf] at hwt
      simp only [Doublesf] at hd
      simp only [Stringsf] at hs
      simp only [treef, LexicalMembers, Lexical]
      exact ⟨number_chars (number_decimal _), ⟨typeName_chars _, tree_lexical v f.ty hwt.1 hd.1 hs.1, trivial⟩,
        treef_lexical as fs hwt.2 hd.2 hs.2⟩
end
end

/-! ### What a document must satisfy -/

/-- Bytes that occur in JSON texts. -/
def Printable (b : Bytes) : Prop := ∀ x ∈ b, 0x20 ≤ x.toNat ∨ x = 9 ∨ x = 10 ∨ x = 13

theorem Printable.append {a b : Bytes} (ha : Printable a) (hb : Printable b) : Printable (a ++ b) := by
  intro x hx
  rcases List.mem_append.mp hx with h | h
  · exact ha x h
  · exact hb x h

theorem Printable.cons {c : UInt8} {b : Bytes} (hc : 0x20 ≤ c.toNat) (hb : Printable b) : Printable (c :: b) := by
  intro x hx
  rcases List.mem_cons.mp hx with rfl | h
  · exact .inl hc
  · exact hb x h

theorem printable_nil : Printable [] := fun _ h => by cases h

theorem printable_blank {b : Bytes} (h : Rfc8259.Blank b) : Printable b := by
  intro x hx
  rcases h x hx with rfl | rfl | rfl | rfl
  · exact .inl (by decide)
  · exact .inr (.inl rfl)
  · exact .inr (.inr (.inl rfl))
  · exact .inr (.inr (.inr rfl))

theorem printable_number {b : Bytes} (h : Rfc8259.Number b) : Printable b := fun x hx =>
  .inl (numeric_plain (number_numeric h x hx)).1

theorem utf8_bytes {c : Nat} (h : Scalar c) (h2 : 0x20 ≤ c) : ∀ x ∈ utf8 [c], 0x20 ≤ x.toNat := by
  intro x hx
  by_cases hc : c < 0x80
  · rw [utf8_ascii hc] at hx
    simp only [List.mem_singleton] at hx
    subst hx
    rw [UInt8.toNat_ofNat']
    omega
  · have := (utf8_high h (by omega)).2 x hx
    omega

theorem printable_chars {b : Bytes} (h : Rfc8259.Chars b) : Printable b := by
  induction h with
  | nil => exact printable_nil
  | plain c d h1 h2 _ _ _ ih => exact Printable.append (fun x hx => .inl (utf8_bytes h1 h2 x hx)) ih
  | escaped x d h1 _ ih =>
    refine Printable.cons (by decide) (Printable.cons ?_ ih)
    simp only [List.mem_cons, List.not_mem_nil, or_false] at h1
    rcases h1 with rfl | rfl | rfl | rfl | rfl | rfl | rfl | rfl <;> decide
  | unicode h d h1 h2 _ ih =>
    refine Printable.cons (by decide) (Printable.cons (by decide) (Printable.append (fun x hx => .inl ?_) ih))
    have := h2 x hx
    unfold Rfc8259.HexDigit Rfc8259.Digit at this
    omega

theorem printable_text {b : Bytes} (h : Rfc8259.Text b) : Printable b := by
  refine Rfc8259.Text.rec (motive_1 := fun b _ => Printable b) (motive_2 := fun b _ => Printable b)
    (motive_3 := fun b _ => Printable b) (motive_4 := fun b _ => Printable b) (motive_5 := fun b _ => Printable b)
    ?_ ?_ ?_ ?_ ?_ ?_ ?_ ?_ ?_ ?_ ?_ ?_ ?_ ?_ ?_ h
  · unfold Printable; decide
  · unfold Printable; decide
  · unfold Printable; decide
  · intro b h; exact printable_number h
  · intro b h; exact Printable.cons (by decide) (Printable.append (printable_chars h) (Printable.cons (by decide) printable_nil))
  · intro w h; exact Printable.cons (by decide) (Printable.append (printable_blank h) (Printable.cons (by decide) printable_nil))
  · intro w _ h; exact Printable.cons (by decide) (Printable.append h (Printable.cons (by decide) printable_nil))
  · intro w h; exact Printable.cons (by decide) (Printable.append (printable_blank h) (Printable.cons (by decide) printable_nil))
  · intro w _ h; exact Printable.cons (by decide) (Printable.append h (Printable.cons (by decide) printable_nil))
  · intro w v w' h1 _ h2 h3; exact Printable.append (printable_blank h1) (Printable.append h3 (printable_blank h2))
  · intro b _ h; exact h
  · intro b rest _ _ h1 h2; exact Printable.append h1 (Printable.cons (by decide) h2)
  · intro b _ h; exact h
  · intro b rest _ _ h1 h2; exact Printable.append h1 (Printable.cons (by decide) h2)
  · intro w k w' v h1 h2 h3 _ h4
    exact Printable.append (printable_blank h1) (Printable.cons (by decide) (Printable.append (printable_chars h2)
      (Printable.cons (by decide) (Printable.append (printable_blank h3) (Printable.cons (by decide) h4)))))

/-- A scanner that follows the strings of a text and rejects, outside of strings, `i` and an `n` without `u`
after it. The first argument: 0 outside of strings, 1 inside, 2 after a backslash, 3 after `n`. -/
def scan : Nat → Bytes → Bool
  | _, [] => true
  | 0, x :: xs => if x = 34 then scan 1 xs else if x = 110 then scan 3 xs else if x = 105 then false else scan 0 xs
  | 1, x :: xs => if x = 34 then scan 0 xs else if x = 92 then scan 2 xs else scan 1 xs
  | 2, _ :: xs => scan 1 xs
  | _, x :: xs => if x = 117 then scan 0 xs else false

/-- `b` is accepted and leaves the scanner where it was. -/
def Passes (k : Nat) (b : Bytes) : Prop := ∀ rest, scan k (b ++ rest) = scan k rest

theorem Passes.append {k : Nat} {a b : Bytes} (ha : Passes k a) (hb : Passes k b) : Passes k (a ++ b) := by
  intro rest
  rw [List.append_assoc, ha, hb]

theorem passes_nil (k : Nat) : Passes k [] := fun _ => rfl

theorem passes_cons {c : UInt8} {b : Bytes} (h1 : c ≠ 34) (h2 : c ≠ 110) (h3 : c ≠ 105) (hb : Passes 0 b) :
    Passes 0 (c :: b) := by
  intro rest
  rw [List.cons_append]
  simp only [scan, h1, h2, h3, if_false]
  exact hb rest

theorem passes_each {b : Bytes} (h : ∀ x ∈ b, x ≠ 34 ∧ x ≠ 110 ∧ x ≠ 105) : Passes 0 b := by
  induction b with
  | nil => exact passes_nil 0
  | cons x xs ih =>
    obtain ⟨h1, h2, h3⟩ := h x (by simp)
    exact passes_cons h1 h2 h3 (ih fun y hy => h y (by simp [hy]))

theorem passes_blank {b : Bytes} (h : Rfc8259.Blank b) : Passes 0 b :=
  passes_each fun x hx => by rcases h x hx with rfl | rfl | rfl | rfl <;> decide

theorem passes_number {b : Bytes} (h : Rfc8259.Number b) : Passes 0 b :=
  passes_each fun x hx => by
    have := number_numeric h x hx
    have key : ∀ x : Fin 256, isNumeric [UInt8.ofNat x.val] = true →
        UInt8.ofNat x.val ≠ 34 ∧ UInt8.ofNat x.val ≠ 110 ∧ UInt8.ofNat x.val ≠ 105 := by decide +kernel
    have h' := key ⟨x.toNat, x.toNat_lt⟩
    simp only [UInt8.ofNat_toNat] at h'
    exact h' this

theorem passes_plain {b : Bytes} (h : ∀ x ∈ b, x ≠ 34 ∧ x ≠ 92) : Passes 1 b := by
  induction b with
  | nil => exact passes_nil 1
  | cons x xs ih =>
    obtain ⟨h1, h2⟩ := h x (by simp)
    intro rest
    rw [List.cons_append]
    simp only [scan, h1, h2, if_false]
    exact ih (fun y hy => h y (by simp [hy])) rest

theorem passes_chars {b : Bytes} (h : Rfc8259.Chars b) : Passes 1 b := by
  induction h with
  | nil => exact passes_nil 1
  | plain c d h1 h2 h3 h4 _ ih =>
    refine Passes.append (passes_plain fun x hx => ?_) ih
    by_cases hc : c < 0x80
    · rw [utf8_ascii hc] at hx
      simp only [List.mem_singleton] at hx
      subst hx
      constructor
      · intro e
        apply h3
        have := congrArg UInt8.toNat e
        rw [UInt8.toNat_ofNat'] at this
        have e2 : (34 : UInt8).toNat = 34 := rfl
        omega
      · intro e
        apply h4
        have := congrArg UInt8.toNat e
        rw [UInt8.toNat_ofNat'] at this
        have e2 : (92 : UInt8).toNat = 92 := rfl
        omega
    · have := (utf8_high h1 (by omega)).2 x hx
      constructor
      · rintro rfl
        exact absurd this (by decide)
      · rintro rfl
        exact absurd this (by decide)
  | escaped x d _ _ ih => intro rest; exact ih rest
  | unicode h d h1 h2 _ ih =>
    have : Passes 1 (h ++ d) := by
      refine Passes.append (passes_plain fun x hx => ?_) ih
      have := h2 x hx
      unfold Rfc8259.HexDigit Rfc8259.Digit at this
      constructor
      · rintro rfl
        have e : (34 : UInt8).toNat = 34 := rfl
        omega
      · rintro rfl
        have e : (92 : UInt8).toNat = 92 := rfl
        omega
    intro rest
    exact this rest

theorem passes_string {b : Bytes} (h : Rfc8259.Chars b) : Passes 0 (34 :: (b ++ [34])) := by
  intro rest
  have := passes_chars h (34 :: rest)
  simp only [List.cons_append, List.append_assoc, List.nil_append]
  rw [scan, if_pos rfl, this, scan, if_pos rfl]

theorem passes_bracket {c d : UInt8} {b : Bytes} (hc : c ≠ 34 ∧ c ≠ 110 ∧ c ≠ 105) (hd : d ≠ 34 ∧ d ≠ 110 ∧ d ≠ 105)
    (hb : Passes 0 b) : Passes 0 (c :: (b ++ [d])) :=
  passes_cons hc.1 hc.2.1 hc.2.2 (Passes.append hb (passes_cons hd.1 hd.2.1 hd.2.2 (passes_nil 0)))

theorem passes_text {b : Bytes} (h : Rfc8259.Text b) : Passes 0 b := by
  refine Rfc8259.Text.rec (motive_1 := fun b _ => Passes 0 b) (motive_2 := fun b _ => Passes 0 b)
    (motive_3 := fun b _ => Passes 0 b) (motive_4 := fun b _ => Passes 0 b) (motive_5 := fun b _ => Passes 0 b)
    ?_ ?_ ?_ ?_ ?_ ?_ ?_ ?_ ?_ ?_ ?_ ?_ ?_ ?_ ?_ h
  · intro rest; rfl
  · intro rest; rfl
  · intro rest; rfl
  · intro b h; exact passes_number h
  · intro b h; exact passes_string h
  · intro w h; exact passes_bracket (by decide) (by decide) (passes_blank h)
  · intro w _ h; exact passes_bracket (by decide) (by decide) h
  · intro w h; exact passes_bracket (by decide) (by decide) (passes_blank h)
  · intro w _ h; exact passes_bracket (by decide) (by decide) h
  · intro w v w' h1 _ h2 h3; exact Passes.append (passes_blank h1) (Passes.append h3 (passes_blank h2))
  · intro b _ h; exact h
  · intro b rest _ _ h1 h2; exact Passes.append h1 (passes_cons (by decide) (by decide) (by decide) h2)
  · intro b _ h; exact h
  · intro b rest _ _ h1 h2; exact Passes.append h1 (passes_cons (by decide) (by decide) (by decide) h2)
  · intro w k w' v h1 h2 h3 _ h4
    have h5 := Passes.append (passes_string h2) (Passes.append (passes_blank h3) (passes_cons (c := 58) (by decide) (by decide) (by decide) h4))
    have := Passes.append (passes_blank h1) h5
    simpa using this

end Thrift.Json
