import Verif.Proofs.ReprParse
/-
Every text of a value is read as its expression, for C94.
-/

namespace Thrift.Repr
open Rpc Spec.Repr
open Attrs (Cls)

section
variable {P : Py}

theorem isStart_ne {c : Nat} (h : isStart c = true) : c ≠ 32 ∧ c ≠ 61 ∧ c ≠ 93 ∧ c ≠ 41 ∧ c ≠ 125 := by
  simp only [isStart, Bool.and_eq_true, Bool.or_eq_true, decide_eq_true_eq, beq_iff_eq] at h
  omega

theorem isDigit_ne {c : Nat} (h : isDigit c = true) : c ≠ 32 ∧ c ≠ 61 ∧ c ≠ 93 ∧ c ≠ 41 ∧ c ≠ 125 := by
  simp only [isDigit, Bool.and_eq_true, decide_eq_true_eq] at h
  omega

theorem dec_cons (n : Nat) : ∃ c t, dec n = c :: t ∧ isDigit c = true := by
  cases h : dec n with
  | nil => exact absurd h (dec_ne n)
  | cons c t => exact ⟨c, t, rfl, dec_digits n c (h ▸ List.mem_cons_self)⟩

theorem float_text (hP : Lawful P) {a : Nat} (h : a < 0x7FF0000000000000) : FloatText (P.show_ (UInt64.ofNat a)) ∧ P.read (P.show_ (UInt64.ofNat a)) = some (UInt64.ofNat a) := by
  refine hP.float _ ?_
  rw [UInt64.toNat_ofNat']
  omega

theorem text_leads (hP : Lawful P) (x : V) (hp : Proper x) : Leads (text P x) := by
  cases x with
  | none => exact ⟨78, _, rfl, by decide⟩
  | bool b => cases b <;> exact ⟨_, _, rfl, by decide⟩
  | int i =>
    rw [text, reprInt]
    split
    · exact ⟨_, _, rfl, by decide⟩
    · obtain ⟨c, t, e, h⟩ := dec_cons i.natAbs
      exact ⟨c, t, e, isDigit_ne h⟩
  | float x =>
    rw [text, reprFloat]
    dsimp only
    split
    · exact ⟨_, _, rfl, by decide⟩
    · split
      · exact ⟨_, _, rfl, by decide⟩
      · split
        · exact ⟨_, _, rfl, by decide⟩
        · obtain ⟨c, t, e, h⟩ := floatText_head (float_text hP (a := x.toNat % 2 ^ 63) (by omega)).1
          exact ⟨c, t, e, isDigit_ne h⟩
  | str s =>
    refine ⟨quoteFor s, _, rfl, ?_⟩
    have := quoteFor_eq s
    omega
  | bytes b => exact ⟨98, _, rfl, by decide⟩
  | uuid n => exact ⟨85, _, rfl, by decide⟩
  | list xs => rw [text]; exact ⟨91, _, rfl, by decide⟩
  | tuple xs => rcases xs with _ | ⟨x, _ | ⟨y, xs⟩⟩ <;> rw [text] <;> first | exact ⟨40, _, rfl, by decide⟩ | simp
  | set xs => cases xs <;> rw [text] <;> first | exact ⟨123, _, rfl, by decide⟩ | exact ⟨_, _, rfl, by decide⟩ | simp
  | frozenset xs => cases xs <;> rw [text] <;> first | exact ⟨_, _, rfl, by decide⟩ | simp
  | dict kvs => rw [text]; exact ⟨123, _, rfl, by decide⟩
  | frozenDict kvs => rw [text]; exact ⟨123, _, rfl, by decide⟩
  | enum c m i => exact ⟨60, _, rfl, by decide⟩
  | inst c as =>
    obtain ⟨⟨⟨d, t, e, hd, _⟩, _⟩, _⟩ := hp
    rw [text, e]
    exact ⟨d, _, rfl, isStart_ne hd⟩

/-! ### One token -/

theorem expr_constant {w : PyStr} {v : V} (hw : constant w = some v) (n l : Nat) {rest : PyStr} (hr : noIdent rest) : expr P (n + 1) l (w ++ rest) = some (.const v, rest) := by
  have hw' : w = pyStr "None" ∨ w = pyStr "True" ∨ w = pyStr "False" := by
    unfold constant at hw
    by_cases h1 : w = pyStr "None"
    · exact .inl h1
    · by_cases h2 : w = pyStr "True"
      · exact .inr (.inl h2)
      · by_cases h3 : w = pyStr "False"
        · exact .inr (.inr h3)
        · rw [if_neg h1, if_neg h2, if_neg h3] at hw; cases hw
  have hid : ∀ c ∈ w, isIdent c = true := by rcases hw' with rfl | rfl | rfl <;> decide
  have hb : w ≠ [98] := by rcases hw' with rfl | rfl | rfl <;> decide
  obtain ⟨c, t, hct, hc⟩ : ∃ c t, w = c :: t ∧ (c = 78 ∨ c = 84 ∨ c = 70) := by rcases hw' with rfl | rfl | rfl <;> exact ⟨_, _, rfl, by decide⟩
  have htw := takeWhile_ident hid hr
  have hdw := dropWhile_ident hid hr
  rw [expr, show skip (w ++ rest) = c :: (t ++ rest) by rw [hct]; exact skip_cons (by omega)]
  have hcc : c :: (t ++ rest) = w ++ rest := by rw [hct]; rfl
  dsimp only
  have hd : isDigit c = false := by rcases hc with rfl | rfl | rfl <;> rfl
  have hs : isStart c = true := by rcases hc with rfl | rfl | rfl <;> rfl
  rw [if_neg (by omega), if_neg (by omega), if_neg (by omega), if_neg (by omega), if_neg (by omega), if_neg (by rw [hd]; exact Bool.false_ne_true), if_pos hs, hcc, htw, hdw, if_neg (fun h => hb h.1), if_neg (fun h => hb h.1), hw]

theorem expr_digit {s : PyStr} (hs : ∃ c t, s = c :: t ∧ isDigit c = true) (n l : Nat) (rest : PyStr) : expr P (n + 1) l (s ++ rest) = number P (s ++ rest) := by
  obtain ⟨c, t, rfl, hd⟩ := hs
  rw [expr, List.cons_append, skip_cons (isDigit_ne hd).1]
  dsimp only
  have hb : c ≠ 45 ∧ c ≠ 91 ∧ c ≠ 40 ∧ c ≠ 123 ∧ ¬ (c = 39 ∨ c = 34) := by
    simp only [isDigit, Bool.and_eq_true, decide_eq_true_eq] at hd
    omega
  rw [if_neg hb.1, if_neg hb.2.1, if_neg hb.2.2.1, if_neg hb.2.2.2.1, if_neg hb.2.2.2.2, if_pos hd]

theorem expr_neg (n l : Nat) (s : PyStr) : expr P (n + 1) l (45 :: s) = (expr P n l s).map fun r => (.neg r.1, r.2) := by
  rw [expr, skip_cons (by decide)]
  dsimp only
  rw [if_pos rfl]

theorem expr_str (s : PyStr) (hs : ∀ c ∈ s, c < 0x110000) (n l : Nat) {rest : PyStr} (hr : Stop rest) : expr P (n + 1) l (reprStr P s ++ rest) = some (.const (.str s), rest) := by
  have hq := quoteFor_eq s
  have h := strLit_text P s hs hr
  unfold reprStr
  rw [List.append_assoc, List.append_assoc, List.singleton_append, List.singleton_append, expr, skip_cons (by omega)]
  dsimp only
  rw [if_neg (by omega), if_neg (by omega), if_neg (by omega), if_neg (by omega), if_pos (by omega), h]

theorem expr_bytes (b : Bytes) (n l : Nat) {rest : PyStr} (hr : Stop rest) : expr P (n + 1) l (reprBytes b ++ rest) = some (.const (.bytes b), rest) := by
  have hq := quoteFor_eq (b.map UInt8.toNat)
  have h := bytesLit_text P b hr
  unfold reprBytes
  dsimp only
  rw [List.append_assoc, List.append_assoc, List.singleton_append, List.cons_append, List.singleton_append]
  generalize quoteFor (b.map UInt8.toNat) = q at hq h
  generalize (b.map UInt8.toNat).flatMap (byteChar q) ++ q :: rest = u at h
  rw [expr, skip_cons (by decide)]
  dsimp only
  have h1 : (98 :: q :: u).takeWhile isIdent = [98] := by rcases hq with rfl | rfl <;> rfl
  have h2 : (98 :: q :: u).dropWhile isIdent = q :: u := by rcases hq with rfl | rfl <;> rfl
  rw [if_neg (by decide), if_neg (by decide), if_neg (by decide), if_neg (by decide), if_neg (by decide), if_neg (by decide), if_pos (by decide), h1, h2]
  rcases hq with rfl | rfl
  · rw [if_pos ⟨rfl, rfl⟩]; exact h
  · rw [if_neg (by simp), if_pos ⟨rfl, rfl⟩]; exact h

theorem expr_list (n l : Nat) (s : PyStr) : expr P (n + 1) l (91 :: s) = if l = 0 then none else (items P n (l - 1) 93 s).map fun r => (.list r.1, r.2.2) := by
  rw [expr, skip_cons (by decide)]
  dsimp only
  rw [if_neg (by decide), if_pos rfl]

theorem expr_paren (n l : Nat) (s : PyStr) : expr P (n + 1) l (40 :: s) = if l = 0 then none else (items P n (l - 1) 41 s).map fun r => (paren r.1 r.2.1, r.2.2) := by
  rw [expr, skip_cons (by decide)]
  dsimp only
  rw [if_neg (by decide), if_neg (by decide), if_pos rfl]

theorem expr_brace (n l : Nat) (s : PyStr) : expr P (n + 1) l (123 :: s) = if l = 0 then none else braces P n (l - 1) s := by
  rw [expr, skip_cons (by decide)]
  dsimp only
  rw [if_neg (by decide), if_neg (by decide), if_neg (by decide), if_pos rfl]

theorem expr_less (n l : Nat) (s : PyStr) : expr P (n + 1) l (60 :: s) = none := by
  rw [expr, skip_cons (by decide)]
  rfl

theorem expr_call {w : PyStr} (hw : Identifier w) (n l : Nat) (s : PyStr) :
    expr P (n + 1) l (w ++ 40 :: s) = if l = 0 then none else (args P n (l - 1) s).map fun r => (.call w r.1, r.2) := by
  rw [expr_name hw n l (by intro c hc; cases hc; rfl) (by simp), skip_cons (by decide)]
  rfl

/-- A name alone -/
theorem expr_var {w : PyStr} (hw : Identifier w) (n l : Nat) {rest : PyStr} (hr : Stop rest) : expr P (n + 1) l (w ++ rest) = some (.name w, rest) := by
  have hq : rest.head? ≠ some 39 ∧ rest.head? ≠ some 34 := by
    constructor
    · intro h
      have := hr _ h
      omega
    · intro h
      have := hr _ h
      omega
  rw [expr_name hw n l hr.noIdent hq, skip_stop hr]
  split
  · have := hr 40 rfl
    omega
  · rfl

theorem ident_of {w : PyStr} (c : Nat) (t : PyStr) (h : w = c :: t) (h1 : isStart c = true) (h2 : ∀ d ∈ t, isIdent d = true) (h3 : w ∉ Spec.Names.reserved) : Identifier w :=
  ⟨⟨c, t, h, h1, h2⟩, h3⟩

theorem ident_uuid : Identifier (pyStr "UUID") := ident_of _ _ rfl (by decide) (by decide) (by decide)
theorem ident_set : Identifier (pyStr "set") := ident_of _ _ rfl (by decide) (by decide) (by decide)
theorem ident_frozenset : Identifier (pyStr "frozenset") := ident_of _ _ rfl (by decide) (by decide) (by decide)
theorem ident_nan : Identifier (pyStr "nan") := ident_of _ _ rfl (by decide) (by decide) (by decide)
theorem ident_inf : Identifier (pyStr "inf") := ident_of _ _ rfl (by decide) (by decide) (by decide)

theorem args_none (n l : Nat) (rest : PyStr) : args P (n + 1) l (41 :: rest) = some ([], rest) := by
  rw [args, skip_cons (by decide)]
  rfl

theorem uuidText_lt (n : Nat) : ∀ c ∈ uuidText n, c < 0x110000 := by
  intro c hc
  have hh : ∀ c ∈ hexN 32 n, c < 0x110000 := fun c hc => by have := hexN_lt c hc; omega
  unfold uuidText at hc
  simp only [List.mem_append, List.mem_singleton] at hc
  rcases hc with (((((((h | h) | h) | h) | h) | h) | h) | h) | h
  · exact hh c (List.mem_of_mem_take h)
  · omega
  · exact hh c (List.mem_of_mem_drop (List.mem_of_mem_take h))
  · omega
  · exact hh c (List.mem_of_mem_drop (List.mem_of_mem_take h))
  · omega
  · exact hh c (List.mem_of_mem_drop (List.mem_of_mem_take h))
  · omega
  · exact hh c (List.mem_of_mem_drop h)

theorem items_one {x : V} (hp : Parses P x) (hl : Leads (text P x)) (n l : Nat) (rest : PyStr) (hn : (text P x).length + 2 < n) :
    items P n l 41 (text P x ++ 44 :: 41 :: rest) = if readable l x then some ([toExpr x], true, rest) else none := by
  obtain ⟨n, rfl⟩ : ∃ k, n = k + 1 + 1 := ⟨n - 2, by omega⟩
  rw [items, hl.skip, if_neg (hl.head _ (.inr (.inl rfl))), hp (n + 1) l _ (.comma _) (by omega)]
  cases readable l x with
  | false => rfl
  | true =>
    simp only [if_true]
    rw [skip_cons (by decide)]
    dsimp only
    rw [if_pos rfl, items, skip_cons (by decide), List.head?_cons, if_pos rfl]
    rfl

theorem if_zero {α : Type} {l : Nat} {b : Bool} {x : α} : (if l = 0 then none else if b then some x else none) = if (decide (l ≠ 0) && b) then some x else none := by
  by_cases h : l = 0 <;> cases b <;> simp [h]

theorem map_if {α β : Type} (f : α → β) (b : Bool) (x : α) : (if b then some x else none).map f = if b then some (f x) else none := by
  cases b <;> rfl

theorem pair_hyp {kvs : List (V × V)} {p q : V → Prop} (h : ∀ y ∈ kvs.flatMap fun kv => [kv.1, kv.2], p y ∧ q y) : ∀ kv ∈ kvs, (p kv.1 ∧ q kv.1) ∧ p kv.2 := by
  intro kv hkv
  exact ⟨h kv.1 (List.mem_flatMap.2 ⟨kv, hkv, by simp⟩), (h kv.2 (List.mem_flatMap.2 ⟨kv, hkv, by simp⟩)).1⟩

theorem parses (hP : Lawful P) (x : V) (hp : Each Proper x) : Parses P x := by
  induction x using V.ind with
  | h x ih =>
    rw [each_iff] at hp
    have ih : ∀ y ∈ parts x, Parses P y ∧ Leads (text P y) := fun y hy => ⟨ih y hy (hp.2 y hy), text_leads hP y ((each_iff _ _).1 (hp.2 y hy)).1⟩
    have hp := hp.1
    intro n l rest hr hn
    obtain ⟨n, rfl⟩ : ∃ k, n = k + 1 := ⟨n - 1, by omega⟩
    cases x with
    | none => exact expr_constant rfl n l hr.noIdent
    | bool b =>
      cases b
      · exact expr_constant (w := pyStr "False") rfl n l hr.noIdent
      · exact expr_constant (w := pyStr "True") rfl n l hr.noIdent
    | int i =>
      rw [text, reprInt] at hn ⊢
      show _ = some _
      rw [toExpr]
      split
      · rename_i hi
        rw [if_pos hi, List.length_cons] at hn
        obtain ⟨n, rfl⟩ : ∃ k, n = k + 1 := ⟨n - 1, by omega⟩
        rw [List.cons_append, expr_neg, expr_digit (dec_cons _), number_int P _ hr.noNum]
        rfl
      · rw [expr_digit (dec_cons _), number_int P _ hr.noNum]
    | float x =>
      rw [text, reprFloat] at hn ⊢
      show _ = some _
      rw [toExpr]
      dsimp only at hn ⊢
      by_cases h1 : x.toNat % 2 ^ 63 > 0x7FF0000000000000
      · rw [if_pos h1, if_pos h1]
        exact expr_var ident_nan n l hr
      · rw [if_neg h1, if_neg h1]
        rw [if_neg h1] at hn
        have key : ∀ n, expr P (n + 1) l ((if x.toNat % 2 ^ 63 = 0x7FF0000000000000 then pyStr "inf" else P.show_ (UInt64.ofNat (x.toNat % 2 ^ 63))) ++ rest) =
            some (if x.toNat % 2 ^ 63 = 0x7FF0000000000000 then .name (pyStr "inf") else .const (.float (UInt64.ofNat (x.toNat % 2 ^ 63))), rest) := by
          intro n
          split
          · exact expr_var ident_inf n l hr
          · have h := float_text hP (a := x.toNat % 2 ^ 63) (by omega)
            rw [expr_digit (floatText_head h.1), number_float h.1 h.2 hr.noNum]
        split
        · rename_i h2
          rw [if_pos h2, List.length_cons] at hn
          obtain ⟨n, rfl⟩ : ∃ k, n = k + 1 := ⟨n - 1, by omega⟩
          rw [List.cons_append, expr_neg, key]
          rfl
        · exact key n
    | str s => exact expr_str s hp n l hr
    | bytes b => exact expr_bytes b n l hr
    | uuid u =>
      rw [text, show pyStr "UUID(" = pyStr "UUID" ++ [40] from rfl] at hn ⊢
      simp only [List.length_append, List.length_cons, List.length_nil] at hn
      obtain ⟨n, rfl⟩ : ∃ k, n = k + 1 + 1 := ⟨n - 2, by omega⟩
      have h : expr P (n + 1) (l - 1) (reprStr P (uuidText u) ++ 41 :: rest) = if true = true then some (.const (.str (uuidText u)), 41 :: rest) else none :=
        expr_str (uuidText u) (uuidText_lt u) n (l - 1) (.cons (by omega))
      rw [List.append_assoc, List.append_assoc, List.append_assoc, List.singleton_append, List.singleton_append, expr_call ident_uuid, args_one h]
      · rw [readable, toExpr]
        by_cases h : l = 0 <;> simp [h]
      · have := quoteFor_eq (uuidText u)
        refine ⟨quoteFor (uuidText u), _, rfl, by omega, by omega, ?_⟩
        rcases this with h | h <;> rw [h] <;> rfl
    | list xs =>
      rw [text] at hn ⊢
      simp only [List.length_append, List.length_cons, List.length_nil] at hn
      rw [List.append_assoc, List.append_assoc, List.singleton_append, List.singleton_append, expr_list, items_ok 93 (.inl rfl) xs ih n _ _ (by omega), map_if, if_zero, readable, toExpr]
    | tuple xs =>
      rcases xs with _ | ⟨x, _ | ⟨y, xs⟩⟩
      · rw [text] at hn ⊢
        simp only [List.length_cons, List.length_nil] at hn
        rw [List.cons_append, List.singleton_append, expr_paren, show (41 :: rest) = commas (textAll P []) ++ 41 :: rest from rfl,
          items_ok 41 (.inr (.inl rfl)) [] (fun _ h => nomatch h) n _ _ (by rw [textAll, commas]; simp; omega), map_if, if_zero, readable, toExpr]
        rfl
      · rw [text] at hn ⊢
        simp only [List.length_append, List.length_cons, List.length_nil] at hn
        obtain ⟨h1, h2⟩ := ih x List.mem_cons_self
        rw [List.append_assoc, List.append_assoc, List.singleton_append, List.cons_append, List.singleton_append, expr_paren, items_one h1 h2 n _ _ (by omega), map_if, if_zero, readable, readables, readables, Bool.and_true, toExpr]
        rfl
      · rw [text] at hn ⊢
        · simp only [List.length_append, List.length_cons, List.length_nil] at hn
          rw [List.append_assoc, List.append_assoc, List.singleton_append, List.singleton_append, expr_paren, items_ok 41 (.inr (.inl rfl)) (x :: y :: xs) ih n _ _ (by omega), map_if, if_zero, readable, toExpr]
          rfl
        all_goals simp
    | set xs =>
      cases xs with
      | nil =>
        obtain ⟨n, rfl⟩ : ∃ k, n = k + 1 := ⟨n - 1, by rw [text] at hn; simp [pyStr] at hn; omega⟩
        rw [text, show pyStr "set()" = pyStr "set" ++ [40, 41] from rfl, List.append_assoc, List.cons_append, List.singleton_append, expr_call ident_set, args_none, readable, readables, toExpr]
        by_cases h : l = 0 <;> simp [h]
      | cons x xs =>
        rw [text] at hn ⊢
        · simp only [List.length_append, List.length_cons, List.length_nil] at hn
          rw [List.append_assoc, List.append_assoc, List.singleton_append, List.singleton_append, expr_brace, braces_set x xs ih n _ _ (by omega), if_zero, readable, toExpr]
          simp
        all_goals simp
    | frozenset xs =>
      cases xs with
      | nil =>
        obtain ⟨n, rfl⟩ : ∃ k, n = k + 1 := ⟨n - 1, by rw [text] at hn; simp [pyStr] at hn; omega⟩
        rw [text, show pyStr "frozenset()" = pyStr "frozenset" ++ [40, 41] from rfl, List.append_assoc, List.cons_append, List.singleton_append, expr_call ident_frozenset, args_none, readable, toExpr]
        by_cases h : l = 0 <;> simp [h]
      | cons x xs =>
        rw [text, show pyStr "frozenset({" = pyStr "frozenset" ++ [40, 123] from rfl] at hn ⊢
        · simp only [List.length_append, List.length_cons, List.length_nil] at hn
          obtain ⟨n, rfl⟩ : ∃ k, n = k + 1 + 1 := ⟨n - 2, by omega⟩
          have h : expr P (n + 1) (l - 1) ((123 :: (commas (textAll P (x :: xs)) ++ [125])) ++ 41 :: rest) =
              if (decide (l - 1 ≠ 0) && readables (l - 1 - 1) (x :: xs)) = true then some (.set (toExprs (x :: xs)), 41 :: rest) else none := by
            rw [List.cons_append, List.append_assoc, List.singleton_append, expr_brace, braces_set x xs ih n _ _ (by omega), if_zero]
          have h' := args_one h ⟨123, _, rfl, by decide⟩
          rw [List.append_assoc, List.append_assoc, List.append_assoc, List.cons_append, List.singleton_append, expr_call ident_frozenset]
          rw [show (123 :: (commas (textAll P (x :: xs)) ++ ([125, 41] ++ rest))) = (123 :: (commas (textAll P (x :: xs)) ++ [125])) ++ 41 :: rest by simp, h', map_if, if_zero, readable, toExpr]
          all_goals simp
        all_goals simp
    | dict kvs =>
      rw [text] at hn ⊢
      simp only [List.length_append, List.length_cons, List.length_nil] at hn
      rw [List.append_assoc, List.append_assoc, List.singleton_append, List.singleton_append, expr_brace, braces_dict kvs (pair_hyp ih) n _ _ (by omega), if_zero, readable, toExpr]
    | frozenDict kvs =>
      rw [text] at hn ⊢
      simp only [List.length_append, List.length_cons, List.length_nil] at hn
      rw [List.append_assoc, List.append_assoc, List.singleton_append, List.singleton_append, expr_brace, braces_dict kvs (pair_hyp ih) n _ _ (by omega), if_zero, readable, toExpr]
    | enum c m i =>
      rw [text, List.append_assoc, List.append_assoc, List.append_assoc, List.append_assoc, List.append_assoc, List.append_assoc, List.singleton_append, expr_less]
      rfl
    | inst c as =>
      rw [text] at hn ⊢
      simp only [List.length_append, List.length_cons, List.length_nil] at hn
      rw [List.append_assoc, List.append_assoc, List.append_assoc, List.singleton_append, List.singleton_append, expr_call hp.1,
        args_ok as (fun a ha => ⟨hp.2.1 a ha, ih a.2 (List.mem_map_of_mem ha)⟩) n _ _ (by omega), map_if, if_zero, readable, toExpr]

end

end Thrift.Repr
