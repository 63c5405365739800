import Verif.Props.JsonText
/-
What `TJSONProtocol` does with messages of another version (C11), with texts and numbers beyond
`string_length_limit` (C67), and where its result depends on how the transport delivers the bytes (C64) or does
not come at all (C63).
-/

namespace Thrift.Json
open Spec Spec.Json

/-! ## Foreign messages -/

/-- C11, JSON: a message that does not begin with `[` raises `TProtocolException(INVALID_DATA)`. -/
theorem json_foreign (cfg : Cfg) (fuel : Nat) (s : St) {τ : Type} (step : Nat → τ → Option (Except Exc Bytes × τ))
    (left : τ → Bytes) (hdel : DeliversUntil step left) (t : τ) (c : UInt8) (rest : Bytes) (ht : left t = c :: rest)
    (hc : c ≠ 91) :
    ∃ s' t', (readMessageBegin cfg fuel s).run step t = some ((.error TProtocolException.INVALID_DATA, s'), t') := by
  have h : Fails readJSONArrayStart ⟨[.base], s.depth, c :: rest, false⟩ TProtocolException.INVALID_DATA := by
    unfold readJSONArrayStart
    refine Steps.fails (steps_ctx [.base] s.depth (c :: rest) false) ?_
    refine Fails.bind ?_
    unfold readSyntaxChar
    refine Steps.fails (steps_read _ _ c rest _) ?_
    rw [if_neg (by simpa using hc)]
    exact Fails.raise _ _
  have h2 := Fails.bind (k := fun _ : Unit => do
    let version ← readJSONInteger cfg fuel
    if version ≠ 1 then P.raise TProtocolException.BAD_VERSION
    else
      let name ← readJSONString cfg fuel
      let type ← readJSONInteger cfg fuel
      let seqid ← readJSONInteger cfg fuel
      pure (name, type, seqid)) h
  exact h2 τ step left hdel (resetRead s) t ⟨rfl, rfl, rfl, by simp [resetRead], by simp [resetRead, ht]⟩

/-- The first byte of a message of the compact protocol. -/
example : ∃ s' t', (readMessageBegin {} 10 {}).run bytewise [0x82, 0x21, 1, 0] =
    some ((.error TProtocolException.INVALID_DATA, s'), t') :=
  json_foreign {} 10 {} bytewise id bytewise_delivers.until _ 0x82 [0x21, 1, 0] rfl (by decide)

/-- C11, JSON: a message of a version other than 1 raises `TProtocolException(BAD_VERSION)`. -/
theorem json_version (cfg : Cfg) (fuel : Nat) (s : St) (version : Int) {τ : Type}
    (step : Nat → τ → Option (Except Exc Bytes × τ))
    (left : τ → Bytes) (hdel : DeliversUntil step left) (t : τ) (rest : Bytes)
    (ht : left t = 91 :: (decimal version ++ 44 :: rest)) (hv : version ≠ 1)
    (hl : Within cfg.stringLimit (decimal version).length) (hf : (decimal version).length < fuel) :
    ∃ s' t', (readMessageBegin cfg fuel s).run step t = some ((.error TProtocolException.BAD_VERSION, s'), t') := by
  have h1 : Steps readJSONArrayStart ⟨[.base], s.depth, 91 :: (decimal version ++ 44 :: rest), false⟩ ()
      ⟨[.list true, .base], s.depth, decimal version ++ 44 :: rest, false⟩ := by
    unfold readJSONArrayStart
    refine Steps.bind (steps_ctx [.base] s.depth (91 :: (decimal version ++ 44 :: rest)) false) ?_
    refine Steps.bind (steps_syntax _ _ 91 _ _) ?_
    exact Steps.modify (push (.list true)) (Ctx.list true :: ·) _ (fun _ => rfl)
  have h2 := steps_integer cfg fuel [.list true, .base] s.depth version (44 :: rest) false (by simp [top])
    (fun _ _ => ⟨44, rest, rfl, rfl⟩) ⟨by rw [intDigits_eq]; exact hl, by rw [intDigits_eq]; exact hf⟩
  rw [show primBytes [Ctx.list true, .base] (.num (intDigits version)) = decimal version by
    rw [← intDigits_eq]; rfl] at h2
  have h3 := Steps.fails h1 (k := fun _ : Unit => do
    let version ← readJSONInteger cfg fuel
    if version ≠ 1 then P.raise TProtocolException.BAD_VERSION
    else
      let name ← readJSONString cfg fuel
      let type ← readJSONInteger cfg fuel
      let seqid ← readJSONInteger cfg fuel
      pure (name, type, seqid)) (Steps.fails h2 (by
        rw [if_pos hv]
        exact Fails.raise _ _))
  exact h3 τ step left hdel (resetRead s) t ⟨rfl, rfl, rfl, by simp [resetRead], by simp [resetRead, ht]⟩

example : ∃ s' t', (readMessageBegin {} 10 {}).run bytewise (ascii "[2,\"ping\",1,0,{}]") =
    some ((.error TProtocolException.BAD_VERSION, s'), t') :=
  json_version {} 10 {} 2 bytewise id bytewise_delivers.until _ (ascii "\"ping\",1,0,{}]") (by decide +kernel)
    (by decide) (fun _ h => by cases h) (by decide +kernel)

/-! ## `string_length_limit` -/

/-- C67: with a limit, a text is read if and only if its characters in the document, with the escapes, are not
more than the limit; otherwise `TTransportException(SIZE_LIMIT)` is raised. -/
theorem json_string_limit (py : Floats) (l : Int) (mode : Mode) (sch : Schema) (text : PyStr) (s : St) (fuel : Nat)
    (hl : 0 ≤ l) (ht : ∀ c ∈ text, Scalar c) (h0 : s.stack = [.base] ∧ s.hasData = false)
    (hf : (escaped text).length < fuel)
    {τ : Type} (step : Nat → τ → Option (Except Exc Bytes × τ)) (left : τ → Bytes) (hdel : DeliversUntil step left)
    (x : τ) (rest : Bytes) (hx : left x = quoted (escaped text) ++ rest) :
    ∃ s' x', (readVal (rd py ⟨some l⟩ fuel) sch mode fuel .string s).run step x =
      some ((if ((escaped text).length : Int) ≤ l then .ok (.str text) else .error TTransportException.SIZE_LIMIT, s'), x') := by
  have e : readVal (rd py ⟨some l⟩ fuel) sch mode fuel .string =
      (do let t ← readJSONString ⟨some l⟩ fuel; pure (.str t)) := by
    cases fuel <;> rfl
  have hrep : Rep ⟨[.base], s.depth, primBytes [.base] (.str text) ++ rest, false⟩ s (left x) :=
    ⟨h0.1, rfl, h0.2, by simp [h0.2], by simp [h0.2, hx, primBytes, sep, advance, top]⟩
  rw [e]
  by_cases h : ((escaped text).length : Int) ≤ l
  · rw [if_pos h]
    obtain ⟨s', x', e, -⟩ := Steps.map (k := fun t => pure (Val.str t))
      (steps_string ⟨some l⟩ fuel [.base] s.depth text rest false ht ⟨within_some.mpr h, hf⟩) rfl τ step left hdel s x hrep
    exact ⟨s', x', e⟩
  · rw [if_neg h]
    exact Fails.bind (fails_string l fuel [.base] s.depth text rest false ht hf hl (by omega)) τ step left hdel s x hrep

/-- Two characters, four bytes with the escape of the quotation mark. -/
example : ∃ s' x', (readVal (rd Sample.py ⟨some 3⟩ 10) Sample.sch .gen 10 .string {}).run bytewise
    (quoted (escaped [0x22, 0xE9]) ++ []) = some ((.error TTransportException.SIZE_LIMIT, s'), x') :=
  json_string_limit Sample.py 3 .gen Sample.sch [0x22, 0xE9] {} 10 (by decide) (by decide) ⟨rfl, rfl⟩ (by decide +kernel)
    bytewise id bytewise_delivers.until _ [] rfl

/-- C67: the limit applies to binaries in base64, although the value is shorter. -/
theorem json_binary_limit (py : Floats) (l : Int) (mode : Mode) (sch : Schema) (b : Bytes) (s : St) (fuel : Nat)
    (hl : 0 ≤ l) (h0 : s.stack = [.base] ∧ s.hasData = false) (hf : (base64 b).length < fuel)
    {τ : Type} (step : Nat → τ → Option (Except Exc Bytes × τ)) (left : τ → Bytes) (hdel : DeliversUntil step left)
    (x : τ) (rest : Bytes) (hx : left x = quoted (base64 b) ++ rest) (h : l < (base64 b).length) :
    ∃ s' x', (readVal (rd py ⟨some l⟩ fuel) sch mode fuel .binary s).run step x =
      some ((.error TTransportException.SIZE_LIMIT, s'), x') := by
  have e : readVal (rd py ⟨some l⟩ fuel) sch mode fuel .binary =
      (do let t ← readJSONBase64 ⟨some l⟩ fuel; pure (.bin t)) := by
    cases fuel <;> rfl
  have hrep : Rep ⟨[.base], s.depth, primBytes [.base] (.str (toPy (b64encode b))) ++ rest, false⟩ s (left x) :=
    ⟨h0.1, rfl, h0.2, by simp [h0.2], by simp [h0.2, hx, primBytes, sep, advance, top, escaped_base64]⟩
  rw [e]
  refine Fails.bind (Fails.bind (fails_string l fuel [.base] s.depth (toPy (b64encode b)) rest false
    (toPy_scalar (b64encode_plain b)) (by rw [escaped_base64]; exact hf) hl (by rw [escaped_base64]; exact h)))
    τ step left hdel s x hrep

/-- Three bytes under a limit of three. -/
example : ∃ s' x', (readVal (rd Sample.py ⟨some 3⟩ 10) Sample.sch .gen 10 .binary {}).run bytewise
    (quoted (base64 [1, 2, 3]) ++ []) = some ((.error TTransportException.SIZE_LIMIT, s'), x') :=
  json_binary_limit Sample.py 3 .gen Sample.sch [1, 2, 3] {} 10 (by decide) ⟨rfl, rfl⟩ (by decide +kernel)
    bytewise id bytewise_delivers.until _ [] rfl (by decide +kernel)

/-- The document of a list with one number. -/
theorem list_i64_eq (fmt : UInt64 → Bytes) (sch : Schema) (i : Int) :
    value fmt sch (.list .i64) (.list [.int i]) = ascii "[\"i64\",1," ++ (decimal i ++ ascii "]") := by
  have h1 : decimal ([Val.int i].length : Int) = ascii "1" := by
    rw [List.length_singleton]; decide +kernel
  have h2 : ascii "[\"i64\",1," = 91 :: (quoted (ascii "i64") ++ 44 :: (ascii "1" ++ [44])) := by decide +kernel
  have h3 : ascii "]" = [93] := by decide +kernel
  rw [h2, h3]
  simp only [value, tree, trees, render, renderItems, h1, Spec.Json.typeName]
  simp

/-- Reading `["i64",1,`. -/
theorem steps_i64_list (cfg : Cfg) (fuel : Nat) (d : Int) (rest : Bytes) (hl : Within cfg.stringLimit 3) (hf : 3 < fuel) :
    ∃ p, Steps (readCollectionBegin cfg fuel) ⟨[.base], d, ascii "[\"i64\",1," ++ rest, false⟩ (TType.I64, 1)
      ⟨[.list false, .base], d, sep [.list false, .base] ++ rest, p⟩ := by
  have hsub : ∀ n, n ≤ 3 → Fits cfg.stringLimit fuel n := fun n hn => ⟨within_mono hl hn, by omega⟩
  have h := holds_collection cfg fuel (s := { depth := d }) rfl (e := TType.I64) (isTType_ttype .i64) 1
    (hsub _ (by decide +kernel)) (hsub _ (by decide +kernel))
  obtain ⟨p', -, h1⟩ := h.2 (sep [.list false, .base] ++ rest) false
    ⟨fun hh => by simp at hh, fun _ _ => ⟨44, _, rfl, rfl⟩⟩ (fun _ => rfl)
  refine ⟨p', ?_⟩
  rw [show ascii "[\"i64\",1," ++ rest = primsBytes [Ctx.base] [.opn 91 (.list true), .str (nameOf TType.I64),
      .num (intDigits 1)] ++ (sep [.list false, .base] ++ rest) by
    rw [← List.append_assoc]
    refine congrArg (· ++ rest) ?_
    decide +kernel]
  exact h1

/-- C67: the limit applies to numbers too. -/
theorem json_number_limit (py : Floats) (l : Int) (mode : Mode) (sch : Schema) (i : Int) (s : St) (fuel : Nat)
    (hl : 3 ≤ l) (h0 : s.stack = [.base] ∧ s.hasData = false) (hf : (decimal i).length < fuel) (hf3 : 3 < fuel)
    {τ : Type} (step : Nat → τ → Option (Except Exc Bytes × τ)) (left : τ → Bytes) (hdel : DeliversUntil step left)
    (x : τ) (rest : Bytes) (hx : left x = value py.fmt17 sch (.list .i64) (.list [.int i]) ++ rest)
    (h : l < (decimal i).length) :
    ∃ s' x', (readVal (rd py ⟨some l⟩ fuel) sch mode fuel (.list .i64) s).run step x =
      some ((.error TTransportException.SIZE_LIMIT, s'), x') := by
  obtain ⟨p, h1⟩ := steps_i64_list ⟨some l⟩ fuel s.depth (decimal i ++ (93 :: rest)) (within_some.mpr (by omega)) hf3
  have h2 := fails_integer l fuel [.list false, .base] s.depth i (93 :: rest) p (by rw [intDigits_eq]; exact hf) (by omega)
    (by rw [intDigits_eq]; exact h)
  rw [show primBytes [Ctx.list false, .base] (.num (intDigits i)) ++ 93 :: rest =
    sep [.list false, .base] ++ (decimal i ++ 93 :: rest) by rw [← intDigits_eq]; rfl] at h2
  cases fuel with
  | zero => omega
  | succ f =>
    have h3 : Fails (P.repeatN (1 : Int).toNat (readVal (rd py ⟨some l⟩ (f + 1)) sch mode f .i64))
        ⟨[.list false, .base], s.depth, sep [.list false, .base] ++ (decimal i ++ (93 :: rest)), p⟩
        TTransportException.SIZE_LIMIT := by
      have : readVal (rd py ⟨some l⟩ (f + 1)) sch mode f .i64 =
          (do let d ← readJSONInteger ⟨some l⟩ (f + 1); pure (.int d)) := by
        cases f <;> rfl
      rw [this]
      exact Fails.Pbind (Fails.bind h2)
    have hfail : Fails (readVal (rd py ⟨some l⟩ (f + 1)) sch mode (f + 1) (.list .i64)) _
        TTransportException.SIZE_LIMIT :=
      Steps.fails h1 (k := fun r : Int × Int => do
        let vs ← P.repeatN r.2.toNat (readVal (rd py ⟨some l⟩ (f + 1)) sch mode f .i64)
        readJSONArrayEnd
        pure (Val.list vs)) (Fails.bind h3)
    refine hfail τ step left hdel s x ⟨h0.1, rfl, h0.2, by simp [h0.2], ?_⟩
    rw [h0.2, hx, list_i64_eq, show ascii "]" = [93] by decide +kernel]
    simp

example : ∃ s' x', (readVal (rd Sample.py ⟨some 3⟩ 10) Sample.sch .gen 10 (.list .i64) {}).run bytewise
    (value Sample.py.fmt17 Sample.sch (.list .i64) (.list [.int 1000]) ++ []) =
      some ((.error TTransportException.SIZE_LIMIT, s'), x') :=
  json_number_limit Sample.py 3 .gen Sample.sch 1000 {} 10 (by decide) ⟨rfl, rfl⟩ (by decide +kernel) (by decide)
    bytewise id bytewise_delivers.until _ [] rfl (by decide +kernel)

/-! ## Fragmentation -/

/-- The value that a call returned. -/
def returned {α σ τ : Type} : Option ((Except Exc α × σ) × τ) → Option α
  | some ((.ok a, _), _) => some a
  | _ => none

theorem of_returned {α σ τ : Type} {r : Option ((Except Exc α × σ) × τ)} {a : α} (h : returned r = some a) :
    ∃ s t, r = some ((.ok a, s), t) := by
  match r, h with
  | some ((.ok b, s), t), h =>
    simp only [returned, Option.some.injEq] at h
    exact ⟨s, t, by rw [h]⟩

/-- C64 is false: the four digits of an escape are requested with one call of `read`, which may return fewer.
The document `"\u0041"` is `A` in a memory buffer, and a text of four characters over a transport that delivers
single bytes. -/
theorem json_fragmentation_differs (py : Floats) (sch : Schema) (mode : Mode) :
    (∃ s b, exec (readVal (rd py {} 10) sch mode 10 .string) {} (ascii "\"\\u0041\"") = some ((.ok (.str [0x41]), s), b)) ∧
    ∃ s b, (readVal (rd py {} 10) sch mode 10 .string {}).run bytewise (ascii "\"\\u0041\"") =
      some ((.ok (.str [0, 0x30, 0x34, 0x31]), s), b) := by
  have e : readVal (rd py {} 10) sch mode 10 .string =
      (do let t ← readJSONString {} 10; pure (.str t)) := rfl
  have h1 : returned (exec (readJSONString {} 10) {} (ascii "\"\\u0041\"")) = some [0x41] := by decide +kernel
  have h2 : returned ((readJSONString {} 10 {}).run bytewise (ascii "\"\\u0041\"")) = some [0, 0x30, 0x34, 0x31] := by
    decide +kernel
  obtain ⟨s1, b1, e1⟩ := of_returned h1
  obtain ⟨s2, b2, e2⟩ := of_returned h2
  rw [e]
  refine ⟨⟨s1, b1, ?_⟩, s2, b2, ?_⟩
  · change ((readJSONString {} 10 {}).bind _).run memStep _ = _
    rw [Prog.run_bind]
    unfold exec at e1
    rw [e1]
    rfl
  · change ((readJSONString {} 10 {}).bind _).run bytewise _ = _
    rw [Prog.run_bind, e2]
    rfl

/-! ## Documents that end within a number -/

theorem memStep_until : DeliversUntil memStep id := by
  intro n b hb
  refine ⟨b.take (n + 1), b.drop (n + 1), rfl, (List.take_append_drop _ b).symm, ?_, ?_⟩
  · simp; omega
  · cases b with
    | nil => exact absurd rfl hb
    | cons => simp

theorem run_bind_none {α β : Type} {m : P St α} {k : α → P St β} {t : St} {b : Bytes} (h : exec m t b = none) :
    exec (m >>= k) t b = none := by
  unfold exec at h ⊢
  change ((m t).bind _).run memStep b = _
  rw [Prog.run_bind, h]

theorem Steps.none {α β : Type} {m : P St α} {k : α → P St β} {A A1 : Abs} {a : α} (h1 : Steps m A a A1)
    (h2 : ∀ t b, Rep A1 t b → exec (k a) t b = none) {t : St} {b : Bytes} (hr : Rep A t b) :
    exec (m >>= k) t b = none := by
  obtain ⟨t1, x1, e1, r1⟩ := h1 Bytes memStep id memStep_until t b hr
  unfold exec
  change ((m t).bind _).run memStep b = _
  rw [Prog.run_bind, e1]
  exact h2 t1 x1 r1

/-- At the end of the input the loop over the characters of a number does not end. -/
theorem numeric_end (stk : List Ctx) (d : Int) : ∀ (fuel : Nat) (ds bs : Bytes) (n : Nat) (p : Bool) (t : St) (b : Bytes),
    (∀ x ∈ ds, isNumeric [x] = true) → Rep ⟨stk, d, ds, p⟩ t b →
    exec (P.whileTrue fuel (numericBody {}) (bs, n)) t b = none := by
  intro fuel
  induction fuel with
  | zero => intros; rfl
  | succ f ih =>
    intro ds bs n p t b hds hr
    cases ds with
    | nil =>
      have hd : t.hasData = false := by
        cases h : t.hasData with
        | false => rfl
        | true =>
          have h1 := hr.one h
          have h2 := hr.inp
          rw [h] at h2
          simp only [if_true, List.append_eq_nil_iff] at h2
          rw [h2.1] at h1
          simp at h1
      have hb : b = [] := by
        have h2 := hr.inp
        rw [hd] at h2
        simpa using h2
      subst hb
      have e : exec (P.whileTrue (f + 1) (numericBody {}) (bs, n)) t [] =
          exec (P.whileTrue f (numericBody {}) (bs ++ [], n + 1)) { t with data := [], hasData := false } [] := by
        obtain ⟨d0, stk0, has, dat⟩ := t
        simp only at hd
        subst hd
        rfl
      rw [e]
      exact ih [] _ _ false _ _ (by simp) ⟨hr.stack, hr.depth, rfl, by simp, rfl⟩
    | cons y ds =>
      have hy := hds y (by simp)
      have h1 : Steps (numericBody {} (bs, n)) ⟨stk, d, y :: ds, p⟩ (.inl (bs ++ [y], n + 1)) ⟨stk, d, ds, false⟩ := by
        unfold numericBody
        refine Steps.bind (steps_peek stk d y ds p) ?_
        rw [if_neg (by simp [hy])]
        refine Steps.bind (steps_read stk d y ds true) ?_
        rw [checkLength_ok (fun _ h => by cases h)]
        refine Steps.bind (Steps.lift_ok () _) ?_
        exact Steps.pure _ _
      exact h1.none (fun t b hr => ih ds _ _ false t b (fun x hx => hds x (by simp [hx])) hr) hr

/-- C63 is false without a limit: when the document ends within or after a number, the call does not return. -/
theorem json_truncated_hangs (py : Floats) (mode : Mode) (sch : Schema) (i : Int) (fuel : Nat) (hf : 3 < fuel) :
    value py.fmt17 sch (.list .i64) (.list [.int i]) = ascii "[\"i64\",1," ++ (decimal i ++ ascii "]") ∧
    exec (readVal (rd py {} fuel) sch mode fuel (.list .i64)) {} (ascii "[\"i64\",1," ++ decimal i) = none := by
  refine ⟨list_i64_eq _ _ i, ?_⟩
  obtain ⟨p, h1⟩ := steps_i64_list {} fuel 0 (decimal i) (fun _ h => by cases h) hf
  have h2 : ∀ t b, Rep ⟨[.list false, .base], 0, sep [.list false, .base] ++ decimal i, p⟩ t b →
      exec (readJSONInteger {} fuel) t b = none := by
    intro t b hr
    unfold readJSONInteger
    refine Steps.none (steps_ctx [.list false, .base] 0 (decimal i) p) ?_ hr
    intro t b hr
    refine Steps.none (steps_quotes_off rfl 0 _ _) ?_ hr
    intro t b hr
    refine run_bind_none ?_
    unfold readNumericChars
    refine run_bind_none ?_
    rw [← intDigits_eq] at hr
    exact numeric_end _ 0 fuel (intDigits i) [] 0 _ t b (numeric_intDigits i) hr
  cases fuel with
  | zero => omega
  | succ f =>
    refine Steps.none h1 (k := fun r : Int × Int => do
        let vs ← P.repeatN r.2.toNat (readVal (rd py {} (f + 1)) sch mode f .i64)
        readJSONArrayEnd
        pure (Val.list vs)) ?_ ⟨rfl, rfl, rfl, by simp, by simp⟩
    intro t b hr
    refine run_bind_none ?_
    have : readVal (rd py {} (f + 1)) sch mode f .i64 =
        (do let d ← readJSONInteger {} (f + 1); pure (.int d)) := by
      cases f <;> rfl
    rw [this]
    exact run_bind_none (run_bind_none (h2 t b hr))

/-- `["i64",1,42` without its bracket. -/
example : exec (readVal (rd Sample.py {} 1000) Sample.sch .gen 1000 (.list .i64)) {} (ascii "[\"i64\",1," ++ decimal 42) = none :=
  (json_truncated_hangs Sample.py .gen Sample.sch 42 1000 (by omega)).2

end Thrift.Json
