import Verif.Proofs.JsonLaws
/-
Reading methods of `TJSONProtocol` that raise an exception over any transport that delivers the document.
-/

namespace Thrift.Json
open Spec Spec.Json

/-- Over every transport that delivers the bytes, `m` raises `e`. -/
def Fails {α : Type} (m : P St α) (A : Abs) (e : Exc) : Prop :=
  ∀ (τ : Type) (step : Nat → τ → Option (Except Exc Bytes × τ)) (left : τ → Bytes),
    DeliversUntil step left → ∀ t x, Rep A t (left x) →
    ∃ t' x', (m t).run step x = some ((.error e, t'), x')

section
variable {α β : Type}

theorem Fails.raise (e : Exc) (A : Abs) : Fails (P.raise e : P St α) A e :=
  fun _ _ _ _ t x _ => ⟨t, x, rfl⟩

theorem Fails.lift (e : Exc) (A : Abs) : Fails (P.lift (.error e) : P St α) A e :=
  fun _ _ _ _ t x _ => ⟨t, x, rfl⟩

theorem Steps.fails {m : P St α} {k : α → P St β} {A A1 : Abs} {a : α} {e : Exc}
    (h1 : Steps m A a A1) (h2 : Fails (k a) A1 e) : Fails (m >>= k) A e := by
  intro τ step left hd t x hr
  obtain ⟨t1, x1, e1, r1⟩ := h1 τ step left hd t x hr
  obtain ⟨t2, x2, e2⟩ := h2 τ step left hd t1 x1 r1
  refine ⟨t2, x2, ?_⟩
  change ((m t).bind _).run step x = _
  rw [Prog.run_bind, e1]
  exact e2

theorem Fails.bind {m : P St α} {k : α → P St β} {A : Abs} {e : Exc} (h : Fails m A e) : Fails (m >>= k) A e := by
  intro τ step left hd t x hr
  obtain ⟨t1, x1, e1⟩ := h τ step left hd t x hr
  refine ⟨t1, x1, ?_⟩
  change ((m t).bind _).run step x = _
  rw [Prog.run_bind, e1]
  rfl

theorem Fails.Pbind {m : P St α} {k : α → P St β} {A : Abs} {e : Exc} (h : Fails m A e) : Fails (P.bind m k) A e :=
  Fails.bind h

theorem Fails.get {k : St → P St β} {A : Abs} {e : Exc}
    (h : ∀ t : St, t.stack = A.stack → t.depth = A.depth → Fails (k t) A e) : Fails (P.get >>= k) A e := by
  intro τ step left hd t x hr
  exact h t hr.stack hr.depth τ step left hd t x hr
end

/-! ### Words instead of numbers -/

theorem fails_double (py : Floats) (cfg : Cfg) (fuel : Nat) (stk : List Ctx) (d : Int) (x : UInt64) (r : Bytes) (p : Bool)
    (hpy : Words py.fmt17 py.parse) (hx : ¬ Finite x) (hs : escapeNum (top (bump stk)) = false)
    (hf : Fits cfg.stringLimit fuel 1) :
    Fails (readJSONDouble py cfg fuel) ⟨stk, d, sep stk ++ (py.fmt17 x ++ r), p⟩ TProtocolException.INVALID_DATA := by
  have hf0 : Fits cfg.stringLimit fuel 0 := ⟨within_mono hf.1 (by omega), by have := hf.2; omega⟩
  unfold readJSONDouble
  refine Steps.fails (steps_ctx stk d _ p) ?_
  have key : ∀ (y : UInt8) (ys ds : Bytes) (c : UInt8) (cs : Bytes), y :: ys = ds ++ c :: cs → y ≠ 34 →
      isNumeric [c] = false → (∀ z ∈ ds, isNumeric [z] = true) → Fits cfg.stringLimit fuel ds.length →
      py.parse (toPy ds) = none → Fails (do
        let p ← readerPeek
        if p = [34] then
          let text ← readStringBody cfg fuel
          match py.parse text with
          | some x => pure x
          | none => P.raise TProtocolException.INVALID_DATA
        else
          let s ← P.get
          if escapeNum (top s.stack) then readSyntaxChar 34 else pure ()
          let text ← readNumericChars cfg fuel
          match py.parse text with
          | some x => pure x
          | none => P.raise TProtocolException.INVALID_DATA)
        ⟨bump stk, d, y :: ys, p && (sep stk).isEmpty⟩ TProtocolException.INVALID_DATA := by
    intro y ys ds c cs e hy hc hds hfit hp
    refine Steps.fails (steps_peek _ d y _ _) ?_
    rw [if_neg (by simpa using hy)]
    refine Fails.get fun t ht _ => ?_
    rw [ht]
    simp only [hs, Bool.false_eq_true, if_false]
    rw [e]
    refine Steps.fails (steps_numeric cfg fuel _ d ds c cs _ hc hds hfit) ?_
    rw [hp]
    exact Fails.raise _ _
  rcases hpy.word x hx with h | h | h
  · rw [h, show ascii "inf" = [105, 110, 102] by decide +kernel]
    exact key 105 _ [] 105 _ rfl (by decide) rfl (by simp) hf0 hpy.empty
  · rw [h, show ascii "-inf" = [45, 105, 110, 102] by decide +kernel]
    exact key 45 _ [45] 105 _ rfl (by decide) rfl (by decide) hf hpy.minus
  · rw [h, show ascii "nan" = [110, 97, 110] by decide +kernel]
    exact key 110 _ [] 110 _ rfl (by decide) rfl (by simp) hf0 hpy.empty

/-! ### Lengths beyond the limit -/

section
variable {α β : Type}

theorem whileTrue_fails {body : α → P St (α ⊕ β)} {a : α} {f : Nat} {A : Abs} {e : Exc}
    (h : Fails (body a) A e) : Fails (P.whileTrue (f + 1) body a) A e :=
  Fails.Pbind h

theorem whileTrue_next_fails {body : α → P St (α ⊕ β)} {a a' : α} {f : Nat} {A A1 : Abs} {e : Exc}
    (h1 : Steps (body a) A (.inl a') A1) (h2 : Fails (P.whileTrue f body a') A1 e) :
    Fails (P.whileTrue (f + 1) body a) A e :=
  Steps.fails h1 h2
end

theorem checkLength_big {l : Int} {n : Nat} (h : l < n) :
    checkLength (some l) (n : Int) = .error TTransportException.SIZE_LIMIT := by
  unfold checkLength
  rw [if_neg (by omega)]
  simp only
  rw [if_pos (by omega)]

theorem within_some {l : Int} {n : Nat} : Within (some l) n ↔ (n : Int) ≤ l :=
  ⟨fun h => h l rfl, fun h _ e => by cases e; exact h⟩

variable (l : Int)

theorem fails_utf8 (stk : List Ctx) (d : Int) (r : Bytes) :
    ∀ (tail : Bytes) (fuel : Nat) (bs : Bytes) (n : Nat) (p : Bool), (∀ x ∈ tail, 0x80 ≤ x.toNat) →
      tail.length < fuel → tail ≠ [] → l < n + tail.length →
      Fails (P.whileTrue fuel (utf8Body ⟨some l⟩) (bs, n)) ⟨stk, d, tail ++ r, p⟩ TTransportException.SIZE_LIMIT := by
  intro tail
  induction tail with
  | nil => intro fuel bs n p _ _ h; exact absurd rfl h
  | cons y tail ih =>
    intro fuel bs n p ht hf _ hw
    have hy := ht y (by simp)
    cases fuel with
    | zero => simp at hf
    | succ f =>
      simp only [List.length_cons] at hf hw
      by_cases hn : l < (n + 1 : Nat)
      · refine whileTrue_fails ?_
        unfold utf8Body
        refine Steps.fails (steps_peek stk d y (tail ++ r) p) ?_
        refine Steps.fails (Steps.lift_ok y.toNat _) ?_
        rw [if_pos hy]
        refine Steps.fails (steps_read stk d y (tail ++ r) true) ?_
        refine Steps.fails (Steps.lift_ok y.toNat _) ?_
        rw [checkLength_big hn]
        exact Fails.bind (Fails.lift _ _)
      · refine whileTrue_next_fails (a' := (bs ++ [y], n + 1)) (A1 := ⟨stk, d, tail ++ r, false⟩) ?_ ?_
        · unfold utf8Body
          refine Steps.bind (steps_peek stk d y (tail ++ r) p) ?_
          refine Steps.bind (Steps.lift_ok y.toNat _) ?_
          rw [if_pos hy]
          refine Steps.bind (steps_read stk d y (tail ++ r) true) ?_
          refine Steps.bind (Steps.lift_ok y.toNat _) ?_
          rw [checkLength_ok (within_some.mpr (by omega))]
          refine Steps.bind (Steps.lift_ok () _) ?_
          rw [UInt8.ofNat_toNat]
          exact Steps.pure _ _
        · refine ih f (bs ++ [y]) (n + 1) false (fun x hx => ht x (by simp [hx])) (by omega) ?_ (by omega)
          intro e
          rw [e] at hw
          simp only [List.length_nil] at hw
          omega

theorem steps_utf8_none (cfg : Cfg) (stk : List Ctx) (d : Int) (c : UInt8) (r : Bytes) (hc : c.toNat < 0x80)
    (fuel : Nat) (bs : Bytes) (n : Nat) (p : Bool) (hf : 0 < fuel) :
    Steps (P.whileTrue fuel (utf8Body cfg) (bs, n)) ⟨stk, d, c :: r, p⟩ (bs, n) ⟨stk, d, c :: r, true⟩ := by
  cases fuel with
  | zero => omega
  | succ f =>
    refine whileTrue_done ?_
    unfold utf8Body
    refine Steps.bind (steps_peek stk d c r p) ?_
    refine Steps.bind (Steps.lift_ok c.toNat _) ?_
    rw [if_neg (by omega)]
    exact Steps.pure _ _

theorem fails_chars (stk : List Ctx) (d : Int) (rest : Bytes) (fuel : Nat) :
    ∀ (n : Nat) (s : PyStr), s.length ≤ n → ∀ (f : Nat) (pre : PyStr) (len : Nat) (p : Bool), (∀ c ∈ s, Scalar c) →
      (escaped s).length < f → (escaped s).length < fuel → (len : Int) ≤ l → l < len + (escaped s).length →
      Fails (P.whileTrue f (stringBody ⟨some l⟩ fuel) ⟨0, pre, len⟩) ⟨stk, d, escaped s ++ 34 :: rest, p⟩
        TTransportException.SIZE_LIMIT := by
  intro n
  induction n with
  | zero =>
    intro s hs f pre len p _ hf _ hl hw
    have : s = [] := List.length_eq_zero_iff.mp (by omega)
    subst this
    simp only [escaped, List.flatMap_nil, List.length_nil] at hw
    omega
  | succ n ih =>
    intro s hs f pre len p hsc hf hfuel hl hw
    cases s with
    | nil =>
      simp only [escaped, List.flatMap_nil, List.length_nil] at hw
      omega
    | cons c s =>
      have hc := hsc c (by simp)
      by_cases h : c ≠ 34 ∧ c ≠ 92 ∧ c ≠ 8 ∧ c ≠ 12 ∧ c ≠ 10 ∧ c ≠ 13 ∧ c ≠ 9
      · obtain ⟨a, b, rfl, ha, hb⟩ := takeWhile_high s
        have hsa : ∀ c ∈ a, Scalar c := fun d hd => hsc d (by simp [hd])
        have hsb : ∀ c ∈ b, Scalar c := fun d hd => hsc d (by simp [hd])
        obtain ⟨y, ys, hy, hy1, hy2, hys⟩ := plain_char hc ⟨h.1, h.2.1⟩
        obtain ⟨z, zs, hz, hzl⟩ := next_ascii b hb rest
        have he : escaped (c :: (a ++ b)) = y :: (ys ++ utf8 a) ++ escaped b := by
          rw [escaped_cons, escaped_append, escaped_high ha, escapedChar_plain h, hy]
          simp
        rw [he] at hf hfuel hw ⊢
        simp only [List.length_append, List.length_cons] at hf hfuel hw
        simp only [List.length_cons, List.length_append] at hs
        have hhigh : ∀ x ∈ ys ++ utf8 a, 0x80 ≤ x.toNat := by
          intro x hx
          rcases List.mem_append.mp hx with hx | hx
          · exact hys x hx
          · exact utf8_all_high hsa ha x hx
        have hu : [y] ++ (ys ++ utf8 a) = utf8 (c :: a) := by
          rw [utf8_cons, hy]; rfl
        have hdec := utf8Decode_utf8 (s := c :: a) (by
          intro x hx
          rcases List.mem_cons.mp hx with rfl | hx
          · exact hc
          · exact hsa x hx)
        cases f with
        | zero => omega
        | succ f =>
          by_cases hbig : l < (len + 1 + (ys ++ utf8 a).length : Nat)
          · refine whileTrue_fails ?_
            unfold stringBody
            simp only [List.cons_append]
            refine Steps.fails (steps_read stk d y _ p) ?_
            rw [if_neg (by simpa using hy1)]
            refine Steps.fails (Steps.lift_ok y.toNat _) ?_
            rw [if_neg hy2, UInt8.ofNat_toNat]
            by_cases hnil : ys ++ utf8 a = []
            · refine Steps.fails (a := ([y], len + 1)) (A1 := ⟨stk, d, z :: zs, true⟩) ?_ ?_
              · have := steps_utf8_none ⟨some l⟩ stk d z zs hzl fuel [y] (len + 1) false (by omega)
                rw [← hz] at this ⊢
                rw [hnil]
                exact this
              · rw [hnil, List.append_nil] at hu
                rw [hu, hdec]
                refine Steps.fails (Steps.lift_ok (c :: a) _) ?_
                unfold appendChar
                dsimp only
                rw [hnil] at hbig
                rw [checkLength_big (by simpa using hbig)]
                exact Fails.bind (Fails.lift _ _)
            · rw [List.append_assoc]
              refine Fails.bind (fails_utf8 l stk d _ (ys ++ utf8 a) fuel [y] (len + 1) false hhigh
                (by simp only [List.length_append]; omega) hnil (by omega))
          · refine whileTrue_next_fails (a' := ⟨0, pre ++ (c :: a), len + 1 + (ys ++ utf8 a).length⟩)
              (A1 := ⟨stk, d, escaped b ++ 34 :: rest, true⟩) ?_ ?_
            · unfold stringBody
              simp only [List.cons_append, List.append_assoc]
              refine Steps.bind (steps_read stk d y _ p) ?_
              rw [if_neg (by simpa using hy1)]
              refine Steps.bind (Steps.lift_ok y.toNat _) ?_
              rw [if_neg hy2]
              refine Steps.bind (a := ([y] ++ (ys ++ utf8 a), len + 1 + (ys ++ utf8 a).length))
                (A1 := ⟨stk, d, z :: zs, true⟩) ?_ ?_
              · rw [UInt8.ofNat_toNat]
                have := steps_utf8 ⟨some l⟩ stk d z zs hzl (ys ++ utf8 a) fuel [y] (len + 1) false hhigh
                  (by simp only [List.length_append]; omega) (within_some.mpr (by omega))
                rw [← hz, List.append_assoc] at this
                rw [← hz]
                exact this
              · rw [← hz]
                rw [hu, hdec]
                refine Steps.bind (Steps.lift_ok (c :: a) _) ?_
                unfold appendChar
                dsimp only
                rw [checkLength_ok (within_some.mpr (by omega))]
                refine Steps.bind (Steps.lift_ok () _) ?_
                rw [if_neg (by simp)]
                exact Steps.pure _ _
            · simp only [List.length_append] at hbig ⊢
              exact ih b (by omega) f (pre ++ (c :: a)) _ true hsb (by omega) (by omega) (by omega) (by omega)
      · obtain ⟨y, hy, hyu, hyc⟩ := escape_two h
        rw [escaped_cons, hy] at hf hfuel hw ⊢
        simp only [List.length_append, List.length_cons, List.length_nil] at hf hfuel hw
        simp only [List.length_cons] at hs
        have hy' : y.toNat ≠ 117 := fun e => hyu (UInt8.toNat_inj.mp e)
        cases f with
        | zero => omega
        | succ f =>
          by_cases hbig : l < (len + 1 + 1 : Nat)
          · refine whileTrue_fails ?_
            unfold stringBody
            simp only [List.cons_append, List.nil_append]
            refine Steps.fails (steps_read stk d 92 _ p) ?_
            rw [if_neg (by decide)]
            refine Steps.fails (Steps.lift_ok 92 _) ?_
            rw [if_pos rfl]
            refine Steps.fails (steps_read stk d y _ false) ?_
            refine Steps.fails (Steps.lift_ok y.toNat _) ?_
            rw [if_neg hy', UInt8.ofNat_toNat, hyc]
            unfold appendChar
            dsimp only
            rw [checkLength_big hbig]
            exact Fails.bind (Fails.lift _ _)
          · refine whileTrue_next_fails (a' := ⟨0, pre ++ [c], len + 1 + 1⟩)
              (A1 := ⟨stk, d, escaped s ++ 34 :: rest, false⟩) ?_ ?_
            · unfold stringBody
              simp only [List.cons_append, List.nil_append]
              refine Steps.bind (steps_read stk d 92 _ p) ?_
              rw [if_neg (by decide)]
              refine Steps.bind (Steps.lift_ok 92 _) ?_
              rw [if_pos rfl]
              refine Steps.bind (steps_read stk d y _ false) ?_
              refine Steps.bind (Steps.lift_ok y.toNat _) ?_
              rw [if_neg hy', UInt8.ofNat_toNat, hyc]
              unfold appendChar
              dsimp only
              rw [checkLength_ok (within_some.mpr (by omega))]
              refine Steps.bind (Steps.lift_ok () _) ?_
              rw [if_neg (by simp)]
              exact Steps.pure _ _
            · exact ih s (by omega) f (pre ++ [c]) (len + 1 + 1) false (fun x hx => hsc x (by simp [hx])) (by omega)
                (by omega) (by omega) (by omega)

theorem fails_string (fuel : Nat) (stk : List Ctx) (d : Int) (s : PyStr) (rest : Bytes) (p : Bool)
    (hs : ∀ c ∈ s, Scalar c) (hf : (escaped s).length < fuel) (h0 : 0 ≤ l) (hl : l < (escaped s).length) :
    Fails (readJSONString ⟨some l⟩ fuel) ⟨stk, d, primBytes stk (.str s) ++ rest, p⟩ TTransportException.SIZE_LIMIT := by
  unfold readJSONString primBytes
  rw [List.append_assoc]
  refine Steps.fails (steps_ctx stk d _ p) ?_
  unfold readStringBody quoted
  simp only [List.cons_append, List.append_assoc, List.nil_append]
  refine Steps.fails (steps_syntax (bump stk) d 34 _ _) ?_
  exact fails_chars l (bump stk) d rest fuel s.length s (Nat.le_refl _) fuel [] 0 false hs hf hf (by simpa using h0)
    (by simpa using hl)

theorem fails_numericLoop (stk : List Ctx) (d : Int) (r : Bytes) :
    ∀ (ds : Bytes) (fuel : Nat) (bs : Bytes) (n : Nat) (p : Bool), (∀ x ∈ ds, isNumeric [x] = true) →
      ds.length < fuel → (n : Int) ≤ l → l < n + ds.length →
      Fails (P.whileTrue fuel (numericBody ⟨some l⟩) (bs, n)) ⟨stk, d, ds ++ r, p⟩ TTransportException.SIZE_LIMIT := by
  intro ds
  induction ds with
  | nil => intro fuel bs n p _ _ h h'; simp only [List.length_nil] at h'; omega
  | cons y ds ih =>
    intro fuel bs n p ht hf hn hw
    have hy := ht y (by simp)
    cases fuel with
    | zero => simp at hf
    | succ f =>
      simp only [List.length_cons] at hf hw
      by_cases hbig : l < (n + 1 : Nat)
      · refine whileTrue_fails ?_
        unfold numericBody
        refine Steps.fails (steps_peek stk d y (ds ++ r) p) ?_
        rw [if_neg (by simp [hy])]
        refine Steps.fails (steps_read stk d y (ds ++ r) true) ?_
        rw [checkLength_big hbig]
        exact Fails.bind (Fails.lift _ _)
      · refine whileTrue_next_fails (a' := (bs ++ [y], n + 1)) (A1 := ⟨stk, d, ds ++ r, false⟩) ?_ ?_
        · unfold numericBody
          refine Steps.bind (steps_peek stk d y (ds ++ r) p) ?_
          rw [if_neg (by simp [hy])]
          refine Steps.bind (steps_read stk d y (ds ++ r) true) ?_
          rw [checkLength_ok (within_some.mpr (by omega))]
          refine Steps.bind (Steps.lift_ok () _) ?_
          exact Steps.pure _ _
        · exact ih f (bs ++ [y]) (n + 1) false (fun x hx => ht x (by simp [hx])) (by omega) (by omega) (by omega)

theorem fails_integer (fuel : Nat) (stk : List Ctx) (d : Int) (i : Int) (rest : Bytes) (p : Bool)
    (hf : (intDigits i).length < fuel) (h0 : 0 ≤ l) (hl : l < (intDigits i).length) :
    Fails (readJSONInteger ⟨some l⟩ fuel) ⟨stk, d, primBytes stk (.num (intDigits i)) ++ rest, p⟩
      TTransportException.SIZE_LIMIT := by
  have key : ∀ r p, Fails (readNumericChars ⟨some l⟩ fuel) ⟨bump stk, d, intDigits i ++ r, p⟩
      TTransportException.SIZE_LIMIT := by
    intro r p
    unfold readNumericChars
    exact Fails.bind (fails_numericLoop l _ d r (intDigits i) fuel [] 0 p (numeric_intDigits i) hf (by simpa using h0)
      (by simpa using hl))
  unfold readJSONInteger primBytes
  rw [List.append_assoc]
  refine Steps.fails (steps_ctx stk d _ p) ?_
  cases he : escapeNum (top (bump stk)) with
  | true =>
    unfold quoted
    simp only [if_true, List.cons_append, List.append_assoc]
    refine Steps.fails (steps_quotes_on he d _ _) ?_
    exact Fails.bind (key _ _)
  | false =>
    simp only [Bool.false_eq_true, if_false]
    refine Steps.fails (steps_quotes_off he d _ _) ?_
    exact Fails.bind (key _ _)

end Thrift.Json
