import Verif.Proofs.JsonLang
import Verif.Proofs.Dec
import Verif.Spec.Stream
/-
The reading methods of `TJSONProtocol` over any transport that delivers the document.
-/

namespace Thrift.Json
open Spec Spec.Json

/-- What the protocol object and the transport are like: the contexts, the recursion counter, the bytes
not yet consumed, and whether the first of them is held by the lookahead reader. -/
structure Abs where
  stack : List Ctx
  depth : Int
  inp : Bytes
  peeked : Bool

/-- A protocol object and a transport with `rest` left match a description. -/
structure Rep (A : Abs) (t : St) (rest : Bytes) : Prop where
  stack : t.stack = A.stack
  depth : t.depth = A.depth
  peeked : t.hasData = A.peeked
  one : t.hasData = true → t.data.length = 1
  inp : (if t.hasData then t.data else []) ++ rest = A.inp

/-- Over every transport that delivers the bytes, `m` leads from `A` to `A'` and returns `a`. -/
def Steps {α : Type} (m : P St α) (A : Abs) (a : α) (A' : Abs) : Prop :=
  ∀ (τ : Type) (step : Nat → τ → Option (Except Exc Bytes × τ)) (left : τ → Bytes),
    DeliversUntil step left → ∀ t x, Rep A t (left x) →
    ∃ t' x', (m t).run step x = some ((.ok a, t'), x') ∧ Rep A' t' (left x')

section
variable {α β : Type}

theorem Steps.pure (a : α) (A : Abs) : Steps (Pure.pure a) A a A :=
  fun _ _ _ _ t x h => ⟨t, x, rfl, h⟩

theorem Steps.lift_ok (a : α) (A : Abs) : Steps (P.lift (.ok a)) A a A :=
  fun _ _ _ _ t x h => ⟨t, x, rfl, h⟩

theorem Steps.bind {m : P St α} {k : α → P St β} {A A1 A2 : Abs} {a : α} {c : β}
    (h1 : Steps m A a A1) (h2 : Steps (k a) A1 c A2) : Steps (m >>= k) A c A2 := by
  intro τ step left hd t x hr
  obtain ⟨t1, x1, e1, r1⟩ := h1 τ step left hd t x hr
  obtain ⟨t2, x2, e2, r2⟩ := h2 τ step left hd t1 x1 r1
  refine ⟨t2, x2, ?_, r2⟩
  change ((m t).bind _).run step x = _
  rw [Prog.run_bind, e1]
  exact e2

theorem Steps.bindP {m : P St α} {k : α → P St β} {A A1 A2 : Abs} {a : α} {c : β}
    (h1 : Steps m A a A1) (h2 : Steps (k a) A1 c A2) : Steps (P.bind m k) A c A2 := Steps.bind h1 h2

theorem Steps.map {m : P St α} {k : α → P St β} {A A1 : Abs} {a : α} {c : β}
    (h1 : Steps m A a A1) (h2 : k a = Pure.pure c) : Steps (m >>= k) A c A1 :=
  Steps.bind h1 (by rw [h2]; exact Steps.pure c A1)

/-- Only the contexts and the counter of the protocol object are known. -/
theorem Steps.get {k : St → P St β} {A A2 : Abs} {c : β}
    (h : ∀ t : St, t.stack = A.stack → t.depth = A.depth → Steps (k t) A c A2) :
    Steps (P.get >>= k) A c A2 := by
  intro τ step left hd t x hr
  exact h t hr.stack hr.depth τ step left hd t x hr

theorem Steps.modify (f : St → St) (g : List Ctx → List Ctx) (A : Abs)
    (h : ∀ t, f t = { t with stack := g t.stack }) :
    Steps (P.modify f) A () { A with stack := g A.stack } := by
  intro τ step left hd t x hr
  refine ⟨f t, x, rfl, ?_⟩
  rw [h]
  exact ⟨by simp [hr.stack], hr.depth, hr.peeked, hr.one, hr.inp⟩

theorem Steps.tryFinally {m : P St α} {A A' : Abs} {a : α} (h : Steps m A a A') :
    Steps (P.tryFinally m decDepth) A a { A' with depth := A'.depth - 1 } := by
  intro τ step left hd t x hr
  obtain ⟨t1, x1, e1, r1⟩ := h τ step left hd t x hr
  refine ⟨decDepth t1, x1, ?_, ?_⟩
  · unfold P.tryFinally
    rw [Prog.run_bind, e1]
    rfl
  · exact ⟨r1.stack, by simp [decDepth, HasDepth.depth, HasDepth.setDepth, r1.depth], r1.peeked, r1.one, r1.inp⟩

theorem Steps.incDepth {A : Abs} (h : A.depth < 64) :
    Steps (Thrift.incDepth : P St Unit) A () { A with depth := A.depth + 1 } := by
  intro τ step left hd t x hr
  have ht := hr.depth
  refine ⟨{ t with depth := t.depth + 1 }, x, ?_, ?_⟩
  · unfold Thrift.incDepth
    change Prog.run step ((if t.depth + 1 > recursionLimit then _ else Pure.pure () : P St Unit) { t with depth := t.depth + 1 }) x = _
    rw [if_neg (by unfold recursionLimit; omega)]
    rfl
  · exact ⟨hr.stack, by simp [hr.depth], hr.peeked, hr.one, hr.inp⟩
end

/-- A transport with something left answers a request for one byte with the next byte. -/
theorem deliver_one {τ : Type} {step : Nat → τ → Option (Except Exc Bytes × τ)} {left : τ → Bytes}
    (hd : DeliversUntil step left) {x : τ} {c : UInt8} {r : Bytes} (h : left x = c :: r) :
    ∃ x', step 1 x = some (.ok [c], x') ∧ left x' = r := by
  obtain ⟨piece, x', e, hr, hl, hne⟩ := hd 0 x (by rw [h]; simp)
  match piece, hne, hl with
  | [y], _, _ =>
    rw [h] at hr
    simp only [List.cons_append, List.nil_append, List.cons.injEq] at hr
    exact ⟨x', by rw [e, hr.1], hr.2.symm⟩
  | _ :: _ :: _, _, hl => simp at hl

theorem run_transRead {τ β : Type} {step : Nat → τ → Option (Except Exc Bytes × τ)} {n : Nat} {x x' : τ} {b : Bytes}
    {k : Bytes → P St β} {t : St} (e : step n x = some (.ok b, x')) :
    Prog.run step ((P.transRead n >>= k) t) x = Prog.run step (k b t) x' := by
  change Prog.run step (Prog.read n _) x = _
  rw [Prog.run, e]
  rfl

theorem steps_read (stk : List Ctx) (d : Int) (c : UInt8) (r : Bytes) (p : Bool) :
    Steps readerRead ⟨stk, d, c :: r, p⟩ [c] ⟨stk, d, r, false⟩ := by
  intro τ step left hd t x hr
  obtain ⟨h1, h2, h3, h4, h5⟩ := hr
  unfold readerRead
  cases hh : t.hasData with
  | true =>
    rw [hh] at h5
    have h4 := h4 hh
    simp only [if_true] at h5
    match hdat : t.data, h4 with
    | [y], _ =>
      rw [hdat] at h5
      simp only [List.cons_append, List.nil_append, List.cons.injEq] at h5
      refine ⟨{ t with hasData := false }, x, ?_, ⟨h1, h2, rfl, by simp, by simpa using h5.2⟩⟩
      change Prog.run step ((if t.hasData = true then _ else _ : P St Bytes) t) x = _
      rw [if_pos hh]
      change some ((Except.ok t.data, _), x) = _
      rw [hdat, h5.1]
  | false =>
    rw [hh] at h5
    simp only [Bool.false_eq_true, if_false, List.nil_append] at h5
    obtain ⟨x', e, hl⟩ := deliver_one hd h5
    refine ⟨{ t with data := [c] }, x', ?_, ⟨h1, h2, hh, by simp [hh], by simp [hh, hl]⟩⟩
    change Prog.run step ((if t.hasData = true then _ else _ : P St Bytes) t) x = _
    rw [if_neg (by simp [hh])]
    rw [run_transRead e]
    rfl

theorem steps_peek (stk : List Ctx) (d : Int) (c : UInt8) (r : Bytes) (p : Bool) :
    Steps readerPeek ⟨stk, d, c :: r, p⟩ [c] ⟨stk, d, c :: r, true⟩ := by
  intro τ step left hd t x hr
  obtain ⟨h1, h2, h3, h4, h5⟩ := hr
  unfold readerPeek
  cases hh : t.hasData with
  | true =>
    rw [hh] at h5
    have h4 := h4 hh
    simp only [if_true] at h5
    match hdat : t.data, h4 with
    | [y], _ =>
      rw [hdat] at h5
      simp only [List.cons_append, List.nil_append, List.cons.injEq] at h5
      refine ⟨t, x, ?_, ⟨h1, h2, hh, fun _ => by simp [hdat], by simp [hh, hdat, h5]⟩⟩
      change Prog.run step ((if t.hasData = true then _ else _ : P St Bytes) t) x = _
      rw [if_pos hh]
      change some ((Except.ok t.data, _), x) = _
      rw [hdat, h5.1]
  | false =>
    rw [hh] at h5
    simp only [Bool.false_eq_true, if_false, List.nil_append] at h5
    obtain ⟨x', e, hl⟩ := deliver_one hd h5
    refine ⟨{ t with data := [c], hasData := true }, x', ?_, ⟨h1, h2, rfl, by simp, by simp [hl]⟩⟩
    change Prog.run step ((if t.hasData = true then _ else _ : P St Bytes) t) x = _
    rw [if_neg (by simp [hh])]
    rw [run_transRead e]
    rfl

theorem steps_syntax (stk : List Ctx) (d : Int) (c : UInt8) (r : Bytes) (p : Bool) :
    Steps (readSyntaxChar c) ⟨stk, d, c :: r, p⟩ () ⟨stk, d, r, false⟩ := by
  unfold readSyntaxChar
  refine Steps.bind (steps_read stk d c r p) ?_
  rw [if_pos rfl]
  exact Steps.pure _ _

theorem steps_ctx (stk : List Ctx) (d : Int) (r : Bytes) (p : Bool) :
    Steps ctxRead ⟨stk, d, sep stk ++ r, p⟩ () ⟨bump stk, d, r, p && (sep stk).isEmpty⟩ := by
  unfold ctxRead
  refine Steps.get fun t ht _ => ?_
  rw [ht]
  have hm : ∀ (inp : Bytes) (p' : Bool), Steps (P.modify advanceTop) ⟨stk, d, inp, p'⟩ () ⟨bump stk, d, inp, p'⟩ := by
    intro inp p'
    exact Steps.modify advanceTop bump ⟨stk, d, inp, p'⟩ (fun t => rfl)
  unfold sep
  cases h : (advance (top stk)).1 with
  | none =>
    simpa using hm r p
  | some c =>
    refine Steps.bind (steps_syntax stk d c r p) ?_
    simpa using hm r false

theorem steps_pop (c : Ctx) (stk : List Ctx) (d : Int) (r : Bytes) (p : Bool) :
    Steps popR ⟨c :: stk, d, r, p⟩ () ⟨stk, d, r, p⟩ := by
  intro τ step left hd t x hr
  obtain ⟨h1, h2, h3, h4, h5⟩ := hr
  refine ⟨{ t with stack := stk }, x, ?_, ⟨rfl, h2, h3, h4, h5⟩⟩
  unfold popR
  change Prog.run step ((match t.stack with
    | [] => P.raise .indexError
    | _ :: cs => P.set { t with stack := cs } : P St Unit) t) x = _
  simp only at h1
  rw [h1]
  rfl

/-! ### Strings -/

theorem whileTrue_next {α β : Type} {body : α → P St (α ⊕ β)} {a a' : α} {f : Nat} {A A1 A2 : Abs} {r : β}
    (h1 : Steps (body a) A (.inl a') A1) (h2 : Steps (P.whileTrue f body a') A1 r A2) :
    Steps (P.whileTrue (f + 1) body a) A r A2 :=
  Steps.bindP h1 h2

theorem whileTrue_done {α β : Type} {body : α → P St (α ⊕ β)} {a : α} {f : Nat} {A A1 : Abs} {r : β}
    (h1 : Steps (body a) A (.inr r) A1) : Steps (P.whileTrue (f + 1) body a) A r A1 :=
  Steps.bindP h1 (Steps.pure r A1)

/-- A document part of this length is accepted: within the limit, and within the bound on loops. -/
def Fits (limit : Option Int) (fuel : Nat) (n : Nat) : Prop := Within limit n ∧ n < fuel

theorem checkLength_ok {limit : Option Int} {n : Nat} (h : Within limit n) : checkLength limit (n : Int) = .ok () := by
  unfold checkLength
  rw [if_neg (by omega)]
  cases limit with
  | none => rfl
  | some l =>
    have := h l rfl
    simp only
    rw [if_neg (by omega)]

theorem within_mono {limit : Option Int} {n m : Nat} (h : Within limit m) (hn : n ≤ m) : Within limit n := by
  intro l hl
  have := h l hl
  omega

variable (cfg : Cfg)

theorem steps_utf8 (stk : List Ctx) (d : Int) (c : UInt8) (r : Bytes) (hc : c.toNat < 0x80) :
    ∀ (tail : Bytes) (fuel : Nat) (bs : Bytes) (n : Nat) (p : Bool), (∀ x ∈ tail, 0x80 ≤ x.toNat) →
      tail.length < fuel → Within cfg.stringLimit (n + tail.length) →
      Steps (P.whileTrue fuel (utf8Body cfg) (bs, n)) ⟨stk, d, tail ++ c :: r, p⟩
        (bs ++ tail, n + tail.length) ⟨stk, d, c :: r, true⟩ := by
  intro tail
  induction tail with
  | nil =>
    intro fuel bs n p _ hf hw
    cases fuel with
    | zero => simp at hf
    | succ f =>
      rw [List.append_nil]
      refine whileTrue_done ?_
      unfold utf8Body
      refine Steps.bind (steps_peek stk d c r p) ?_
      refine Steps.bind (Steps.lift_ok c.toNat _) ?_
      rw [if_neg (by omega)]
      exact Steps.pure _ _
  | cons y tail ih =>
    intro fuel bs n p ht hf hw
    have hy := ht y (by simp)
    cases fuel with
    | zero => simp at hf
    | succ f =>
      simp only [List.length_cons] at hf hw ⊢
      refine whileTrue_next (a' := (bs ++ [y], n + 1)) (A1 := ⟨stk, d, tail ++ c :: r, false⟩) ?_ ?_
      · unfold utf8Body
        refine Steps.bind (steps_peek stk d y (tail ++ c :: r) p) ?_
        refine Steps.bind (Steps.lift_ok y.toNat _) ?_
        rw [if_pos hy]
        refine Steps.bind (steps_read stk d y (tail ++ c :: r) true) ?_
        refine Steps.bind (Steps.lift_ok y.toNat _) ?_
        rw [checkLength_ok (within_mono hw (by simp only; omega))]
        refine Steps.bind (Steps.lift_ok () _) ?_
        rw [UInt8.ofNat_toNat]
        exact Steps.pure _ _
      · have := ih f (bs ++ [y]) (n + 1) false (fun x hx => ht x (by simp [hx])) (by omega) (within_mono hw (by omega))
        rw [List.append_assoc] at this
        rw [show n + (tail.length + 1) = n + 1 + tail.length by omega]
        exact this

theorem takeWhile_high (s : PyStr) : ∃ a b, s = a ++ b ∧ (∀ c ∈ a, 0x80 ≤ c) ∧ (∀ c r, b = c :: r → c < 0x80) := by
  induction s with
  | nil => exact ⟨[], [], rfl, by simp, by simp⟩
  | cons c s ih =>
    by_cases h : 0x80 ≤ c
    · obtain ⟨a, b, rfl, ha, hb⟩ := ih
      refine ⟨c :: a, b, rfl, ?_, hb⟩
      intro d hd
      rcases List.mem_cons.mp hd with rfl | hd
      · exact h
      · exact ha d hd
    · refine ⟨[], c :: s, rfl, by simp, ?_⟩
      intro d r e
      injection e with e1 e2
      omega

theorem utf8_all_high {a : PyStr} (hs : ∀ c ∈ a, Scalar c) (h : ∀ c ∈ a, 0x80 ≤ c) : ∀ x ∈ utf8 a, 0x80 ≤ x.toNat := by
  induction a with
  | nil => simp [utf8]
  | cons c a ih =>
    rw [utf8_cons]
    intro x hx
    rcases List.mem_append.mp hx with hx | hx
    · exact (utf8_high (hs c (by simp)) (h c (by simp))).2 x hx
    · exact ih (fun d hd => hs d (by simp [hd])) (fun d hd => h d (by simp [hd])) x hx

theorem escaped_high {a : PyStr} (h : ∀ c ∈ a, 0x80 ≤ c) : escaped a = utf8 a := by
  induction a with
  | nil => rfl
  | cons c a ih =>
    have := h c (by simp)
    rw [escaped_cons, utf8_cons, ih (fun d hd => h d (by simp [hd])), escapedChar_plain (by omega)]

/-- The first byte after a run of characters beyond ASCII is an ASCII byte. -/
theorem next_ascii (b : PyStr) (hb : ∀ c r, b = c :: r → c < 0x80) (rest : Bytes) :
    ∃ c r, escaped b ++ 34 :: rest = c :: r ∧ c.toNat < 0x80 := by
  cases b with
  | nil => exact ⟨34, rest, rfl, by decide⟩
  | cons c b =>
    have hc := hb c b rfl
    rw [escaped_cons]
    by_cases h : c ≠ 34 ∧ c ≠ 92 ∧ c ≠ 8 ∧ c ≠ 12 ∧ c ≠ 10 ∧ c ≠ 13 ∧ c ≠ 9
    · rw [escapedChar_plain h, utf8_ascii hc]
      refine ⟨UInt8.ofNat c, _, rfl, ?_⟩
      simp only [UInt8.toNat_ofNat']; omega
    · have : ∃ y, escapedChar c = [92, y] := by
        rcases Nat.lt_or_ge c 128 with h' | h'
        · have key : ∀ c < 128, ¬ (c ≠ 34 ∧ c ≠ 92 ∧ c ≠ 8 ∧ c ≠ 12 ∧ c ≠ 10 ∧ c ≠ 13 ∧ c ≠ 9) →
              escapedChar c = [92, (escapedChar c).getD 1 0] := by decide +kernel
          exact ⟨_, key c h' h⟩
        · omega
      obtain ⟨y, e⟩ := this
      rw [e]
      exact ⟨92, _, rfl, by decide⟩

/-- An escape of two characters. -/
theorem escape_two {c : Nat} (h : ¬ (c ≠ 34 ∧ c ≠ 92 ∧ c ≠ 8 ∧ c ≠ 12 ∧ c ≠ 10 ∧ c ≠ 13 ∧ c ≠ 9)) :
    ∃ y, escapedChar c = [92, y] ∧ y ≠ 117 ∧ unescape y = some c := by
  rcases Nat.lt_or_ge c 128 with h' | h'
  · have key : ∀ c < 128, ¬ (c ≠ 34 ∧ c ≠ 92 ∧ c ≠ 8 ∧ c ≠ 12 ∧ c ≠ 10 ∧ c ≠ 13 ∧ c ≠ 9) →
        escapedChar c = [92, (escapedChar c).getD 1 0] ∧ (escapedChar c).getD 1 0 ≠ 117 ∧
          unescape ((escapedChar c).getD 1 0) = some c := by decide +kernel
    exact ⟨_, key c h' h⟩
  · omega

/-- The bytes of a character that is not escaped: the first is neither a quotation mark nor a backslash, the
others are above 0x7F. -/
theorem plain_char {c : Nat} (hs : Scalar c) (h : c ≠ 34 ∧ c ≠ 92) :
    ∃ y ys, utf8 [c] = y :: ys ∧ y ≠ 34 ∧ y.toNat ≠ 92 ∧ ∀ x ∈ ys, 0x80 ≤ x.toNat := by
  by_cases hc : c < 0x80
  · refine ⟨UInt8.ofNat c, [], utf8_ascii hc, ?_, ?_, by simp⟩
    · intro e
      have := congrArg UInt8.toNat e
      simp only [UInt8.toNat_ofNat', UInt8.reduceToNat] at this
      omega
    · simp only [UInt8.toNat_ofNat']
      omega
  · obtain ⟨h1, h2⟩ := utf8_high hs (by omega)
    cases hu : utf8 [c] with
    | nil => exact absurd hu h1
    | cons y ys =>
      rw [hu] at h2
      have hy := h2 y (by simp)
      refine ⟨y, ys, rfl, ?_, by omega, fun x hx => h2 x (by simp [hx])⟩
      intro e
      rw [e] at hy
      exact absurd hy (by decide)

theorem steps_chars (stk : List Ctx) (d : Int) (rest : Bytes) (fuel : Nat) :
    ∀ (n : Nat) (s : PyStr), s.length ≤ n → ∀ (f : Nat) (pre : PyStr) (len : Nat) (p : Bool), (∀ c ∈ s, Scalar c) →
      (escaped s).length < f → (escaped s).length < fuel → Within cfg.stringLimit (len + (escaped s).length) →
      Steps (P.whileTrue f (stringBody cfg fuel) ⟨0, pre, len⟩) ⟨stk, d, escaped s ++ 34 :: rest, p⟩
        (pre ++ s) ⟨stk, d, rest, false⟩ := by
  intro n
  induction n with
  | zero =>
    intro s hs f pre len p _ hf _ hw
    have : s = [] := List.length_eq_zero_iff.mp (by omega)
    subst this
    cases f with
    | zero => simp at hf
    | succ f =>
      rw [List.append_nil]
      refine whileTrue_done ?_
      unfold stringBody
      refine Steps.bind (steps_read stk d 34 rest p) ?_
      rw [if_pos rfl]
      exact Steps.pure _ _
  | succ n ih =>
    intro s hs f pre len p hsc hf hfuel hw
    cases s with
    | nil =>
      cases f with
      | zero => simp at hf
      | succ f =>
        rw [List.append_nil]
        refine whileTrue_done ?_
        unfold stringBody
        refine Steps.bind (steps_read stk d 34 rest p) ?_
        rw [if_pos rfl]
        exact Steps.pure _ _
    | cons c s =>
      have hc := hsc c (by simp)
      by_cases h : c ≠ 34 ∧ c ≠ 92 ∧ c ≠ 8 ∧ c ≠ 12 ∧ c ≠ 10 ∧ c ≠ 13 ∧ c ≠ 9
      · -- a character that stands for itself, with all characters beyond ASCII that follow
        obtain ⟨a, b, rfl, ha, hb⟩ := takeWhile_high s
        have hsa : ∀ c ∈ a, Scalar c := fun d hd => hsc d (by simp [hd])
        have hsb : ∀ c ∈ b, Scalar c := fun d hd => hsc d (by simp [hd])
        obtain ⟨y, ys, hy, hy1, hy2, hys⟩ := plain_char hc ⟨h.1, h.2.1⟩
        obtain ⟨z, zs, hz, hzl⟩ := next_ascii b hb rest
        have he : escaped (c :: (a ++ b)) = y :: (ys ++ utf8 a) ++ escaped b := by
          rw [escaped_cons, escaped_append, escaped_high ha, escapedChar_plain h, hy]
          simp
        rw [he] at hf hfuel hw ⊢
        simp only [List.length_append, List.length_cons] at hf hfuel hw
        simp only [List.length_cons, List.length_append] at hs
        cases f with
        | zero => omega
        | succ f =>
          refine whileTrue_next (a' := ⟨0, pre ++ (c :: a), len + 1 + (ys ++ utf8 a).length⟩)
            (A1 := ⟨stk, d, escaped b ++ 34 :: rest, true⟩) ?_ ?_
          · unfold stringBody
            simp only [List.cons_append, List.append_assoc]
            refine Steps.bind (steps_read stk d y _ p) ?_
            rw [if_neg (by simpa using hy1)]
            refine Steps.bind (Steps.lift_ok y.toNat _) ?_
            rw [if_neg hy2]
            refine Steps.bind (a := ([y] ++ (ys ++ utf8 a), len + 1 + (ys ++ utf8 a).length))
              (A1 := ⟨stk, d, z :: zs, true⟩) ?_ ?_
            · rw [UInt8.ofNat_toNat]
              have := steps_utf8 cfg stk d z zs hzl (ys ++ utf8 a) fuel [y] (len + 1) false (by
                intro x hx
                rcases List.mem_append.mp hx with hx | hx
                · exact hys x hx
                · exact utf8_all_high hsa ha x hx) (by simp only [List.length_append]; omega) (within_mono hw (by
                  simp only [List.length_append]; omega))
              rw [← hz, List.append_assoc] at this
              rw [← hz]
              exact this
            · rw [← hz]
              have hu : [y] ++ (ys ++ utf8 a) = utf8 (c :: a) := by
                rw [utf8_cons, hy]; rfl
              rw [hu, utf8Decode_utf8 (by
                intro x hx
                rcases List.mem_cons.mp hx with rfl | hx
                · exact hc
                · exact hsa x hx)]
              refine Steps.bind (Steps.lift_ok (c :: a) _) ?_
              unfold appendChar
              dsimp only
              rw [checkLength_ok (within_mono hw (by simp only [List.length_append]; omega))]
              refine Steps.bind (Steps.lift_ok () _) ?_
              rw [if_neg (by simp)]
              exact Steps.pure _ _
          · have := ih b (by omega) f (pre ++ (c :: a)) (len + 1 + (ys ++ utf8 a).length) true hsb (by omega) (by omega)
              (within_mono hw (by simp only [List.length_append]; omega))
            rw [List.append_assoc] at this
            exact this
      · obtain ⟨y, hy, hyu, hyc⟩ := escape_two h
        rw [escaped_cons, hy] at hf hfuel hw ⊢
        simp only [List.length_append, List.length_cons, List.length_nil] at hf hfuel hw
        simp only [List.length_cons] at hs
        cases f with
        | zero => omega
        | succ f =>
          refine whileTrue_next (a' := ⟨0, pre ++ [c], len + 1 + 1⟩)
            (A1 := ⟨stk, d, escaped s ++ 34 :: rest, false⟩) ?_ ?_
          · unfold stringBody
            simp only [List.cons_append, List.nil_append]
            refine Steps.bind (steps_read stk d 92 _ p) ?_
            rw [if_neg (by decide)]
            refine Steps.bind (Steps.lift_ok 92 _) ?_
            rw [if_pos rfl]
            refine Steps.bind (steps_read stk d y _ false) ?_
            refine Steps.bind (Steps.lift_ok y.toNat _) ?_
            have hy' : y.toNat ≠ 117 := fun e => hyu (UInt8.toNat_inj.mp e)
            rw [if_neg hy', UInt8.ofNat_toNat, hyc]
            unfold appendChar
            dsimp only
            rw [checkLength_ok (within_mono hw (by omega))]
            refine Steps.bind (Steps.lift_ok () _) ?_
            rw [if_neg (by simp)]
            exact Steps.pure _ _
          · have := ih s (by omega) f (pre ++ [c]) (len + 1 + 1) false (fun x hx => hsc x (by simp [hx])) (by omega) (by omega)
              (within_mono hw (by omega))
            rw [List.append_assoc] at this
            exact this

theorem steps_stringBody (fuel : Nat) (stk : List Ctx) (d : Int) (s : PyStr) (rest : Bytes) (p : Bool)
    (hs : ∀ c ∈ s, Scalar c) (hf : Fits cfg.stringLimit fuel (escaped s).length) :
    Steps (readStringBody cfg fuel) ⟨stk, d, quoted (escaped s) ++ rest, p⟩ s ⟨stk, d, rest, false⟩ := by
  unfold readStringBody quoted
  simp only [List.cons_append, List.append_assoc, List.nil_append]
  refine Steps.bind (steps_syntax stk d 34 _ p) ?_
  exact steps_chars cfg stk d rest fuel s.length s (Nat.le_refl _) fuel [] 0 false hs hf.2 hf.2
    (by simpa using hf.1)

theorem steps_string (fuel : Nat) (stk : List Ctx) (d : Int) (s : PyStr) (rest : Bytes) (p : Bool)
    (hs : ∀ c ∈ s, Scalar c) (hf : Fits cfg.stringLimit fuel (escaped s).length) :
    Steps (readJSONString cfg fuel) ⟨stk, d, primBytes stk (.str s) ++ rest, p⟩ s
      ⟨primStep stk (.str s), d, rest, false⟩ := by
  unfold readJSONString primBytes primStep
  rw [List.append_assoc]
  exact Steps.bind (steps_ctx stk d _ p) (steps_stringBody cfg fuel _ d s rest _ hs hf)

/-! ### Numbers -/

theorem steps_numericLoop (stk : List Ctx) (d : Int) (c : UInt8) (r : Bytes) (hc : isNumeric [c] = false) :
    ∀ (ds : Bytes) (fuel : Nat) (bs : Bytes) (n : Nat) (p : Bool), (∀ x ∈ ds, isNumeric [x] = true) →
      ds.length < fuel → Within cfg.stringLimit (n + ds.length) →
      Steps (P.whileTrue fuel (numericBody cfg) (bs, n)) ⟨stk, d, ds ++ c :: r, p⟩
        (bs ++ ds) ⟨stk, d, c :: r, true⟩ := by
  intro ds
  induction ds with
  | nil =>
    intro fuel bs n p _ hf hw
    cases fuel with
    | zero => simp at hf
    | succ f =>
      rw [List.append_nil]
      refine whileTrue_done ?_
      unfold numericBody
      refine Steps.bind (steps_peek stk d c r p) ?_
      rw [if_pos hc]
      exact Steps.pure _ _
  | cons y ds ih =>
    intro fuel bs n p ht hf hw
    have hy := ht y (by simp)
    cases fuel with
    | zero => simp at hf
    | succ f =>
      simp only [List.length_cons] at hf hw ⊢
      refine whileTrue_next (a' := (bs ++ [y], n + 1)) (A1 := ⟨stk, d, ds ++ c :: r, false⟩) ?_ ?_
      · unfold numericBody
        refine Steps.bind (steps_peek stk d y (ds ++ c :: r) p) ?_
        rw [if_neg (by simp [hy])]
        refine Steps.bind (steps_read stk d y (ds ++ c :: r) true) ?_
        rw [checkLength_ok (within_mono hw (by simp only; omega))]
        refine Steps.bind (Steps.lift_ok () _) ?_
        exact Steps.pure _ _
      · have := ih f (bs ++ [y]) (n + 1) false (fun x hx => ht x (by simp [hx])) (by omega) (within_mono hw (by omega))
        rw [List.append_assoc] at this
        exact this

theorem steps_numeric (fuel : Nat) (stk : List Ctx) (d : Int) (ds : Bytes) (c : UInt8) (r : Bytes) (p : Bool)
    (hc : isNumeric [c] = false) (hd : ∀ x ∈ ds, isNumeric [x] = true) (hf : Fits cfg.stringLimit fuel ds.length) :
    Steps (readNumericChars cfg fuel) ⟨stk, d, ds ++ c :: r, p⟩ (toPy ds) ⟨stk, d, c :: r, true⟩ := by
  unfold readNumericChars
  refine Steps.bind (a := ds) (A1 := ⟨stk, d, c :: r, true⟩) ?_ ?_
  · have := steps_numericLoop cfg stk d c r hc ds fuel [] 0 p hd hf.2 (by simpa using hf.1)
    simpa using this
  · have : asciiDecode ds = .ok (toPy ds) := by
      unfold asciiDecode
      rw [if_pos]
      · rfl
      · simp only [List.all_eq_true, decide_eq_true_eq]
        intro x hx
        exact (numeric_plain (hd x hx)).2.1
    rw [this]
    exact Steps.lift_ok _ _

/-- What may follow: after an item that is not the whole document, a byte that ends a number. -/
def Ends (stk : List Ctx) (rest : Bytes) : Prop :=
  top stk ≠ .base → top stk ≠ .list true → ∃ c r, rest = c :: r ∧ isNumeric [c] = false

theorem bump_ne_base {stk : List Ctx} (h : top stk ≠ .base) : top (bump stk) ≠ .base ∧ top (bump stk) ≠ .list true := by
  cases stk with
  | nil => exact absurd rfl h
  | cons c cs =>
    cases c with
    | base => exact absurd rfl h
    | list first => cases first <;> simp [bump, setTop, top, advance]
    | pair first colon => cases first <;> simp [bump, setTop, top, advance]

/-- Is the number at the end of the input read ahead? -/
def ahead (stk : List Ctx) : Bool := !escapeNum (top (bump stk))

theorem steps_quotes_on {stk : List Ctx} (h : escapeNum (top stk) = true) (d : Int) (r : Bytes) (p : Bool) :
    Steps readQuotes ⟨stk, d, 34 :: r, p⟩ () ⟨stk, d, r, false⟩ := by
  unfold readQuotes
  refine Steps.get fun t ht _ => ?_
  rw [ht, if_pos h]
  exact steps_syntax stk d 34 r p

theorem steps_quotes_off {stk : List Ctx} (h : escapeNum (top stk) = false) (d : Int) (r : Bytes) (p : Bool) :
    Steps readQuotes ⟨stk, d, r, p⟩ () ⟨stk, d, r, p⟩ := by
  unfold readQuotes
  refine Steps.get fun t ht _ => ?_
  rw [ht, if_neg (by simp [h])]
  exact Steps.pure _ _

theorem steps_integer (fuel : Nat) (stk : List Ctx) (d : Int) (i : Int) (rest : Bytes) (p : Bool)
    (hb : top stk ≠ .base) (hr : Ends (bump stk) rest) (hf : Fits cfg.stringLimit fuel (intDigits i).length) :
    Steps (readJSONInteger cfg fuel) ⟨stk, d, primBytes stk (.num (intDigits i)) ++ rest, p⟩ i
      ⟨primStep stk (.num (intDigits i)), d, rest, ahead stk⟩ := by
  unfold readJSONInteger primBytes primStep ahead
  rw [List.append_assoc]
  refine Steps.bind (steps_ctx stk d _ p) ?_
  cases he : escapeNum (top (bump stk)) with
  | true =>
    unfold quoted
    simp only [if_true, List.cons_append, List.append_assoc, List.nil_append]
    refine Steps.bind (steps_quotes_on he d _ _) ?_
    refine Steps.bind (steps_numeric cfg fuel _ d (intDigits i) 34 rest _ rfl (numeric_intDigits i) hf) ?_
    refine Steps.bind (steps_quotes_on he d _ _) ?_
    rw [pyInt_intDigits]
    exact Steps.pure _ _
  | false =>
    simp only [Bool.false_eq_true, if_false]
    obtain ⟨c, r, rfl, hc⟩ := hr (bump_ne_base hb).1 (bump_ne_base hb).2
    refine Steps.bind (steps_quotes_off he d _ _) ?_
    refine Steps.bind (steps_numeric cfg fuel _ d (intDigits i) c r _ hc (numeric_intDigits i) hf) ?_
    refine Steps.bind (steps_quotes_off he d _ _) ?_
    rw [pyInt_intDigits]
    exact Steps.pure _ _

theorem steps_double (py : Floats) (fuel : Nat) (stk : List Ctx) (d : Int) (x : UInt64) (rest : Bytes) (p : Bool)
    (hn : Rfc8259.Number (py.fmt17 x)) (hp : py.parse (toPy (py.fmt17 x)) = some x)
    (hb : top stk ≠ .base) (hr : Ends (bump stk) rest) (hf : Fits cfg.stringLimit fuel (py.fmt17 x).length) :
    Steps (readJSONDouble py cfg fuel) ⟨stk, d, primBytes stk (.num (py.fmt17 x)) ++ rest, p⟩ x
      ⟨primStep stk (.num (py.fmt17 x)), d, rest, ahead stk⟩ := by
  have hnum := number_numeric hn
  have hplain : ∀ y ∈ py.fmt17 x, Plain y := fun y hy => numeric_plain (hnum y hy)
  unfold readJSONDouble primBytes primStep ahead
  rw [List.append_assoc]
  refine Steps.bind (steps_ctx stk d _ p) ?_
  cases he : escapeNum (top (bump stk)) with
  | true =>
    simp only [if_true]
    refine Steps.bind (a := [34]) (A1 := ⟨bump stk, d, quoted (py.fmt17 x) ++ rest, true⟩) ?_ ?_
    · unfold quoted
      exact steps_peek _ d 34 _ _
    · rw [if_pos rfl]
      refine Steps.bind (a := toPy (py.fmt17 x)) (A1 := ⟨bump stk, d, rest, false⟩) ?_ ?_
      · have := steps_stringBody cfg fuel (bump stk) d (toPy (py.fmt17 x)) rest true (toPy_scalar hplain) (by
          rw [escaped_plain hplain]; exact hf)
        rwa [escaped_plain hplain] at this
      · rw [hp]
        exact Steps.pure _ _
  | false =>
    simp only [Bool.false_eq_true, if_false]
    obtain ⟨c, r, rfl, hc⟩ := hr (bump_ne_base hb).1 (bump_ne_base hb).2
    cases hx : py.fmt17 x with
    | nil => exact absurd hx (number_ne hn)
    | cons y ys =>
      rw [hx] at hnum hf hp
      have hy : y ≠ 34 := by
        intro e
        have := hnum y (by simp)
        rw [e] at this
        exact absurd this (by decide)
      refine Steps.bind (steps_peek _ d y _ _) ?_
      rw [if_neg (by simpa using hy)]
      refine Steps.get fun t ht _ => ?_
      rw [ht]
      simp only [he, Bool.false_eq_true, if_false]
      refine Steps.bind (steps_numeric cfg fuel _ d (y :: ys) c r _ hc hnum hf) ?_
      rw [hp]
      exact Steps.pure _ _

/-! ### Brackets -/

theorem steps_objectStart (stk : List Ctx) (d : Int) (rest : Bytes) (p : Bool) :
    Steps readJSONObjectStart ⟨stk, d, primBytes stk (.opn 123 (.pair true true)) ++ rest, p⟩ ()
      ⟨primStep stk (.opn 123 (.pair true true)), d, rest, false⟩ := by
  unfold readJSONObjectStart primBytes primStep
  rw [List.append_assoc]
  refine Steps.bind (steps_ctx stk d _ p) ?_
  refine Steps.bind (steps_syntax _ d 123 rest _) ?_
  exact Steps.modify (push (.pair true true)) (Ctx.pair true true :: ·) _ (fun _ => rfl)

theorem steps_arrayStart (stk : List Ctx) (d : Int) (rest : Bytes) (p : Bool) :
    Steps readJSONArrayStart ⟨stk, d, primBytes stk (.opn 91 (.list true)) ++ rest, p⟩ ()
      ⟨primStep stk (.opn 91 (.list true)), d, rest, false⟩ := by
  unfold readJSONArrayStart primBytes primStep
  rw [List.append_assoc]
  refine Steps.bind (steps_ctx stk d _ p) ?_
  refine Steps.bind (steps_syntax _ d 91 rest _) ?_
  exact Steps.modify (push (.list true)) (Ctx.list true :: ·) _ (fun _ => rfl)

theorem steps_objectEnd (c : Ctx) (stk : List Ctx) (d : Int) (rest : Bytes) (p : Bool) :
    Steps readJSONObjectEnd ⟨c :: stk, d, 125 :: rest, p⟩ () ⟨stk, d, rest, false⟩ := by
  unfold readJSONObjectEnd
  exact Steps.bind (steps_syntax _ d 125 rest _) (steps_pop c stk d rest false)

theorem steps_arrayEnd (c : Ctx) (stk : List Ctx) (d : Int) (rest : Bytes) (p : Bool) :
    Steps readJSONArrayEnd ⟨c :: stk, d, 93 :: rest, p⟩ () ⟨stk, d, rest, false⟩ := by
  unfold readJSONArrayEnd
  exact Steps.bind (steps_syntax _ d 93 rest _) (steps_pop c stk d rest false)

end Thrift.Json
