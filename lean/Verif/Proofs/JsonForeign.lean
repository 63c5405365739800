import Verif.Proofs.JsonRead
import Verif.Spec.Foreign
/-
Reading of JSON strings in every spelling that RFC 8259 allows.
-/

namespace Thrift.Json
open Spec Spec.Json Spec.Rfc8259

/-- A transport that answers a request in one piece while it has enough. -/
def WholeReads {τ : Type} (step : Nat → τ → Option (Except Exc Bytes × τ)) (left : τ → Bytes) : Prop :=
  ∀ n x, n ≤ (left x).length → ∃ x', step n x = some (.ok ((left x).take n), x') ∧ left x' = (left x).drop n

/-- `Steps` over such transports. -/
def Goes {α : Type} (m : P St α) (A : Abs) (a : α) (A' : Abs) : Prop :=
  ∀ (τ : Type) (step : Nat → τ → Option (Except Exc Bytes × τ)) (left : τ → Bytes),
    DeliversUntil step left → WholeReads step left → ∀ t x, Rep A t (left x) →
    ∃ t' x', (m t).run step x = some ((.ok a, t'), x') ∧ Rep A' t' (left x')

section
variable {α β : Type}

theorem Steps.goes {m : P St α} {A A' : Abs} {a : α} (h : Steps m A a A') : Goes m A a A' :=
  fun τ step left hd _ => h τ step left hd

theorem Goes.bind {m : P St α} {k : α → P St β} {A A1 A2 : Abs} {a : α} {c : β}
    (h1 : Goes m A a A1) (h2 : Goes (k a) A1 c A2) : Goes (m >>= k) A c A2 := by
  intro τ step left hd hw t x hr
  obtain ⟨t1, x1, e1, r1⟩ := h1 τ step left hd hw t x hr
  obtain ⟨t2, x2, e2, r2⟩ := h2 τ step left hd hw t1 x1 r1
  refine ⟨t2, x2, ?_, r2⟩
  change ((m t).bind _).run step x = _
  rw [Prog.run_bind, e1]
  exact e2

theorem goes_next {body : α → P St (α ⊕ β)} {a a' : α} {f : Nat} {A A1 A2 : Abs} {r : β}
    (h1 : Goes (body a) A (.inl a') A1) (h2 : Goes (P.whileTrue f body a') A1 r A2) :
    Goes (P.whileTrue (f + 1) body a) A r A2 :=
  Goes.bind h1 h2

theorem goes_done {body : α → P St (α ⊕ β)} {a : α} {f : Nat} {A A1 : Abs} {r : β}
    (h1 : Goes (body a) A (.inr r) A1) : Goes (P.whileTrue (f + 1) body a) A r A1 :=
  Goes.bind h1 (Steps.pure r A1).goes

theorem Goes.pure (a : α) (A : Abs) : Goes (Pure.pure a) A a A := (Steps.pure a A).goes
theorem Goes.lift (a : α) (A : Abs) : Goes (P.lift (.ok a)) A a A := (Steps.lift_ok a A).goes
end

/-- A read that goes past the lookahead reader, with nothing held there. -/
theorem goes_transRead (stk : List Ctx) (d : Int) (h r : Bytes) (n : Nat) (hn : h.length = n) :
    Goes (P.transRead n) ⟨stk, d, h ++ r, false⟩ h ⟨stk, d, r, false⟩ := by
  intro τ step left hd hw t x hr
  obtain ⟨h1, h2, h3, h4, h5⟩ := hr
  have h3 : t.hasData = false := h3
  rw [h3] at h5
  simp only [Bool.false_eq_true, if_false, List.nil_append] at h5
  subst hn
  obtain ⟨x', e, hl⟩ := hw h.length x (by rw [h5]; simp)
  rw [h5, List.take_left'] at e
  · rw [h5, List.drop_left' rfl] at hl
    refine ⟨t, x', ?_, ⟨h1, h2, h3, fun hh => absurd (h3.symm.trans hh) nofun, ?_⟩⟩
    · show Prog.run step (.read h.length _) x = _
      rw [Prog.run, e]
      rfl
    · rw [h3, hl]
      rfl
  · rfl

/-! ### Hexadecimal digits -/

theorem hexDigit_val {x : UInt8} (h : HexDigit x) :
    hexVal x.toNat = some (digitValue x) ∧ isSpace x.toNat = false ∧ x.toNat ≠ 45 ∧ x.toNat ≠ 43 ∧
      x.toNat ≠ 120 ∧ x.toNat ≠ 88 ∧ x.toNat < 128 ∧ digitValue x < 16 := by
  unfold HexDigit Digit at h
  unfold hexVal digitValue isSpace
  refine ⟨?_, ?_, by omega, by omega, by omega, by omega, by omega, ?_⟩
  · rcases h with h | h | h
    · rw [if_pos h, if_pos h.2]
    · rw [if_neg (by omega), if_neg (by omega), if_pos h, if_neg (by omega), if_pos h.2]
    · rw [if_neg (by omega), if_pos h, if_neg (by omega), if_neg (by omega)]
  · simp
    omega
  · split
    · omega
    · split <;> omega

theorem pyInt16_hex4 {h : Bytes} {c : Nat} (hh : Hex4 h c) :
    asciiDecode h = .ok (h.map (·.toNat)) ∧ pyInt16 (h.map (·.toNat)) = some (c : Int) ∧ c < 0x10000 := by
  obtain ⟨hl, hd, hv⟩ := hh
  match h, hl with
  | [w, x, y, z], _ =>
    have hw := hexDigit_val (hd w (by simp))
    have hx := hexDigit_val (hd x (by simp))
    have hy := hexDigit_val (hd y (by simp))
    have hz := hexDigit_val (hd z (by simp))
    refine ⟨?_, ?_, ?_⟩
    · unfold asciiDecode
      rw [if_pos]
      simp [hw, hx, hy, hz]
    · simp only [List.map_cons, List.map_nil]
      generalize e1 : digitValue w = dw at *
      generalize e2 : digitValue x = dx at *
      generalize e3 : digitValue y = dy at *
      generalize e4 : digitValue z = dz at *
      have hc : c = (((0 * 16 + dw) * 16 + dx) * 16 + dy) * 16 + dz := by
        rw [← hv, ← e1, ← e2, ← e3, ← e4]
        rfl
      generalize w.toNat = w' at *
      generalize x.toNat = x' at *
      generalize y.toNat = y' at *
      generalize z.toNat = z' at *
      unfold pyInt16
      rw [List.dropWhile_cons, hw.2.1]
      simp only [Bool.false_eq_true, if_false]
      have hp : hexPrefix [w', x', y', z'] = [w', x', y', z'] := by
        unfold hexPrefix
        split
        · rename_i heq
          injection heq with h1 h2
          injection h2 with h2 h3
          subst h2
          rw [if_neg (by rintro (e | e) <;> simp [e] at hx)]
          rw [h1, h3]
        · rfl
      split
      · rename_i heq
        injection heq with h1 h2
        exact absurd h1 hw.2.2.1
      · rename_i heq
        injection heq with h1 h2
        exact absurd h1 hw.2.2.2.1
      · rw [hp]
        simp only [hexDigits, hw.1, hx.1, hy.1, hz.1, if_true, Option.map_some]
        rw [hc]
    · rw [← hv]
      simp only [hexValue, List.foldl]
      omega

/-! ### The characters -/

theorem denotes_next {b : Bytes} {s : PyStr} (h : Denotes b s) :
    ∃ a b' s', b = utf8 a ++ b' ∧ s = a ++ s' ∧ (∀ c ∈ a, Scalar c ∧ 0x80 ≤ c) ∧ Denotes b' s' ∧
      ∀ rest, ∃ c r, b' ++ 34 :: rest = c :: r ∧ c.toNat < 0x80 := by
  induction h with
  | nil => exact ⟨[], [], [], rfl, rfl, by simp, .nil, fun rest => ⟨34, rest, rfl, by decide⟩⟩
  | plain c b s h1 h2 h3 h4 hd ih =>
    by_cases hc : 0x80 ≤ c
    · obtain ⟨a, b', s', rfl, rfl, ha, hd', hn⟩ := ih
      refine ⟨c :: a, b', s', ?_, rfl, ?_, hd', hn⟩
      · rw [utf8_cons c a, List.append_assoc]
      · intro x hx
        rcases List.mem_cons.mp hx with rfl | hx
        · exact ⟨h1, hc⟩
        · exact ha x hx
    · refine ⟨[], _, _, rfl, rfl, by simp, .plain c b s h1 h2 h3 h4 hd, fun rest => ?_⟩
      rw [utf8_ascii (by omega)]
      refine ⟨UInt8.ofNat c, b ++ 34 :: rest, rfl, ?_⟩
      simp only [UInt8.toNat_ofNat']; omega
  | escaped x c b s h hd ih =>
    exact ⟨[], _, _, rfl, rfl, by simp, .escaped x c b s h hd, fun rest => ⟨92, _, rfl, by decide⟩⟩
  | unicode h c b s h1 h2 hd ih =>
    exact ⟨[], _, _, rfl, rfl, by simp, .unicode h c b s h1 h2 hd, fun rest => ⟨92, _, rfl, by decide⟩⟩
  | pair h l hi lo b s h1 h2 h3 h4 hd ih =>
    exact ⟨[], _, _, rfl, rfl, by simp, .pair h l hi lo b s h1 h2 h3 h4 hd, fun rest => ⟨92, _, rfl, by decide⟩⟩

variable (cfg : Cfg)

/-- Backslash and `u`. -/
theorem goes_backslash_u (stk : List Ctx) (d : Int) (fuel : Nat) (a : Acc) (r : Bytes) (p : Bool) {A : Abs}
    {res : Acc ⊕ PyStr}
    (h : Goes (unicodeEscape cfg { a with length := a.length + 1 + 1 }) ⟨stk, d, r, false⟩ res A) :
    Goes (stringBody cfg fuel a) ⟨stk, d, 92 :: 117 :: r, p⟩ res A := by
  unfold stringBody
  refine Goes.bind (steps_read stk d 92 _ p).goes ?_
  rw [if_neg (by decide)]
  refine Goes.bind (Goes.lift 92 _) ?_
  rw [if_pos rfl]
  refine Goes.bind (steps_read stk d 117 _ false).goes ?_
  refine Goes.bind (Goes.lift 117 _) ?_
  rw [if_pos rfl]
  exact h

theorem goes_append (a : Acc) (chars : PyStr) (A : Abs) (h0 : a.high = 0) (hw : Within cfg.stringLimit a.length) :
    Goes (appendChar cfg a chars) A (.inl { a with text := a.text ++ chars }) A := by
  unfold appendChar
  rw [checkLength_ok hw]
  refine Goes.bind (Goes.lift () _) ?_
  rw [if_neg (by simp [h0])]
  exact Goes.pure _ _

theorem goes_chars (stk : List Ctx) (d : Int) (rest : Bytes) (fuel : Nat) :
    ∀ (n : Nat) (b : Bytes) (s : PyStr), b.length < n → Denotes b s →
      ∀ (f : Nat) (pre : PyStr) (len : Nat) (p : Bool),
      b.length < f → b.length < fuel → Within cfg.stringLimit (len + b.length) →
      Goes (P.whileTrue f (stringBody cfg fuel) ⟨0, pre, len⟩) ⟨stk, d, b ++ 34 :: rest, p⟩
        (pre ++ s) ⟨stk, d, rest, false⟩ := by
  intro n
  induction n with
  | zero => intro b s hn; omega
  | succ n ih =>
    intro b s hn hden f pre len p hf hfuel hw
    cases f with
    | zero => omega
    | succ f =>
      cases hden with
      | nil =>
        rw [List.append_nil]
        refine goes_done ?_
        unfold stringBody
        refine Goes.bind (steps_read stk d 34 rest p).goes ?_
        rw [if_pos rfl]
        exact Goes.pure _ _
      | plain c b s h1 h2 h3 h4 hd =>
        obtain ⟨a, b', s', rfl, rfl, ha, hd', hnx⟩ := denotes_next hd
        obtain ⟨z, zs, hz, hzl⟩ := hnx rest
        obtain ⟨y, ys, hy, hy1, hy2, hys⟩ := plain_char h1 ⟨h3, h4⟩
        rw [hy] at hn hf hfuel hw ⊢
        simp only [List.length_append, List.length_cons] at hn hf hfuel hw
        refine goes_next (a' := ⟨0, pre ++ (c :: a), len + 1 + (ys ++ utf8 a).length⟩)
          (A1 := ⟨stk, d, b' ++ 34 :: rest, true⟩) ?_ ?_
        · unfold stringBody
          simp only [List.cons_append, List.append_assoc]
          refine Goes.bind (steps_read stk d y _ p).goes ?_
          rw [if_neg (by simpa using hy1)]
          refine Goes.bind (Goes.lift y.toNat _) ?_
          rw [if_neg hy2]
          refine Goes.bind (a := ([y] ++ (ys ++ utf8 a), len + 1 + (ys ++ utf8 a).length))
            (A1 := ⟨stk, d, z :: zs, true⟩) ?_ ?_
          · rw [UInt8.ofNat_toNat]
            have := steps_utf8 cfg stk d z zs hzl (ys ++ utf8 a) fuel [y] (len + 1) false (by
              intro x hx
              rcases List.mem_append.mp hx with hx | hx
              · exact hys x hx
              · exact utf8_all_high (fun c hc => (ha c hc).1) (fun c hc => (ha c hc).2) x hx)
              (by simp only [List.length_append]; omega) (within_mono hw (by
                simp only [List.length_append]; omega))
            rw [← hz, List.append_assoc] at this
            rw [← hz]
            exact this.goes
          · rw [← hz]
            have hu : [y] ++ (ys ++ utf8 a) = utf8 (c :: a) := by
              rw [utf8_cons, hy]; rfl
            rw [hu, utf8Decode_utf8 (by
              intro x hx
              rcases List.mem_cons.mp hx with rfl | hx
              · exact h1
              · exact (ha x hx).1)]
            refine Goes.bind (Goes.lift (c :: a) _) ?_
            exact goes_append cfg _ _ _ rfl (within_mono hw (by simp only [List.length_append]; omega))
        · have := ih b' s' (by omega) hd' f (pre ++ (c :: a)) (len + 1 + (ys ++ utf8 a).length) true (by omega)
            (by omega) (within_mono hw (by simp only [List.length_append]; omega))
          rw [List.append_assoc] at this
          exact this
      | escaped x c b s hx hd =>
        simp only [List.length_cons] at hn hf hfuel hw
        have hu : x.toNat ≠ 117 ∧ unescape x = some c := by
          have key : ∀ e ∈ escapes, e.1.toNat ≠ 117 ∧ unescape e.1 = some e.2 := by decide +kernel
          exact key (x, c) hx
        refine goes_next (a' := ⟨0, pre ++ [c], len + 1 + 1⟩) (A1 := ⟨stk, d, b ++ 34 :: rest, false⟩) ?_ ?_
        · unfold stringBody
          simp only [List.cons_append]
          refine Goes.bind (steps_read stk d 92 _ p).goes ?_
          rw [if_neg (by decide)]
          refine Goes.bind (Goes.lift 92 _) ?_
          rw [if_pos rfl]
          refine Goes.bind (steps_read stk d x _ false).goes ?_
          refine Goes.bind (Goes.lift x.toNat _) ?_
          rw [if_neg hu.1, UInt8.ofNat_toNat, hu.2]
          exact goes_append cfg _ _ _ rfl (within_mono hw (by simp only; omega))
        · have := ih b s (by omega) hd f (pre ++ [c]) (len + 1 + 1) false (by omega) (by omega)
            (within_mono hw (by omega))
          rw [List.append_assoc] at this
          exact this
      | unicode h c b s hh hc hd =>
        simp only [List.length_cons, List.length_append] at hn hf hfuel hw
        obtain ⟨e1, e2, e3⟩ := pyInt16_hex4 hh
        have hl := hh.1
        refine goes_next (a' := ⟨0, pre ++ [c], len + 1 + 1 + 4⟩) (A1 := ⟨stk, d, b ++ 34 :: rest, false⟩) ?_ ?_
        · simp only [List.cons_append, List.append_assoc]
          refine goes_backslash_u cfg stk d fuel _ _ p ?_
          unfold unicodeEscape
          refine Goes.bind (goes_transRead stk d h _ 4 hl) ?_
          rw [e1]
          refine Goes.bind (Goes.lift _ _) ?_
          rw [e2]
          dsimp only
          rw [if_neg (by omega), if_neg (by omega)]
          have : chr (c : Int) = .ok c := by
            unfold chr
            rw [if_pos (by omega)]
            rfl
          rw [this]
          refine Goes.bind (Goes.lift _ _) ?_
          exact goes_append cfg _ _ _ rfl (within_mono hw (by simp only; omega))
        · have := ih b s (by omega) hd f (pre ++ [c]) (len + 1 + 1 + 4) false (by omega) (by omega)
            (within_mono hw (by omega))
          rw [List.append_assoc] at this
          exact this
      | pair h l hi lo b s hh hl h1 h2 hd =>
        simp only [List.length_cons, List.length_append] at hn hf hfuel hw
        obtain ⟨e1, e2, e3⟩ := pyInt16_hex4 hh
        obtain ⟨g1, g2, g3⟩ := pyInt16_hex4 hl
        have hhl := hh.1
        have hll := hl.1
        cases f with
        | zero => omega
        | succ f =>
        refine goes_next (a' := ⟨(hi : Int), pre, len + 1 + 1 + 4⟩)
          (A1 := ⟨stk, d, 92 :: 117 :: (l ++ (b ++ 34 :: rest)), false⟩) ?_ ?_
        · simp only [List.cons_append, List.append_assoc]
          refine goes_backslash_u cfg stk d fuel _ _ p ?_
          unfold unicodeEscape
          refine Goes.bind (goes_transRead stk d h _ 4 hhl) ?_
          rw [e1]
          refine Goes.bind (Goes.lift _ _) ?_
          rw [e2]
          dsimp only
          rw [if_pos (by omega), if_neg (by simp)]
          exact Goes.pure _ _
        refine goes_next (a' := ⟨0, pre ++ [0x10000 + (hi - 0xD800) * 0x400 + (lo - 0xDC00)],
          len + 1 + 1 + 4 + 1 + 1 + 4⟩) (A1 := ⟨stk, d, b ++ 34 :: rest, false⟩) ?_ ?_
        · refine goes_backslash_u cfg stk d fuel _ _ false ?_
          unfold unicodeEscape
          refine Goes.bind (goes_transRead stk d l _ 4 hll) ?_
          rw [g1]
          refine Goes.bind (Goes.lift _ _) ?_
          rw [g2]
          dsimp only
          rw [if_neg (by omega), if_pos (by omega), if_neg (by omega)]
          have : chr (0x10000 + (hi : Int) % 0x400 * 0x400 + (lo : Int) % 0x400)
              = .ok (0x10000 + (hi - 0xD800) * 0x400 + (lo - 0xDC00)) := by
            unfold chr
            rw [if_pos (by omega), show (0x10000 + (hi : Int) % 0x400 * 0x400 + (lo : Int) % 0x400).toNat
              = 0x10000 + (hi - 0xD800) * 0x400 + (lo - 0xDC00) by omega]
          rw [this]
          refine Goes.bind (Goes.lift _ _) ?_
          exact goes_append cfg _ _ _ rfl (within_mono hw (by simp only; omega))
        · have := ih b s (by omega) hd f (pre ++ [0x10000 + (hi - 0xD800) * 0x400 + (lo - 0xDC00)])
            (len + 1 + 1 + 4 + 1 + 1 + 4) false (by omega) (by omega) (within_mono hw (by omega))
          rw [List.append_assoc] at this
          exact this

end Thrift.Json
