import Verif.Proofs.JsonForeign
import Verif.Proofs.JsonLaws
import Verif.Props.JsonReject
/-
C68: JSON strings of other writers.
-/

namespace Thrift.Json
open Spec Spec.Json Spec.Rfc8259

theorem goes_foreign (cfg : Cfg) (fuel : Nat) (stk : List Ctx) (d : Int) (b : Bytes) (s : PyStr) (rest : Bytes)
    (p : Bool) (hd : Denotes b s) (hf : Fits cfg.stringLimit fuel b.length) :
    Goes (readJSONString cfg fuel) ⟨stk, d, sep stk ++ (quoted b ++ rest), p⟩ s ⟨bump stk, d, rest, false⟩ := by
  unfold readJSONString
  refine Goes.bind (steps_ctx stk d _ p).goes ?_
  unfold readStringBody quoted
  simp only [List.cons_append, List.append_assoc, List.nil_append]
  refine Goes.bind (steps_syntax _ d 34 _ _).goes ?_
  exact goes_chars cfg _ d rest fuel (b.length + 1) b s (by omega) hd fuel [] 0 false hf.2 hf.2 (by simpa using hf.1)

/-- C68: whatever spelling of a string a peer chooses — characters as they are, two-character escapes
including `\/`, `\u` escapes in either case, surrogate pairs — `readString` returns the text that RFC 8259
says it stands for, and consumes exactly the string. Over every transport that answers a request in one
piece while it has enough (see `json_fragmentation_differs` for others). The length limit counts the
bytes of the spelling. -/
theorem json_reads_any_spelling (py : Floats) (cfg : Cfg) (fuel : Nat) (b : Bytes) (s : PyStr) (rest : Bytes)
    (hd : Denotes b s) (hl : Within cfg.stringLimit b.length) (hf : b.length < fuel)
    {τ : Type} (step : Nat → τ → Option (Except Exc Bytes × τ)) (left : τ → Bytes)
    (hdel : DeliversUntil step left) (hw : WholeReads step left) (t : τ) (ht : left t = 34 :: (b ++ 34 :: rest)) :
    ∃ st t', ((rd py cfg fuel).readString {}).run step t = some ((.ok s, st), t') ∧ left t' = rest := by
  obtain ⟨st, t', e, hr⟩ := goes_foreign cfg fuel [.base] 0 b s rest false hd ⟨hl, hf⟩ τ step left hdel hw {} t
    ⟨rfl, rfl, rfl, nofun, by rw [ht]; simp [sep, top, advance, quoted]⟩
  refine ⟨st, t', e, ?_⟩
  have h1 := hr.inp
  have h2 : st.hasData = false := hr.peeked
  rw [h2] at h1
  simpa using h1

/-- The elements of a list, each after a comma. -/
def items (bs : List Bytes) : Bytes := bs.flatMap fun b => 44 :: 34 :: (b ++ [34])

theorem goes_items (py : Floats) (cfg : Cfg) (fuel : Nat) (sch : Schema) (mode : Mode) (d : Int) (rest : Bytes) (stk : List Ctx) (f : Nat) :
    ∀ (bs : List Bytes) (ss : List PyStr), bs.length = ss.length →
      (∀ x ∈ bs.zip ss, Denotes x.1 x.2 ∧ Within cfg.stringLimit x.1.length ∧ x.1.length < fuel) → ∀ p,
      ∃ p', Goes (P.repeatN bs.length (readVal (rd py cfg fuel) sch mode f .string))
        ⟨.list false :: stk, d, items bs ++ 93 :: rest, p⟩ (ss.map Val.str)
        ⟨.list false :: stk, d, 93 :: rest, p'⟩ := by
  intro bs
  induction bs with
  | nil =>
    intro ss hlen _ p
    cases ss with
    | nil => exact ⟨p, Goes.pure _ _⟩
    | cons => simp at hlen
  | cons b bs ih =>
    intro ss hlen hall p
    cases ss with
    | nil => simp at hlen
    | cons s ss =>
      have h := hall (b, s) (by simp)
      obtain ⟨p', hp'⟩ := ih ss (by simpa using hlen) (fun x hx => hall x (by simp [hx])) false
      refine ⟨p', ?_⟩
      have e : items (b :: bs) ++ 93 :: rest = sep (.list false :: stk) ++ (quoted b ++ (items bs ++ 93 :: rest)) := by
        simp [items, sep, top, advance, quoted]
      rw [e]
      refine Goes.bind (a := Val.str s) (A1 := ⟨.list false :: stk, d, items bs ++ 93 :: rest, false⟩) ?_ ?_
      · unfold readVal
        exact Goes.bind (goes_foreign cfg fuel (.list false :: stk) d b s _ p h.1 h.2) (Goes.pure _ _)
      · exact Goes.bind hp' (Goes.pure _ _)

/-- The same inside a document: a list of strings, each in a spelling of its own. -/
theorem json_reads_any_list (py : Floats) (cfg : Cfg) (fuel : Nat) (sch : Schema) (mode : Mode)
    (bs : List Bytes) (ss : List PyStr) (rest : Bytes) (hlen : bs.length = ss.length)
    (hall : ∀ x ∈ bs.zip ss, Denotes x.1 x.2 ∧ Within cfg.stringLimit x.1.length ∧ x.1.length < fuel)
    (hs : Within cfg.stringLimit 3) (hn : Within cfg.stringLimit (decimal bs.length).length)
    (hf : 3 < fuel ∧ (decimal bs.length).length < fuel)
    {τ : Type} (step : Nat → τ → Option (Except Exc Bytes × τ)) (left : τ → Bytes)
    (hdel : DeliversUntil step left) (hw : WholeReads step left) (t : τ)
    (ht : left t = [91, 34, 115, 116, 114, 34, 44] ++ decimal bs.length ++ items bs ++ 93 :: rest) :
    ∃ st t', ((readVal (rd py cfg fuel) sch mode (fuel + 1) (.list .string)) {}).run step t
      = some ((.ok (.list (ss.map Val.str)), st), t') ∧ left t' = rest := by
  rw [← intDigits_eq] at hn hf ht
  have hd : Goes (readVal (rd py cfg fuel) sch mode (fuel + 1) (.list .string))
      ⟨[.base], 0, [91, 34, 115, 116, 114, 34, 44] ++ intDigits bs.length ++ items bs ++ 93 :: rest, false⟩
      (.list (ss.map Val.str)) ⟨[.base], 0, rest, false⟩ := by
    rw [readVal]
    refine Goes.bind (a := (TType.STRING, (bs.length : Int))) (A1 := ⟨[.list false, .base], 0, items bs ++ 93 :: rest, true⟩) ?_ ?_
    · show Goes (readCollectionBegin cfg fuel) _ _ _
      unfold readCollectionBegin
      simp only [List.cons_append, List.nil_append, List.append_assoc]
      refine Goes.bind (steps_arrayStart [.base] 0 _ false).goes ?_
      refine Goes.bind (a := TType.STRING) (A1 := ⟨[.list false, .base], 0, 44 :: (intDigits bs.length ++ (items bs ++ 93 :: rest)), false⟩) ?_ ?_
      · unfold readType
        refine Goes.bind (a := [115, 116, 114]) ?_ (Goes.lift _ _)
        exact (steps_string cfg fuel [.list true, .base] 0 [115, 116, 114] _ false (by
          intro c hc
          simp at hc
          rcases hc with rfl | rfl | rfl <;> (unfold Scalar; omega)) ⟨hs, hf.1⟩).goes
      · refine Goes.bind (steps_integer cfg fuel [.list false, .base] 0 (bs.length : Int) (items bs ++ 93 :: rest) false
          (by simp [top]) ?_ ⟨hn, hf.2⟩).goes (Goes.pure _ _)
        intro _ _
        cases bs with
        | nil => exact ⟨93, rest, rfl, rfl⟩
        | cons b bs => exact ⟨44, _, rfl, rfl⟩
    · obtain ⟨p', h⟩ := goes_items py cfg fuel sch mode 0 rest [.base] fuel bs ss hlen hall true
      refine Goes.bind h ?_
      exact Goes.bind (steps_arrayEnd _ [.base] 0 rest p').goes (Goes.pure _ _)
  obtain ⟨st, t', e, hr⟩ := hd τ step left hdel hw {} t ⟨rfl, rfl, rfl, nofun, by rw [ht]; simp⟩
  refine ⟨st, t', e, ?_⟩
  have h1 := hr.inp
  have h2 : st.hasData = false := hr.peeked
  rw [h2] at h1
  simpa using h1

/-- A UUID has 32 hexadecimal digits: with more or fewer, `readUuid` raises `ValueError`. -/
theorem json_uuid_digits (py : Floats) (cfg : Cfg) (fuel : Nat) (b : Bytes) (rest : Bytes)
    (hh : ∀ x ∈ b, HexDigit x) (hlen : b.length ≠ 32) (hl : Within cfg.stringLimit b.length) (hf : b.length < fuel)
    {τ : Type} (step : Nat → τ → Option (Except Exc Bytes × τ)) (left : τ → Bytes)
    (hdel : DeliversUntil step left) (hw : WholeReads step left) (t : τ) (ht : left t = 34 :: (b ++ 34 :: rest)) :
    ∃ st t', ((rd py cfg fuel).readUuid {}).run step t = some ((.error .valueError, st), t') := by
  have hden : ∀ b : Bytes, (∀ x ∈ b, HexDigit x) → Denotes b (b.map (·.toNat)) := by
    intro b
    induction b with
    | nil => exact fun _ => .nil
    | cons x b ih =>
      intro h
      have hx := h x (by simp)
      unfold HexDigit Digit at hx
      have := Denotes.plain x.toNat b _ (by unfold Scalar; omega) (by omega) (by omega) (by omega)
        (ih fun y hy => h y (by simp [hy]))
      rwa [utf8_ascii (by omega), UInt8.ofNat_toNat] at this
  obtain ⟨st, t', e, -⟩ := goes_foreign cfg fuel [.base] 0 b _ rest false (hden b hh) ⟨hl, hf⟩ τ step left hdel hw {} t
    ⟨rfl, rfl, rfl, nofun, by rw [ht]; simp [sep, top, advance, quoted]⟩
  refine ⟨st, t', ?_⟩
  have hno : ∀ x : Nat, x = 58 ∨ x = 123 ∨ x = 125 ∨ x = 45 → x ∉ b.map (·.toNat) := by
    intro x hx hm
    obtain ⟨y, hy, rfl⟩ := List.mem_map.mp hm
    have := hh y hy
    unfold HexDigit Digit at this
    omega
  have hp : parseUuid (b.map (·.toNat)) = none := by
    unfold parseUuid
    rw [removeAll_id _ _ 58 (by simp) (hno 58 (by simp)), removeAll_id _ _ 58 (by simp) (hno 58 (by simp)),
      stripBraces_id _ (fun c hm => ⟨fun e => hno 123 (by simp) (e ▸ hm), fun e => hno 125 (by simp) (e ▸ hm)⟩),
      removeAll_id _ _ 45 (by simp) (hno 45 (by simp))]
    dsimp only
    rw [if_pos (by simpa using hlen)]
  show ((readJSONString cfg fuel >>= _ : P St Bytes) {}).run step t = _
  change ((readJSONString cfg fuel {}).bind _).run step t = _
  rw [Prog.run_bind, e]
  dsimp only
  rw [hp]
  rfl

theorem memStep_whole : WholeReads memStep id := fun n b _ => ⟨b.drop n, rfl, rfl⟩

/-- `A\/é😀é` in two spellings of digits. -/
example : Denotes ([65, 0x5C, 0x2F, 0x5C, 0x75, 48, 48, 101, 57, 0x5C, 0x75, 100, 56, 51, 68, 0x5C, 0x75, 68, 69, 48, 48,
    0xC3, 0xA9]) [65, 47, 0xE9, 0x1F600, 0xE9] := by
  refine .plain 65 _ _ (by unfold Scalar; omega) (by omega) (by omega) (by omega) ?_
  refine .escaped 0x2F 47 _ _ (by decide) ?_
  refine .unicode [48, 48, 101, 57] 0xE9 _ _ ⟨rfl, ?_, rfl⟩ (by omega) ?_
  · intro x hx
    simp at hx
    unfold HexDigit Digit
    rcases hx with rfl | rfl | rfl <;> decide
  refine .pair [100, 56, 51, 68] [68, 69, 48, 48] 0xD83D 0xDE00 _ _ ⟨rfl, ?_, rfl⟩ ⟨rfl, ?_, rfl⟩ (by omega) (by omega) ?_
  · intro x hx
    simp at hx
    unfold HexDigit Digit
    rcases hx with rfl | rfl | rfl | rfl <;> decide
  · intro x hx
    simp at hx
    unfold HexDigit Digit
    rcases hx with rfl | rfl | rfl <;> decide
  exact .plain 0xE9 [] _ (by unfold Scalar; omega) (by omega) (by omega) (by omega) .nil

/-- A memory buffer meets the hypotheses on the transport. -/
example : DeliversUntil memStep id ∧ WholeReads memStep id := ⟨memStep_until, memStep_whole⟩

end Thrift.Json
