import Verif.Props.Json
import Verif.Proofs.JsonFail
/-
What `TJSONProtocol` writes as JSON (C09), the doubles it loses (C06), strings that arrive in pieces (C16),
lengths (C12) and foreign versions (C11).
-/

namespace Thrift.Json
open Spec Spec.Json

/-! ## Well-formed documents -/

/-- C09, as far as it is true: a value that is not a number, with finite doubles and without raw control
characters in its texts, is written as a text of RFC 8259.

Missing: values with infinities, NaNs or control characters other than backspace, tab, line feed, form feed
and carriage return (see `json_nonfinite_invalid` and `json_control_invalid`). -/
theorem json_wellformed_partial (py : Floats) (mode : Mode) (sch : Schema) (t : Ty) (v : Val) (s : St) (out : Bytes)
    (hnum : ∀ x, Finite x → Rfc8259.Number (py.fmt17 x))
    (hs : SchemaOK mode sch) (hv : WT sch t v) (ht : isNumber t = false) (h0 : s.stack = [.base])
    (hd : mode = .gen → s.depth + structDepth v ≤ 64) (hfin : Doubles Finite v) (hc : Strings Clean v) :
    ∃ b, writeVal (wr py) sch mode t v s out = (.ok (), s, out ++ b) ∧ Rfc8259.Text b :=
  ⟨_, json_wire_format py mode sch t v s out hs hv ht h0 hd,
    text_of_value (render_value _ (tree_lexical py.fmt17 sch hnum v t hv hfin hc))⟩

example : ∃ b, writeVal (wr Sample.py) Sample.sch .gen (.struct 0) Sample.value {} [] = (.ok (), {}, [] ++ b) ∧
    Rfc8259.Text b :=
  json_wellformed_partial Sample.py .gen Sample.sch (.struct 0) Sample.value {} [] Sample.py_faithful.number
    Sample.sch_ok Sample.value_wt rfl rfl (fun _ => by decide) Sample.value_finite Sample.value_clean

/-- C09, messages: the same for a message. -/
theorem json_message_wellformed_partial (py : Floats) (mode : Mode) (sch : Schema) (sid : Nat) (v : Val) (name : PyStr)
    (type seqid : Int) (s : St) (out : Bytes) (hnum : ∀ x, Finite x → Rfc8259.Number (py.fmt17 x))
    (hn : ∀ c ∈ name, Scalar c) (hc' : Clean name) (hs : SchemaOK mode sch)
    (hv : WT sch (.struct sid) v) (hd : mode = .gen → s.depth + structDepth v ≤ 64)
    (hfin : Doubles Finite v) (hc : Strings Clean v) :
    ∃ b, (do
      writeMessageBegin name type seqid
      writeVal (wr py) sch mode (.struct sid) v
      writeMessageEnd) s out = (.ok (), { s with stack := [.base] }, out ++ b) ∧ Rfc8259.Text b := by
  refine ⟨_, json_message_write py mode sch sid v name type seqid s out hn hs hv hd,
    text_of_value (render_value _ ?_)⟩
  simp only [message, Lexical, LexicalItems]
  refine ⟨?_, chars_escaped hn hc', number_decimal _, number_decimal _, tree_lexical py.fmt17 sch hnum v _ hv hfin hc,
    trivial⟩
  rw [show ascii "1" = decimal 1 by decide +kernel]
  exact number_decimal 1

example : ∃ b, (do
      writeMessageBegin [0x70, 0x69, 0x6E, 0x67] 1 (-3)
      writeVal (wr Sample.py) Sample.sch .gen (.struct 0) Sample.value
      writeMessageEnd : W St Unit) {} [] = (.ok (), {}, [] ++ b) ∧ Rfc8259.Text b :=
  json_message_wellformed_partial Sample.py .gen Sample.sch 0 Sample.value [0x70, 0x69, 0x6E, 0x67] 1 (-3) {} []
    Sample.py_faithful.number (by decide) (by unfold Clean; decide) Sample.sch_ok Sample.value_wt (fun _ => by decide)
    Sample.value_finite Sample.value_clean

/-- C09 is false for texts with other control characters: they are written as they are, which no JSON text
allows. -/
theorem json_control_invalid (py : Floats) (mode : Mode) (sch : Schema) (text : PyStr) (c : Nat) (s : St) (out : Bytes)
    (hs : SchemaOK mode sch) (hv : TextOK text) (h0 : s.stack = [.base]) (hd : s.depth ≤ 64)
    (hm : c ∈ text) (hc : c < 0x20) (hc' : c ∉ [0x08, 0x09, 0x0A, 0x0C, 0x0D]) :
    ∃ b, writeVal (wr py) sch mode .string (.str text) s out = (.ok (), s, out ++ b) ∧ ¬ Rfc8259.Text b := by
  refine ⟨_, json_wire_format py mode sch .string (.str text) s out hs (by simpa only [WT] using hv) rfl h0
    (fun _ => by simpa [structDepth] using hd), fun ht => ?_⟩
  have hp := printable_text ht
  simp only [List.mem_cons, List.not_mem_nil, or_false, not_or] at hc'
  have he : escapedChar c = [UInt8.ofNat c] := by
    rw [escapedChar_plain (by omega), utf8_ascii (by omega)]
  have hmem : UInt8.ofNat c ∈ value py.fmt17 sch .string (.str text) := by
    simp only [value, tree, render, quoted, List.mem_cons, List.mem_append]
    refine .inr (.inl ?_)
    unfold escaped
    rw [List.mem_flatMap]
    exact ⟨c, hm, by rw [he]; simp⟩
  have hn : (UInt8.ofNat c).toNat = c := by
    rw [UInt8.toNat_ofNat']
    omega
  rcases hp _ hmem with h | h | h | h
  · omega
  all_goals
    have := congrArg UInt8.toNat h
    rw [hn] at this
    simp only [UInt8.reduceToNat] at this
    omega

/-- The vertical tab. -/
example : ∃ b, writeVal (wr Sample.py) Sample.sch .gen .string (.str [0x61, 0x0B]) {} [] = (.ok (), {}, [] ++ b) ∧
    ¬ Rfc8259.Text b :=
  json_control_invalid Sample.py .gen Sample.sch [0x61, 0x0B] 0x0B {} [] Sample.sch_ok (by decide) rfl (by decide)
    (by decide) (by decide) (by decide)

theorem list_double_eq (fmt : UInt64 → Bytes) (sch : Schema) (x : UInt64) :
    value fmt sch (.list .double) (.list [.double x]) = ascii "[\"dbl\",1," ++ (fmt x ++ ascii "]") := by
  have h1 : decimal ([Val.double x].length : Int) = ascii "1" := by
    rw [List.length_singleton]; decide +kernel
  have h2 : ascii "[\"dbl\",1," = 91 :: (quoted (ascii "dbl") ++ 44 :: (ascii "1" ++ [44])) := by decide +kernel
  have h3 : ascii "]" = [93] := by decide +kernel
  rw [h2, h3]
  simp only [value, tree, trees, render, renderItems, h1, Spec.Json.typeName]
  simp

/-- C09 is false for infinities and NaNs: Python's words for them are not JSON. -/
theorem json_nonfinite_invalid (py : Floats) (mode : Mode) (sch : Schema) (x : UInt64) (s : St) (out : Bytes)
    (hpy : Words py.fmt17 py.parse) (hs : SchemaOK mode sch) (h0 : s.stack = [.base]) (hd : s.depth ≤ 64)
    (hx : ¬ Finite x) :
    ∃ b, writeVal (wr py) sch mode (.list .double) (.list [.double x]) s out = (.ok (), s, out ++ b) ∧
      ¬ Rfc8259.Text b := by
  refine ⟨_, json_wire_format py mode sch _ (.list [.double x]) s out hs (by simp [WT, WTs]) rfl h0
    (fun _ => by simpa [structDepth, structDepths] using hd), fun ht => ?_⟩
  have hp := passes_text ht []
  rw [list_double_eq, List.append_nil] at hp
  rcases hpy.word x hx with h | h | h
  all_goals
    rw [h] at hp
    revert hp
    decide +kernel

theorem Sample.py_words : Words Sample.py.fmt17 Sample.py.parse := by
  refine ⟨fun x hx => ?_, by decide +kernel, by decide +kernel⟩
  change Sample.fmt x = _ ∨ Sample.fmt x = _ ∨ Sample.fmt x = _
  unfold Sample.fmt
  rw [if_neg hx]
  split
  · exact .inl rfl
  · split
    · exact .inr (.inl rfl)
    · exact .inr (.inr rfl)

example : ∃ b, writeVal (wr Sample.py) Sample.sch .gen (.list .double) (.list [.double 0x7FF0000000000000]) {} [] =
    (.ok (), {}, [] ++ b) ∧ ¬ Rfc8259.Text b :=
  json_nonfinite_invalid Sample.py .gen Sample.sch _ {} [] Sample.py_words Sample.sch_ok rfl (by decide) (by decide)

/-! ## Doubles that are lost -/

/-- C06 is false for infinities and NaNs: what the writer produced for a list with one of them raises
`TProtocolException(INVALID_DATA)` in the reader, over every transport. -/
theorem json_nonfinite_lost (py : Floats) (cfg : Cfg) (mode : Mode) (sch : Schema) (x : UInt64) (s : St) (fuel : Nat)
    (hpy : Words py.fmt17 py.parse) (hx : ¬ Finite x) (h0 : s.stack = [.base] ∧ s.hasData = false)
    (hf : 3 < fuel) (hl : Within cfg.stringLimit 3)
    {τ : Type} (step : Nat → τ → Option (Except Exc Bytes × τ)) (left : τ → Bytes) (hdel : DeliversUntil step left)
    (t : τ) (rest : Bytes) (ht : left t = value py.fmt17 sch (.list .double) (.list [.double x]) ++ rest) :
    ∃ s' t', (readVal (rd py cfg fuel) sch mode fuel (.list .double) s).run step t =
      some ((.error TProtocolException.INVALID_DATA, s'), t') := by
  obtain ⟨hstk, hdat⟩ := h0
  have hsub : ∀ n, n ≤ 3 → Fits cfg.stringLimit fuel n := fun n hn => ⟨within_mono hl hn, by omega⟩
  have h := holds_collection cfg fuel hdat (e := TType.DOUBLE) (isTType_ttype .double) 1
    (hsub _ (by decide +kernel)) (hsub _ (by decide +kernel))
  have hb : value py.fmt17 sch (.list .double) (.list [.double x]) ++ rest =
      primsBytes s.stack [.opn 91 (.list true), .str (nameOf TType.DOUBLE), .num (intDigits 1)] ++
        (sep [.list false, .base] ++ (py.fmt17 x ++ (93 :: rest))) := by
    rw [list_double_eq, hstk, show primsBytes [Ctx.base] [.opn 91 (.list true), .str (nameOf TType.DOUBLE),
        .num (intDigits 1)] ++ (sep [.list false, .base] ++ (py.fmt17 x ++ 93 :: rest)) =
        (primsBytes [Ctx.base] [.opn 91 (.list true), .str (nameOf TType.DOUBLE), .num (intDigits 1)] ++
        sep [.list false, .base]) ++ (py.fmt17 x ++ 93 :: rest) by simp,
      show primsBytes [Ctx.base] [.opn 91 (.list true), .str (nameOf TType.DOUBLE), .num (intDigits 1)] ++
        sep [.list false, .base] = ascii "[\"dbl\",1," by decide +kernel,
      show ascii "]" = [93] by decide +kernel]
    simp
  have hfol : Follow { s with stack := primsStep s.stack [.opn 91 (.list true), .str (nameOf TType.DOUBLE),
      .num (intDigits 1)] } (sep [.list false, .base] ++ (py.fmt17 x ++ (93 :: rest))) :=
    ⟨fun hh => by simp [hdat] at hh, fun _ _ => ⟨44, _, rfl, rfl⟩⟩
  obtain ⟨p', -, h1⟩ := h.2 _ false hfol (fun _ => rfl)
  have h2 := fails_double py cfg fuel [.list false, .base] s.depth x (93 :: rest) p' hpy hx rfl (hsub 1 (by omega))
  rw [hstk] at h1
  cases fuel with
  | zero => omega
  | succ f =>
    have h3 : Fails (P.repeatN (1 : Int).toNat (readVal (rd py cfg (f + 1)) sch mode f .double))
        ⟨[.list false, .base], s.depth, sep [.list false, .base] ++ (py.fmt17 x ++ (93 :: rest)), p'⟩
        TProtocolException.INVALID_DATA := by
      have : readVal (rd py cfg (f + 1)) sch mode f .double =
          (do let d ← readJSONDouble py cfg (f + 1); pure (.double d)) := by
        cases f <;> rfl
      rw [this]
      exact Fails.Pbind (Fails.bind h2)
    have hfail : Fails (readVal (rd py cfg (f + 1)) sch mode (f + 1) (.list .double)) _
        TProtocolException.INVALID_DATA :=
      Steps.fails h1 (k := fun r : Int × Int => do
        let vs ← P.repeatN r.2.toNat (readVal (rd py cfg (f + 1)) sch mode f .double)
        readJSONArrayEnd
        pure (Val.list vs)) (Fails.bind h3)
    refine hfail τ step left hdel s t ⟨hstk, rfl, hdat, by simp [hdat], ?_⟩
    rw [hdat, ht, hb, hstk]
    rfl

example : ∃ s' t', (readVal (rd Sample.py {} 10) Sample.sch .gen 10 (.list .double) {}).run bytewise
    (value Sample.py.fmt17 Sample.sch (.list .double) (.list [.double 0x7FF0000000000000]) ++ []) =
      some ((.error TProtocolException.INVALID_DATA, s'), t') :=
  json_nonfinite_lost Sample.py {} .gen Sample.sch _ {} 10 Sample.py_words (by decide) ⟨rfl, rfl⟩ (by decide)
    (fun _ h => by cases h) bytewise id bytewise_delivers.until _ [] rfl

end Thrift.Json
