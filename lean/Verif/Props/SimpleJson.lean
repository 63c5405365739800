import Verif.Proofs.SimpleJson
import Verif.Props.JsonText
/-
What `TSimpleJSONProtocol` writes (C66).
-/

namespace Thrift.SimpleJson
open Json Spec Spec.Json

theorem namesFit {names : FieldNames} {sch : Schema} (h : Spec.SimpleJson.NamesOK names sch) : NamesFit names sch :=
  fun sid => ⟨(h sid).1, fun n hn c hc => by have := (h sid).2.2 n hn c hc; unfold Scalar; omega⟩

/-- C66: a well-typed value is written as the plain JSON document that stands for it, and the protocol object
is left as it was. -/
theorem simple_wire_format (py : Floats) (names : FieldNames) (mode : Mode) (sch : Schema) (t : Ty) (v : Val) (s : St)
    (out : Bytes) (hs : SchemaOK mode sch) (hn : Spec.SimpleJson.NamesOK names sch) (hv : WT sch t v)
    (h0 : s.stack = [.base]) (hd : mode = .gen → s.depth + structDepth v ≤ 64) :
    writeVal py names sch mode t v s out = (.ok (), s, out ++ Spec.SimpleJson.value py.fmt names sch t v) := by
  have h := puts_value py names sch mode hs (namesFit hn) v t [.base] s.depth hv hd (fun _ => rfl) s out h0 rfl
  rw [h]
  have e : { s with stack := bump [Ctx.base] } = s := by
    cases s
    simp only at h0
    subst h0
    rfl
  rw [e]
  rfl

/-- C66, messages: the envelope adds nothing, and the contexts that an earlier, failed message left behind do not
matter. -/
theorem simple_message (py : Floats) (names : FieldNames) (mode : Mode) (sch : Schema) (sid : Nat) (v : Val)
    (name : PyStr) (type seqid : Int) (s : St) (out : Bytes) (hs : SchemaOK mode sch)
    (hn : Spec.SimpleJson.NamesOK names sch) (hv : WT sch (.struct sid) v)
    (hd : mode = .gen → s.depth + structDepth v ≤ 64) :
    (do
      writeMessageBegin name type seqid
      writeVal py names sch mode (.struct sid) v
      writeMessageEnd) s out = (.ok (), { s with stack := [.base] },
        out ++ Spec.SimpleJson.value py.fmt names sch (.struct sid) v) := by
  have h := simple_wire_format py names mode sch (.struct sid) v { s with stack := [.base] } out hs hn hv rfl hd
  rw [W.bind_ok (show writeMessageBegin name type seqid s out = (.ok (), { s with stack := [.base] }, out) from rfl),
    W.bind_ok h]
  rfl

namespace Sample

/-- Names of the fields of the sample struct. -/
def names : FieldNames
  | 0 => [lit "next", lit "lines", lit "blobs", lit "ids", lit "weight", lit "flags"]
  | _ => []

theorem names_ok : Spec.SimpleJson.NamesOK names Json.Sample.sch := by
  intro sid
  match sid with
  | 0 => exact ⟨rfl, by decide +kernel, by decide +kernel⟩
  | _ + 1 => exact ⟨rfl, by simp [names], by simp [names]⟩

/-- The document of the struct with a number and a map. -/
theorem inner_text : Spec.SimpleJson.value Json.Sample.py.fmt names Json.Sample.sch (.struct 0) Json.Sample.inner =
    ascii "{\"weight\":0,\"flags\":{\"\\\"\\\\\":1}}" := by decide +kernel

end Sample

example : writeVal Json.Sample.py Sample.names Json.Sample.sch .gen (.struct 0) Json.Sample.value {} [7] =
    (.ok (), {}, [7] ++ Spec.SimpleJson.value Json.Sample.py.fmt Sample.names Json.Sample.sch (.struct 0)
      Json.Sample.value) :=
  simple_wire_format Json.Sample.py Sample.names .gen Json.Sample.sch (.struct 0) Json.Sample.value {} [7]
    Json.Sample.sch_ok Sample.names_ok Json.Sample.value_wt rfl (fun _ => by decide)

example : (do
      writeMessageBegin [0x70] 1 5
      writeVal Json.Sample.py Sample.names Json.Sample.sch .gen (.struct 0) Json.Sample.value
      writeMessageEnd : W St Unit) { stack := [.pair false true, .list false] } [] =
    (.ok (), { stack := [.base] }, [] ++ Spec.SimpleJson.value Json.Sample.py.fmt Sample.names Json.Sample.sch
      (.struct 0) Json.Sample.value) :=
  simple_message Json.Sample.py Sample.names .gen Json.Sample.sch 0 Json.Sample.value [0x70] 1 5
    { stack := [.pair false true, .list false] } [] Json.Sample.sch_ok Sample.names_ok Json.Sample.value_wt
    (fun _ => by decide)

/-- C66, as far as it is true: with finite doubles and without raw control characters the document is a text of
RFC 8259.

Missing: infinities and NaNs, other control characters, and maps whose keys are not scalars (see
`simple_nonfinite_invalid`, `simple_control_invalid`, `simple_compound_key_invalid`). -/
theorem simple_wellformed_partial (py : Floats) (names : FieldNames) (mode : Mode) (sch : Schema) (t : Ty) (v : Val)
    (s : St) (out : Bytes) (hnum : ∀ x, Finite x → Rfc8259.Number (py.fmt x)) (hs : SchemaOK mode sch)
    (hn : Spec.SimpleJson.NamesOK names sch) (hv : WT sch t v) (h0 : s.stack = [.base])
    (hd : mode = .gen → s.depth + structDepth v ≤ 64) (hfin : Doubles Finite v) (hc : Strings Clean v) :
    ∃ b, writeVal py names sch mode t v s out = (.ok (), s, out ++ b) ∧ Rfc8259.Text b :=
  ⟨_, simple_wire_format py names mode sch t v s out hs hn hv h0 hd,
    text_of_value (render_value _ (tree_lexical py.fmt names sch hnum (fun sid => (hn sid).2.2) v t hv hfin hc))⟩

example : ∃ b, writeVal Json.Sample.py Sample.names Json.Sample.sch .gen (.struct 0) Json.Sample.value {} [] =
    (.ok (), {}, [] ++ b) ∧ Rfc8259.Text b :=
  simple_wellformed_partial Json.Sample.py Sample.names .gen Json.Sample.sch (.struct 0) Json.Sample.value {} []
    Json.Sample.py_faithful.number Json.Sample.sch_ok Sample.names_ok Json.Sample.value_wt rfl (fun _ => by decide)
    Json.Sample.value_finite Json.Sample.value_clean

/-- C66: no object of the document has two members of the same name, so nothing a JSON reader keeps only once is
lost. -/
theorem simple_names_unique (py : Floats) (names : FieldNames) (sch : Schema) (t : Ty) (v : Val)
    (hpy : Faithful py.fmt py.parse) (hn : Spec.SimpleJson.NamesOK names sch) (hv : WT sch t v)
    (hfin : Doubles Finite v) (hdup : NoDuplicates v) :
    Spec.SimpleJson.Unique (Spec.SimpleJson.tree py.fmt names sch t v) :=
  tree_unique py.fmt py.parse names sch hpy hn v t hv hfin hdup

example : Spec.SimpleJson.Unique (Spec.SimpleJson.tree Json.Sample.py.fmt Sample.names Json.Sample.sch (.struct 0)
    Json.Sample.value) :=
  simple_names_unique Json.Sample.py Sample.names Json.Sample.sch (.struct 0) Json.Sample.value
    ⟨Json.Sample.py_faithful.number, Json.Sample.py_faithful.parse⟩ Sample.names_ok Json.Sample.value_wt
    Json.Sample.value_finite Json.Sample.value_noDup

/-- C66 is false for maps whose keys are structs or containers (immutable structs, tuples and frozen sets can be
keys): an object is written whose names are not strings. -/
theorem simple_compound_key_invalid (py : Floats) (names : FieldNames) (mode : Mode) (sch : Schema) (k v : Ty)
    (x y : Val) (kvs : List (Val × Val)) (s : St) (out : Bytes) (hs : SchemaOK mode sch)
    (hn : Spec.SimpleJson.NamesOK names sch) (hk : k.hashable = false) (hv : WTp sch k v ((x, y) :: kvs))
    (h0 : s.stack = [.base]) (hd : mode = .gen → s.depth + structDepthp ((x, y) :: kvs) ≤ 64) :
    ∃ b, writeVal py names sch mode (.map k v) (.map ((x, y) :: kvs)) s out = (.ok (), s, out ++ b) ∧
      ¬ Rfc8259.Text b := by
  obtain ⟨a', b, h1, h2⟩ := puts_compound py names sch mode hs (namesFit hn) k v hk [.base] s.depth ((x, y) :: kvs)
    true hv hd
  obtain ⟨b', rfl⟩ := h2 x y kvs rfl
  have h := ((puts_openObject [.base] s.depth).bind (h1.bind (puts_closeObject _ _ s.depth))) s out h0 rfl
  have e : { s with stack := [Ctx.base] } = s := by
    cases s
    simp only at h0
    subst h0
    rfl
  refine ⟨_, by simp only [writeVal]; rw [h, e], ?_⟩
  · have hx : ∃ c r, render (Spec.SimpleJson.tree py.fmt names sch k x) = c :: r ∧ (c = 123 ∨ c = 91) := by
      simp only [WTp] at hv
      cases k <;> simp [Ty.hashable] at hk <;> cases x <;> simp only [WT, false_and] at hv
      · exact ⟨91, _, by simp only [Spec.SimpleJson.tree, render_arr']; rfl, .inr rfl⟩
      · exact ⟨91, _, by simp only [Spec.SimpleJson.tree, render_arr']; rfl, .inr rfl⟩
      · exact ⟨123, _, by simp only [Spec.SimpleJson.tree, render_obj]; rfl, .inl rfl⟩
      · exact ⟨123, _, by simp only [Spec.SimpleJson.tree, render_obj]; rfl, .inl rfl⟩
    obtain ⟨c, r, e, hc⟩ := hx
    rw [e]
    intro ht
    have hb := text_brace (x := c) (b := r ++ (b' ++ [125])) (by simpa [sep, advance, top] using ht)
    unfold AfterBrace at hb
    rcases hc with rfl | rfl <;> simp at hb

/-- The map that takes a list of two numbers to a flag. -/
example : ∃ b, writeVal Json.Sample.py Sample.names Json.Sample.sch .gen (.map (.list .i32) .bool)
    (.map [(.list [.int 1, .int 2], .bool true)]) {} [] = (.ok (), {}, [] ++ b) ∧ ¬ Rfc8259.Text b :=
  simple_compound_key_invalid Json.Sample.py Sample.names .gen Json.Sample.sch (.list .i32) .bool
    (.list [.int 1, .int 2]) (.bool true) [] {} [] Json.Sample.sch_ok Sample.names_ok rfl
    (by simp only [WTp, WT, WTs]; decide) rfl (fun _ => by decide)

/-- C66 is false for texts with control characters other than backspace, tab, line feed, form feed and carriage
return. -/
theorem simple_control_invalid (py : Floats) (names : FieldNames) (mode : Mode) (sch : Schema) (text : PyStr) (c : Nat)
    (s : St) (out : Bytes) (hs : SchemaOK mode sch) (hn : Spec.SimpleJson.NamesOK names sch) (hv : TextOK text)
    (h0 : s.stack = [.base]) (hd : s.depth ≤ 64) (hm : c ∈ text) (hc : c < 0x20)
    (hc' : c ∉ [0x08, 0x09, 0x0A, 0x0C, 0x0D]) :
    ∃ b, writeVal py names sch mode .string (.str text) s out = (.ok (), s, out ++ b) ∧ ¬ Rfc8259.Text b := by
  refine ⟨_, simple_wire_format py names mode sch .string (.str text) s out hs hn (by simpa only [WT] using hv) h0
    (fun _ => by simpa [structDepth] using hd), fun ht => ?_⟩
  have hp := printable_text ht
  simp only [List.mem_cons, List.not_mem_nil, or_false, not_or] at hc'
  have he : escapedChar c = [UInt8.ofNat c] := by
    rw [escapedChar_plain (by omega), utf8_ascii (by omega)]
  have hmem : UInt8.ofNat c ∈ Spec.SimpleJson.value py.fmt names sch .string (.str text) := by
    simp only [Spec.SimpleJson.value, Spec.SimpleJson.tree, render, quoted, List.mem_cons, List.mem_append]
    refine .inr (.inl ?_)
    unfold escaped
    rw [List.mem_flatMap]
    exact ⟨c, hm, by rw [he]; simp⟩
  have hn : (UInt8.ofNat c).toNat = c := by
    rw [UInt8.toNat_ofNat']
    omega
  rcases hp _ hmem with h | h | h | h
  · omega
  all_goals
    have := congrArg UInt8.toNat h
    rw [hn] at this
    simp only [UInt8.reduceToNat] at this
    omega

example : ∃ b, writeVal Json.Sample.py Sample.names Json.Sample.sch .gen .string (.str [0x61, 0x0B]) {} [] =
    (.ok (), {}, [] ++ b) ∧ ¬ Rfc8259.Text b :=
  simple_control_invalid Json.Sample.py Sample.names .gen Json.Sample.sch [0x61, 0x0B] 0x0B {} [] Json.Sample.sch_ok
    Sample.names_ok (by decide) rfl (by decide) (by decide) (by decide) (by decide)

/-- C66 is false for infinities and NaNs. -/
theorem simple_nonfinite_invalid (py : Floats) (names : FieldNames) (mode : Mode) (sch : Schema) (x : UInt64) (s : St)
    (out : Bytes) (hpy : Words py.fmt py.parse) (hs : SchemaOK mode sch) (hn : Spec.SimpleJson.NamesOK names sch)
    (h0 : s.stack = [.base]) (hd : s.depth ≤ 64) (hx : ¬ Finite x) :
    ∃ b, writeVal py names sch mode .double (.double x) s out = (.ok (), s, out ++ b) ∧ ¬ Rfc8259.Text b := by
  refine ⟨_, simple_wire_format py names mode sch _ (.double x) s out hs hn (by simp [WT]) h0
    (fun _ => by simpa [structDepth] using hd), fun ht => ?_⟩
  have hp := passes_text ht []
  simp only [Spec.SimpleJson.value, Spec.SimpleJson.tree, render, List.append_nil] at hp
  rcases hpy.word x hx with h | h | h
  all_goals
    rw [h] at hp
    revert hp
    decide +kernel

example : ∃ b, writeVal Json.Sample.py Sample.names Json.Sample.sch .gen .double (.double 0x7FF0000000000000) {} [] =
    (.ok (), {}, [] ++ b) ∧ ¬ Rfc8259.Text b :=
  simple_nonfinite_invalid Json.Sample.py Sample.names .gen Json.Sample.sch _ {} []
    ⟨Json.Sample.py_words.word, Json.Sample.py_words.empty, Json.Sample.py_words.minus⟩ Json.Sample.sch_ok
    Sample.names_ok rfl (by decide) (by decide)

end Thrift.SimpleJson
