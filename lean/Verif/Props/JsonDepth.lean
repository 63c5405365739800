import Verif.Proofs.DeepWrite
import Verif.Props.Json
import Verif.Props.Depth
/-
C15 for `TJSONProtocol`.
-/

namespace Thrift.Json
open Spec Spec.Json

/-! ## The readers leave the recursion counter alone -/

/-- From every state. -/
def Level {α : Type} (m : P St α) : Prop := ∀ s, Bal m s fun _ => True

theorem Level.bind {α β : Type} {m : P St α} {k : α → P St β} (hm : Level m) (hk : ∀ a, Level (k a)) : Level (m >>= k) :=
  fun s => Bal.seq (hm s) fun a s' _ => hk a s'
theorem Level.pure {α : Type} {a : α} : Level (Pure.pure a : P St α) := fun _ => Bal.pure trivial
theorem Level.raise {α : Type} {e : Exc} : Level (P.raise e : P St α) := fun _ => Bal.raise
theorem Level.lift {α : Type} {r : Except Exc α} : Level (P.lift r : P St α) := fun _ => Bal.lift fun _ _ => trivial
theorem Level.ite {α : Type} {c : Prop} [Decidable c] {m n : P St α} (hm : Level m) (hn : Level n) :
    Level (if c then m else n) := fun s => Bal.ite (fun _ => hm s) fun _ => hn s
theorem Level.modify {f : St → St} (h : ∀ s, (f s).depth = s.depth) : Level (P.modify f) := fun s => Bal.modify (h s) trivial
theorem Level.whileTrue {α β : Type} {body : α → P St (α ⊕ β)} (h : ∀ a, Level (body a)) (fuel : Nat) (a : α) :
    Level (P.whileTrue fuel body a) := fun s =>
  Bal.whileTrue (d := HasDepth.depth s) (I := fun _ => True) (Q := fun _ => True)
    (fun a s' _ _ => (h a s').mono fun r _ => by cases r <;> trivial) fuel a s rfl trivial
theorem Level.get {α : Type} {k : St → P St α} (h : ∀ s, Bal (k s) s fun _ => True) : Level (P.get >>= k) :=
  fun s => h s
theorem Level.transRead {n : Nat} : Level (P.transRead n) := fun _ => Bal.transRead

theorem level_read : Level readerRead := by
  unfold readerRead
  refine Level.get fun s => Bal.ite (fun _ => ?_) fun _ => ?_
  · exact Bal.seq (Bal.set rfl trivial) fun _ _ _ => Bal.pure trivial
  · exact Bal.seq Bal.transRead fun _ s' _ => Bal.seq (Level.modify (fun _ => rfl) s') fun _ _ _ => Bal.pure trivial

theorem level_peek : Level readerPeek := by
  unfold readerPeek
  refine Level.get fun s => Bal.ite (fun _ => Bal.pure trivial) fun _ => ?_
  exact Bal.seq Bal.transRead fun _ s' _ => Bal.seq (Level.modify (fun _ => rfl) s') fun _ _ _ => Bal.pure trivial

theorem level_pop : Level popR := by
  unfold popR
  refine Level.get fun s => ?_
  split
  · exact Bal.raise
  · exact Bal.set rfl trivial

theorem level_syntax (c : UInt8) : Level (readSyntaxChar c) := by
  unfold readSyntaxChar
  exact Level.bind level_read fun _ => Level.ite Level.pure Level.raise

theorem level_ctx : Level ctxRead := by
  unfold ctxRead
  refine Level.get fun s => ?_
  have h := Level.modify (f := advanceTop) fun _ => rfl
  split
  · exact h s
  · exact Level.bind (level_syntax _) (fun _ => h) s

variable (cfg : Cfg)

theorem level_utf8 (a : Bytes × Nat) : Level (utf8Body cfg a) := by
  unfold utf8Body
  refine Level.bind level_peek fun _ => Level.bind Level.lift fun _ => Level.ite ?_ Level.pure
  exact Level.bind level_read fun _ => Level.bind Level.lift fun _ => Level.bind Level.lift fun _ => Level.pure

theorem level_append (a : Acc) (cs : PyStr) : Level (appendChar cfg a cs) := by
  unfold appendChar
  exact Level.bind Level.lift fun _ => Level.ite Level.raise Level.pure

theorem level_unicode (a : Acc) : Level (unicodeEscape cfg a) := by
  unfold unicodeEscape
  refine Level.bind Level.transRead fun _ => Level.bind Level.lift fun x => ?_
  dsimp only
  cases pyInt16 x with
  | none => exact Level.raise
  | some code =>
    refine Level.ite (Level.ite Level.raise Level.pure) (Level.ite (Level.ite Level.raise ?_) ?_)
    · exact Level.bind Level.lift fun _ => level_append cfg _ _
    · exact Level.bind Level.lift fun _ => level_append cfg _ _

theorem level_stringBody (fuel : Nat) (a : Acc) : Level (stringBody cfg fuel a) := by
  unfold stringBody
  refine Level.bind level_read fun _ => Level.ite Level.pure (Level.bind Level.lift fun _ => Level.ite ?_ ?_)
  · refine Level.bind level_read fun _ => Level.bind Level.lift fun o => Level.ite (level_unicode cfg _) ?_
    cases unescape (UInt8.ofNat o) with
    | none => exact Level.raise
    | some c => exact level_append cfg _ _
  · exact Level.bind (Level.whileTrue (level_utf8 cfg) _ _) fun _ => Level.bind Level.lift fun _ => level_append cfg _ _

theorem level_body (fuel : Nat) : Level (readStringBody cfg fuel) :=
  Level.bind (level_syntax _) fun _ => Level.whileTrue (level_stringBody cfg fuel) _ _

theorem level_string (fuel : Nat) : Level (readJSONString cfg fuel) := Level.bind level_ctx fun _ => level_body cfg fuel

theorem level_numeric (fuel : Nat) : Level (readNumericChars cfg fuel) := by
  unfold readNumericChars
  refine Level.bind (Level.whileTrue (fun a => ?_) _ _) fun _ => Level.lift
  unfold numericBody
  refine Level.bind level_peek fun _ => Level.ite Level.pure ?_
  exact Level.bind level_read fun _ => Level.bind Level.lift fun _ => Level.pure

theorem level_quotes : Level readQuotes := by
  unfold readQuotes
  exact Level.get fun s => Bal.ite (fun _ => level_syntax _ s) fun _ => Bal.pure trivial

theorem level_integer (fuel : Nat) : Level (readJSONInteger cfg fuel) := by
  unfold readJSONInteger
  refine Level.bind level_ctx fun _ => Level.bind level_quotes fun _ => Level.bind (level_numeric cfg fuel) fun x =>
    Level.bind level_quotes fun _ => ?_
  cases pyInt x with
  | none => exact Level.raise
  | some i => exact Level.pure

theorem level_double (py : Floats) (fuel : Nat) : Level (readJSONDouble py cfg fuel) := by
  have hp : ∀ x : PyStr, Level (match py.parse x with
      | some y => pure y
      | none => P.raise TProtocolException.INVALID_DATA : P St UInt64) := fun x => by
    cases py.parse x with
    | none => exact Level.raise
    | some i => exact Level.pure
  unfold readJSONDouble
  refine Level.bind level_ctx fun _ => Level.bind level_peek fun _ => Level.ite ?_ ?_
  · exact Level.bind (level_body cfg fuel) fun x => hp x
  · have rest := Level.bind (level_numeric cfg fuel) fun x => hp x
    exact Level.get fun s => Bal.ite (fun _ => Level.bind (level_syntax _) (fun _ => rest) s) fun _ => rest s

theorem level_base64 (fuel : Nat) : Level (readJSONBase64 cfg fuel) :=
  Level.bind (level_string cfg fuel) fun _ => Level.lift
theorem level_objectStart : Level readJSONObjectStart :=
  Level.bind level_ctx fun _ => Level.bind (level_syntax _) fun _ => Level.modify fun _ => rfl
theorem level_arrayStart : Level readJSONArrayStart :=
  Level.bind level_ctx fun _ => Level.bind (level_syntax _) fun _ => Level.modify fun _ => rfl
theorem level_objectEnd : Level readJSONObjectEnd := Level.bind (level_syntax _) fun _ => level_pop
theorem level_arrayEnd : Level readJSONArrayEnd := Level.bind (level_syntax _) fun _ => level_pop
theorem level_type (fuel : Nat) : Level (readType cfg fuel) := Level.bind (level_string cfg fuel) fun _ => Level.lift
theorem level_fieldBegin (fuel : Nat) : Level (readFieldBegin cfg fuel) := by
  unfold readFieldBegin
  refine Level.bind level_peek fun _ => Level.ite Level.pure (Level.bind (level_integer cfg fuel) fun _ => ?_)
  exact Level.bind level_objectStart fun _ => Level.bind (level_type cfg fuel) fun _ => Level.pure
theorem level_mapBegin (fuel : Nat) : Level (readMapBegin cfg fuel) :=
  Level.bind level_arrayStart fun _ => Level.bind (level_type cfg fuel) fun _ => Level.bind (level_type cfg fuel) fun _ =>
    Level.bind (level_integer cfg fuel) fun _ => Level.bind level_objectStart fun _ => Level.pure
theorem level_collection (fuel : Nat) : Level (readCollectionBegin cfg fuel) :=
  Level.bind level_arrayStart fun _ => Level.bind (level_type cfg fuel) fun _ =>
    Level.bind (level_integer cfg fuel) fun _ => Level.pure
theorem level_uuid (fuel : Nat) : Level (readUuid cfg fuel) := by
  unfold readUuid
  refine Level.bind (level_string cfg fuel) fun x => ?_
  cases parseUuid x with
  | none => exact Level.raise
  | some i => exact Level.pure

theorem balOps (py : Floats) (fuel : Nat) : BalOps (rd py cfg fuel) where
  structBegin := level_objectStart
  structEnd := level_objectEnd
  fieldBegin := level_fieldBegin cfg fuel
  fieldEnd := level_objectEnd
  mapBegin := level_mapBegin cfg fuel
  mapEnd := Level.bind level_objectEnd fun _ => level_arrayEnd
  listBegin := level_collection cfg fuel
  listEnd := level_arrayEnd
  setBegin := level_collection cfg fuel
  setEnd := level_arrayEnd
  bool := Level.bind (level_integer cfg fuel) fun _ => Level.pure
  byte := level_integer cfg fuel
  i16 := level_integer cfg fuel
  i32 := level_integer cfg fuel
  i64 := level_integer cfg fuel
  double := level_double cfg py fuel
  string := level_string cfg fuel
  binary := level_base64 cfg fuel
  uuid := level_uuid cfg fuel

/-! ## So do the writers -/

theorem balW_ctx : BalW ctxWrite := by
  refine BalW.getBind fun s out => ?_
  cases (advance (top s.stack)).1 <;> rfl
theorem balW_pop : BalW popW := by
  refine BalW.getBind fun s out => ?_
  cases s.stack <;> rfl
theorem balW_push (c : Ctx) : BalW (W.modify (push c)) := BalW.modify fun _ => rfl
theorem balW_string (t : PyStr) : BalW (writeJSONString t) :=
  BalW.bind balW_ctx fun _ => BalW.bind (BalW.lift _) fun _ => BalW.write _
theorem balW_number (b : Bytes) : BalW (writeJSONNumber b) := by
  refine BalW.bind balW_ctx fun _ => BalW.getBind fun s out => ?_
  split <;> rfl
theorem balW_base64 (b : Bytes) : BalW (writeJSONBase64 b) :=
  BalW.bind balW_ctx fun _ => BalW.bind (BalW.write _) fun _ => BalW.bind (BalW.write _) fun _ => BalW.write _
theorem balW_objectStart : BalW writeJSONObjectStart :=
  BalW.bind balW_ctx fun _ => BalW.bind (BalW.write _) fun _ => balW_push _
theorem balW_arrayStart : BalW writeJSONArrayStart :=
  BalW.bind balW_ctx fun _ => BalW.bind (BalW.write _) fun _ => balW_push _
theorem balW_objectEnd : BalW writeJSONObjectEnd := BalW.bind balW_pop fun _ => BalW.write _
theorem balW_arrayEnd : BalW writeJSONArrayEnd := BalW.bind balW_pop fun _ => BalW.write _
theorem balW_checked (bits : Nat) (i : Int) : BalW (writeChecked bits i) :=
  BalW.bind (BalW.lift _) fun _ => balW_number _
theorem balW_list (e n : Int) : BalW (writeListBegin e n) :=
  BalW.bind balW_arrayStart fun _ => BalW.bind (BalW.lift _) fun _ => BalW.bind (balW_string _) fun _ => balW_number _

theorem balWOps (py : Floats) : BalWOps (wr py) where
  structBegin := balW_objectStart
  structEnd := balW_objectEnd
  fieldBegin _ _ := BalW.bind (balW_number _) fun _ => BalW.bind balW_objectStart fun _ =>
    BalW.bind (BalW.lift _) fun _ => balW_string _
  fieldEnd := balW_objectEnd
  fieldStop := BalW.pure _
  mapBegin _ _ _ := BalW.bind balW_arrayStart fun _ => BalW.bind (BalW.lift _) fun _ => BalW.bind (balW_string _) fun _ =>
    BalW.bind (BalW.lift _) fun _ => BalW.bind (balW_string _) fun _ => BalW.bind (balW_number _) fun _ => balW_objectStart
  mapEnd := BalW.bind balW_objectEnd fun _ => balW_arrayEnd
  listBegin := balW_list
  listEnd := balW_arrayEnd
  setBegin := balW_list
  setEnd := balW_arrayEnd
  bool _ := balW_number _
  byte := balW_checked 8
  i16 := balW_checked 16
  i32 := balW_checked 32
  i64 := balW_checked 64
  double _ := balW_number _
  string := balW_string
  binary := balW_base64
  uuid _ := balW_string _

/-! ## The theorems -/

/-- C15, JSON, reading: over any transport, whatever it answers, for any schema and mode: when reading or skipping
a value ends, the recursion counter has its old value, and a value returned by generated code has at most as many
nested structs as the counter allowed. -/
theorem json_depth_read_balanced (py : Floats) (sch : Schema) (mode : Mode) (rfuel fuel d : Nat) (ty : Ty) (tt : Int)
    {τ : Type} (step : Nat → τ → Option (Except Exc Bytes × τ)) (t t' : τ) (s s' : St) :
    (∀ r, (readVal (rd py cfg rfuel) sch mode fuel ty s).run step t = some ((r, s'), t') →
      s'.depth = s.depth ∧ ∀ v, r = .ok v → mode = .gen → Shallow sch (64 - s.depth) ty v) ∧
    (∀ r, (skip (rd py cfg rfuel) fuel d tt s).run step t = some ((r, s'), t') → s'.depth = s.depth) :=
  ⟨fun _ h => Prog.Always.run (readVal_bal (balOps cfg py rfuel) sch mode fuel ty s) step h,
    fun _ h => (Prog.Always.run (skip_bal (balOps cfg py rfuel) fuel d tt s) step h).1⟩

/-- A reader that fails two structs down. -/
example : ∃ s' b', exec (readVal (rd Sample.py {} 50) chainSch .gen 50 (.struct 0)) { depth := 7 }
    (ascii "{\"1\":{\"rec\":{\"1\":{\"rec\":7") = some ((.error TProtocolException.INVALID_DATA, s'), b') ∧ s'.depth = 7 := by
  have h : ((exec (readVal (rd Sample.py {} 50) chainSch .gen 50 (.struct 0)) { depth := 7 }
      (ascii "{\"1\":{\"rec\":{\"1\":{\"rec\":7")).map fun r => match r.1.1 with
        | .error e => decide (e = TProtocolException.INVALID_DATA)
        | .ok _ => false) = some true := by decide +kernel
  cases he : exec (readVal (rd Sample.py {} 50) chainSch .gen 50 (.struct 0)) { depth := 7 }
      (ascii "{\"1\":{\"rec\":{\"1\":{\"rec\":7") with
  | none => rw [he] at h; cases h
  | some x =>
    obtain ⟨⟨r, s'⟩, b'⟩ := x
    rw [he] at h
    cases r with
    | ok v => cases h
    | error e =>
      simp only [Option.map_some, Option.some.injEq, decide_eq_true_eq] at h
      subst h
      exact ⟨s', b', rfl, ((json_depth_read_balanced {} Sample.py chainSch .gen 50 50 0 (.struct 0) 0 memStep _ _ _ _).1 _ he).1⟩

/-- C15, JSON, writing: any Python value for any declared type, well-typed or not. -/
theorem json_depth_write_balanced (py : Floats) (sch : Schema) (mode : Mode) (t : Ty) (v : Val) (out out' : Bytes)
    (s s' : St) (r : Except Exc Unit) (h : writeVal (wr py) sch mode t v s out = (r, s', out')) : s'.depth = s.depth := by
  have := writeVal_bal sch mode (balWOps py) v t s out
  rwa [h] at this

example : ∃ out' s', writeVal (wr Sample.py) (fun _ => [{ fid := 1, ty := .struct 0 }, { fid := 2, ty := .byte }]) .gen
    (.struct 0)
    (.struct [some (.struct [some (.struct [none, some (.int 1000)]), none]), none]) { depth := 7 } []
    = (.error TProtocolException.INVALID_DATA, s', out') ∧ s'.depth = 7 := ⟨_, _, rfl, rfl⟩

/-- C15, JSON: the generated writer of a value with more nested structs than the counter leaves room for raises
`DEPTH_LIMIT`. -/
theorem json_depth_write_refused (py : Floats) (sch : Schema) (t : Ty) (v : Val) (out : Bytes) (s : St)
    (hs : SchemaOK .gen sch) (hv : WT sch t v) (ht : isNumber t = false) (h0 : s.stack = [.base])
    (h1 : s.depth ≤ 64) (h2 : 64 < s.depth + structDepth v) :
    ∃ s' out', writeVal (wr py) sch .gen t v s out = (.error TProtocolException.DEPTH_LIMIT, s', out') := by
  have hg := good_value (py := py) (p := fun _ => True) (fd := fun _ => True) sch v t s.stack hv
    ⟨by rw [h0]; rfl, by simp [ht]⟩
  have hok := hg.ok (fit_value sch (fun sid => (hs sid).1) hv (texts_true (fun _ => trivial) _) (doubles_true v))
  exact write_deep sch hs (writer_laws py _ _ s.hasData s.data) v t s _ hv hok (And.intro rfl (And.intro rfl rfl)) h1 h2 out

example : ∃ s' out', writeVal (wr Sample.py) chainSch .gen (.struct 0) (chain 64) {} [] =
    (.error TProtocolException.DEPTH_LIMIT, s', out') :=
  json_depth_write_refused Sample.py chainSch (.struct 0) (chain 64) [] {} (chainSch_ok .gen) (chain_wt 64) rfl rfl
    (by decide) (by rw [chain_depth]; decide)

end Thrift.Json
