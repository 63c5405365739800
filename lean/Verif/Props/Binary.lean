import Verif.Proofs.BinaryLang
import Verif.Proofs.Bits
import Verif.Spec.Observe
import Verif.Spec.Sample
/-
Properties of `TBinaryProtocol`: C01, C04, C07, C10, C11, C13, C14, C17 (binary part).
-/

namespace Thrift.Binary
open Spec

/-! ## C01: scalars -/

/-- C01, integers: `byte`, `i16`, `i32`, `i64` are written as big-endian two's complement of their
width and read back. -/
theorem binary_int_scalar :
    (∀ i, InRange 8 i → WritesExactly (writeByte i) (beInt 1 i) ∧ ReadsBack readByte (beInt 1 i) i) ∧
    (∀ i, InRange 16 i → WritesExactly (writeI16 i) (beInt 2 i) ∧ ReadsBack readI16 (beInt 2 i) i) ∧
    (∀ i, InRange 32 i → WritesExactly (writeI32 i) (beInt 4 i) ∧ ReadsBack readI32 (beInt 4 i) i) ∧
    (∀ i, InRange 64 i → WritesExactly (writeI64 i) (beInt 8 i) ∧ ReadsBack readI64 (beInt 8 i) i) :=
  ⟨fun _ h => ⟨fun s out => writeInt_eq (n := 1) h s out,
      fun s => (readInt_ok (n := 1) (by omega) h s).1⟩,
    fun _ h => ⟨fun s out => writeInt_eq (n := 2) h s out,
      fun s => (readInt_ok (n := 2) (by omega) h s).1⟩,
    fun _ h => ⟨fun s out => writeInt_eq (n := 4) h s out,
      fun s => (readInt_ok (n := 4) (by omega) h s).1⟩,
    fun _ h => ⟨fun s out => writeInt_eq (n := 8) h s out,
      fun s => (readInt_ok (n := 8) (by omega) h s).1⟩⟩

example : InRange 32 (-2) ∧ beInt 4 (-2) = [0xff, 0xff, 0xff, 0xfe] := by decide
example : InRange 64 (-9223372036854775808) := by decide

theorem writeInt_refuses {n : Nat} {i : Int} (h : ¬ InRange (8 * n) i) :
    RefusesToWrite (writeInt n i) .structError := by
  intro s out
  exact W.bind_error (by rw [packS_out h]; rfl)

/-- C01: an integer out of range raises `struct.error` and nothing is written. -/
theorem binary_int_out_of_range :
    (∀ i, ¬ InRange 8 i → RefusesToWrite (writeByte i) .structError) ∧
    (∀ i, ¬ InRange 16 i → RefusesToWrite (writeI16 i) .structError) ∧
    (∀ i, ¬ InRange 32 i → RefusesToWrite (writeI32 i) .structError) ∧
    (∀ i, ¬ InRange 64 i → RefusesToWrite (writeI64 i) .structError) :=
  ⟨fun _ h => writeInt_refuses (n := 1) h, fun _ h => writeInt_refuses (n := 2) h,
    fun _ h => writeInt_refuses (n := 4) h, fun _ h => writeInt_refuses (n := 8) h⟩

example : ¬ InRange 8 128 ∧ ¬ InRange 64 9223372036854775808 := by decide

/-- C01: the other scalars. A double is its IEEE bit pattern, big-endian. -/
theorem binary_other_scalar (cfg : Cfg) :
    (∀ b, WritesExactly (writeBool b) [if b then 1 else 0] ∧
      ReadsBack readBool [if b then 1 else 0] b) ∧
    (∀ x, WritesExactly (writeDouble x) (beInt 8 x.toNat) ∧ ReadsBack readDouble (beInt 8 x.toNat) x) ∧
    (∀ u : Bytes, u.length = 16 → WritesExactly (writeUuid u) u ∧ ReadsBack readUuid u u) ∧
    (∀ b : Bytes, b.length < 2 ^ 31 →
      WritesExactly (writeBinary b) (beInt 4 b.length ++ b) ∧
      (Within cfg.stringLimit b.length → ReadsBack (readBinary cfg) (beInt 4 b.length ++ b) b)) ∧
    (∀ t, TextOK t →
      WritesExactly (writeString t) (beInt 4 (utf8Len t) ++ utf8 t) ∧
      (Within cfg.stringLimit (utf8Len t) →
        ReadsBack (readString cfg) (beInt 4 (utf8Len t) ++ utf8 t) t)) := by
  refine ⟨?_, ?_, ?_, ?_, ?_⟩
  · intro b
    have e : beInt 1 (if b then 1 else 0) = [if b then 1 else 0] := by cases b <;> rfl
    rw [← e]
    exact ⟨writeBool_eq b, fun s => (readBool_ok b s).1⟩
  · intro x
    refine ⟨fun s out => ?_, fun s => (readDouble_ok x s).1⟩
    simp [writeDouble, beBytes8_eq]
  · intro u h
    exact ⟨fun s out => rfl, fun s => (Decodes.readAll s (by simpa using h)).1⟩
  · intro b h
    exact ⟨writeBinary_eq h, fun hl s => (readBinary_ok h hl s).1⟩
  · intro t h
    rw [← utf8_length h.1]
    refine ⟨writeString_eq h, fun hl s => (readString_ok h ?_ s).1⟩
    rw [← utf8_length h.1]
    exact hl

example : TextOK [0x68, 0xE9, 0x1F600] := by decide
example : Spec.utf8 [0x68, 0xE9, 0x1F600] = [0x68, 0xC3, 0xA9, 0xF0, 0x9F, 0x98, 0x80] := by decide

/-! ## C04, C07: structs and containers -/

theorem st_eq {s s' : St} (h : HasDepth.depth s' = HasDepth.depth s) : s' = s := by
  cases s; cases s'; simp only [HasDepth.depth] at h; rw [h]

/-- C07 (and the writing half of C04): for every schema and every well-typed value, in both code
generation modes, the bytes written are exactly those of the documented format, and the protocol
object is unchanged. The generated code accepts at most 64 nested structs. -/
theorem binary_wire_format (mode : Mode) (sch : Schema) (t : Ty) (v : Val) (s : St) (out : Bytes)
    (hs : SchemaOK mode sch) (hv : WT sch t v) (hd : mode = .gen → s.depth + structDepth v ≤ 64) :
    writeVal wr sch mode t v s out = (.ok (), s, out ++ Spec.Binary.value sch t v) := by
  have hok : (lang none none).Ok () (toks sch t v) :=
    lang_Ok (toks_bounds sch (fun sid => (hs sid).1) v t hv (within_none v))
  obtain ⟨s', e, -, d⟩ := write_ok sch mode (writerLaws none none) hs v t s () hv hok trivial hd out
  rw [e, enc_value none none sch v t () hv, st_eq d]

example : SchemaOK .gen Sample.sch ∧ WT Sample.sch (.struct 0) Sample.value ∧
    (0 : Int) + structDepth Sample.value ≤ 64 :=
  ⟨Sample.sch_ok .gen, Sample.value_wt, by simp [Sample.value_depth]⟩

theorem read_gen (cfg : Cfg) (mode : Mode) (sch₁ sch₂ : Schema) (t : Ty) (v : Val) (s : St)
    (fuel : Nat) (h1 : SchemaOK mode sch₁) (h2 : SchemaOK mode sch₂) (hc : Compatible sch₁ sch₂)
    (hv : WT sch₁ t v) (hl : WithinLimits cfg.stringLimit cfg.containerLimit v)
    (hd : mode = .gen → s.depth + structDepth v ≤ 64)
    (hu : Unknowns (fun u => nesting u ≤ 64 ∧ BinariesAreText IsUtf8 u) sch₁ sch₂ t v)
    (hf : size v ≤ fuel) :
    Decodes (readVal (rd cfg) sch₂ mode fuel t) s (Spec.Binary.value sch₁ t v)
      (project sch₁ sch₂ t v) s := by
  have hok : (lang cfg.stringLimit cfg.containerLimit).Ok () (toks sch₁ t v) :=
    lang_Ok (toks_bounds sch₁ (fun sid => (h1 sid).1) v t hv hl)
  obtain ⟨s', e, -, d⟩ := read_ok sch₁ sch₂ mode (readerLaws cfg) h1 h2 hc v t fuel s () hv hok
    trivial hf hd hu
  rw [enc_value _ _ sch₁ v t () hv, st_eq d] at e
  exact e

/-- C04 (reading half): whatever follows the documented bytes of a well-typed value, reading them
with the same schema returns the value and consumes exactly those bytes. `fuel` bounds the loops of
the model; every sufficiently large bound gives this result. -/
theorem binary_roundtrip (cfg : Cfg) (mode : Mode) (sch : Schema) (t : Ty) (v : Val) (s : St)
    (fuel : Nat) (rest : Bytes)
    (hs : SchemaOK mode sch) (hv : WT sch t v) (hn : NoHiddenDefault sch t v)
    (hq : NoDuplicates v)
    (hl : WithinLimits cfg.stringLimit cfg.containerLimit v)
    (hd : mode = .gen → s.depth + structDepth v ≤ 64) (hf : size v ≤ fuel) :
    exec (readVal (rd cfg) sch mode fuel t) s (Spec.Binary.value sch t v ++ rest)
      = some ((.ok v, s), rest) := by
  have := (read_gen cfg mode sch sch t v s fuel hs hs (compatible_self hs) hv hl hd
    (Unknowns_self _ sch v t) hf).1 rest
  rwa [project_self sch (fun sid => (hs sid).1) v t hv hn hq] at this

example : NoHiddenDefault Sample.sch (.struct 0) Sample.value ∧ NoDuplicates Sample.value ∧
    WithinLimits (some 5) (some 2) Sample.value ∧ ¬ WithinLimits (some 4) (some 2) Sample.value :=
  ⟨Sample.value_noHidden, Sample.value_noDup, Sample.value_limits, Sample.value_not_limits⟩

/-! ## C53: repeated elements and keys -/

/-- C53: of the elements of a set that are equal, the reader keeps the first. -/
theorem binary_set_duplicates (cfg : Cfg) (mode : Mode) (sch : Schema) (e : Ty) (vs : List Val) (s : St)
    (fuel : Nat) (rest : Bytes) (hs : SchemaOK mode sch) (hv : WT sch (.set e) (.set vs))
    (hl : WithinLimits cfg.stringLimit cfg.containerLimit (.set vs))
    (hd : mode = .gen → s.depth + structDepth (.set vs) ≤ 64) (hf : size (.set vs) ≤ fuel) :
    exec (readVal (rd cfg) sch mode fuel (.set e)) s (Spec.Binary.value sch (.set e) (.set vs) ++ rest)
      = some ((.ok (.set (firsts [] vs)), s), rest) := by
  have := (read_gen cfg mode sch sch _ _ s fuel hs hs (compatible_self hs) hv hl hd
    (Unknowns_self _ sch _ _) hf).1 rest
  rwa [project_set_hashable sch hv] at this

/-- C53: of the pairs of a map with equal keys, the reader keeps the first key and the last value. -/
theorem binary_map_duplicates (cfg : Cfg) (mode : Mode) (sch : Schema) (k t : Ty)
    (kvs : List (Val × Val)) (s : St) (fuel : Nat) (rest : Bytes) (hs : SchemaOK mode sch)
    (hv : WT sch (.map k t) (.map kvs))
    (hn : ∀ x ∈ kvs, NoHiddenDefault sch t x.2) (hq : ∀ x ∈ kvs, NoDuplicates x.2)
    (hl : WithinLimits cfg.stringLimit cfg.containerLimit (.map kvs))
    (hd : mode = .gen → s.depth + structDepth (.map kvs) ≤ 64) (hf : size (.map kvs) ≤ fuel) :
    exec (readVal (rd cfg) sch mode fuel (.map k t)) s
        (Spec.Binary.value sch (.map k t) (.map kvs) ++ rest)
      = some ((.ok (.map (merged [] kvs)), s), rest) := by
  have := (read_gen cfg mode sch sch _ _ s fuel hs hs (compatible_self hs) hv hl hd
    (Unknowns_self _ sch _ _) hf).1 rest
  rwa [project_map_hashable sch (fun sid => (hs sid).1) hv hn hq] at this

/-- A repeated key; zeros of different sign are equal, NaN is not equal to itself. -/
example : merged [] [(.int 1, .str [97]), (.int 2, .str [98]), (.int 1, .str [99])] =
      [(.int 1, .str [99]), (.int 2, .str [98])] ∧
    firsts [] [.double 0, .double 0x8000000000000000, .double 0x7FF8000000000000,
      .double 0x7FF8000000000000] =
      [.double 0, .double 0x7FF8000000000000, .double 0x7FF8000000000000] ∧
    WT (fun _ => []) (.map .i32 .string) (.map [(.int 1, .str [97]), (.int 2, .str [98]), (.int 1, .str [99])]) := by
  refine ⟨by simp [merged, latest, pyEq],
    by simp [firsts, pyEq, doubleEq, exponent, fraction], ?_⟩
  simp [WT, WTp, Ty.hashable, InRange, TextOK, Scalar, utf8Len, utf8Width]

/-! ## C13: skip -/

theorem skip_gen (cfg : Cfg) (sch : Schema) (t : Ty) (v : Val) (s : St) (fuel depth : Nat)
    (hs : ∀ sid, FieldsOK (sch sid)) (hv : WT sch t v)
    (hl : WithinLimits cfg.stringLimit cfg.containerLimit v)
    (hd : nesting v ≤ depth) (hb : BinariesAreText IsUtf8 v) (hf : size v ≤ fuel) :
    Decodes (skip (rd cfg) fuel depth t.ttype) s (Spec.Binary.value sch t v) () s := by
  have hok : (lang cfg.stringLimit cfg.containerLimit).Ok () (toks sch t v) :=
    lang_Ok (toks_bounds sch hs v t hv hl)
  obtain ⟨s', e, -, d⟩ := skip_ok sch (readerLaws cfg) v t fuel depth s () hv hok trivial hd hf hb
  rw [enc_value _ _ sch v t () hv, st_eq d] at e
  exact e

/-- C13 (partial): `skip` consumes exactly the bytes of a value. Restriction: every `binary` inside
is valid UTF-8; without it the claim is false, see `binary_skip_non_text`. -/
theorem binary_skip_partial (cfg : Cfg) (sch : Schema) (t : Ty) (v : Val) (s : St) (fuel depth : Nat)
    (rest : Bytes) (hs : ∀ sid, FieldsOK (sch sid)) (hv : WT sch t v)
    (hl : WithinLimits cfg.stringLimit cfg.containerLimit v)
    (hd : nesting v ≤ depth) (hb : BinariesAreText IsUtf8 v) (hf : size v ≤ fuel) :
    exec (skip (rd cfg) fuel depth t.ttype) s (Spec.Binary.value sch t v ++ rest)
      = some ((.ok (), s), rest) :=
  (skip_gen cfg sch t v s fuel depth hs hv hl hd hb hf).1 rest

example : nesting Sample.value ≤ 64 ∧ BinariesAreText IsUtf8 Sample.value :=
  ⟨by rw [Sample.value_nesting]; omega, Sample.value_text⟩

/-- C13 fails for every `binary` value that is not valid UTF-8: `skip` raises `UnicodeDecodeError`. -/
theorem binary_skip_non_text (cfg : Cfg) (sch : Schema) (b : Bytes) (s : St) (fuel depth : Nat)
    (rest : Bytes) (hb : b.length < 2 ^ 31) (hl : Within cfg.stringLimit b.length)
    (hn : ¬ IsUtf8 b) :
    exec (skip (rd cfg) fuel (depth + 1) Ty.binary.ttype) s
        (Spec.Binary.value sch .binary (.bin b) ++ rest)
      = some ((.error .unicodeError, s), rest) := by
  have e : skip (rd cfg) fuel (depth + 1) Ty.binary.ttype =
      (readString cfg >>= fun _ => pure ()) := rfl
  rw [e, exec_bind]
  unfold readString
  rw [exec_bind]
  have := (readBinary_ok hb hl s).1 rest
  rw [show Spec.Binary.value sch .binary (.bin b) = Spec.Binary.blob b by
    simp [Spec.Binary.value]]
  rw [this, Res.andThen_ok, utf8Decode_not_utf8 hn, exec_lift_error, Res.andThen_error]

example : ¬ IsUtf8 [0xFF, 0xFE] := by
  rw [isUtf8_iff]; rintro ⟨x, h⟩; cases h

/-! ## C14: schema evolution -/

/-- C14 (partial): reading with any compatible schema what was written with another one yields the
expected projection: fields known under the same id and wire type with their values, all other
attributes at their defaults; unknown fields are consumed without a trace. Restriction: the unknown
fields are nested at most 64 levels and contain no `binary` that is not UTF-8; without the second
restriction the claim is false, see `binary_unknown_binary_field`. Field ids are non-negative in the
dynamic mode; see `dyn_negative_id_aliases`. -/
theorem binary_schema_evolution_partial (cfg : Cfg) (mode : Mode) (sch₁ sch₂ : Schema) (t : Ty)
    (v : Val) (s : St) (fuel : Nat) (rest : Bytes)
    (h1 : SchemaOK mode sch₁) (h2 : SchemaOK mode sch₂)
    (hc : Compatible sch₁ sch₂) (hv : WT sch₁ t v)
    (hl : WithinLimits cfg.stringLimit cfg.containerLimit v)
    (hd : mode = .gen → s.depth + structDepth v ≤ 64)
    (hu : Unknowns (fun u => nesting u ≤ 64 ∧ BinariesAreText IsUtf8 u) sch₁ sch₂ t v)
    (hf : size v ≤ fuel) :
    exec (readVal (rd cfg) sch₂ mode fuel t) s (Spec.Binary.value sch₁ t v ++ rest)
      = some ((.ok (project sch₁ sch₂ t v), s), rest) :=
  (read_gen cfg mode sch₁ sch₂ t v s fuel h1 h2 hc hv hl hd hu hf).1 rest

example : Compatible Sample.sch Sample.older ∧ SchemaOK .dyn Sample.older ∧
    Unknowns (fun u => nesting u ≤ 64 ∧ BinariesAreText IsUtf8 u) Sample.sch Sample.older
      (.struct 0) Sample.value ∧
    project Sample.sch Sample.older (.struct 0) Sample.value = Sample.valueOlder :=
  ⟨Sample.compatible, Sample.older_ok .dyn, Sample.unknowns, Sample.project_eq⟩

/-- C14 fails for an unknown `binary` field that is not valid UTF-8: the whole struct cannot be
read. -/
theorem binary_unknown_binary_field (cfg : Cfg) (b : Bytes) (fuel : Nat) (rest : Bytes)
    (hb : b.length < 2 ^ 31) (hl : Within cfg.stringLimit b.length) (hn : ¬ IsUtf8 b) :
    exec (readVal (rd cfg) (fun _ => []) .gen (fuel + 2) (.struct 0)) ⟨0⟩
        (Spec.Binary.value (fun _ => [{ fid := 1, ty := .binary }]) (.struct 0)
          (.struct [some (.bin b)]) ++ rest)
      = some ((.error .unicodeError, ⟨0⟩), 0 :: rest) := by
  have hbytes : Spec.Binary.value (fun _ => [{ fid := 1, ty := .binary }]) (.struct 0)
      (.struct [some (.bin b)]) ++ rest
      = (beInt 1 11 ++ beInt 2 1) ++ (Spec.Binary.value (fun _ => []) .binary (.bin b) ++ (0 :: rest)) := by
    rw [show beInt 1 11 = [11] by decide]
    simp [Spec.Binary.value, Spec.Binary.fields, Spec.Binary.typeCode]
  have h1 := (readFieldBegin_ok (tt := 11) (fid := 1) (isTType_ttype .binary) (by decide) ⟨1⟩).1
    (Spec.Binary.value (fun _ => []) .binary (.bin b) ++ (0 :: rest))
  have h2 := binary_skip_non_text cfg (fun _ => []) b ⟨1⟩ (fuel + 1) 63 (0 :: rest) hb hl hn
  rw [readVal, hbytes, exec_bind]
  have h0 : exec (incDepth : P St Unit) ⟨0⟩ ((beInt 1 11 ++ beInt 2 1) ++
      (Spec.Binary.value (fun _ => []) .binary (.bin b) ++ (0 :: rest)))
      = some ((.ok (), ⟨1⟩), (beInt 1 11 ++ beInt 2 1) ++
      (Spec.Binary.value (fun _ => []) .binary (.bin b) ++ (0 :: rest))) := rfl
  rw [h0, Res.andThen_ok, exec_tryFinally]
  have h3 : exec (readStructCore (rd cfg) .gen (fuel + 1) ((fun _ => []) 0)
      (readVal (rd cfg) (fun _ => []) .gen (fuel + 1)) (skip (rd cfg) (fuel + 1) skipDepth)) ⟨1⟩
      ((beInt 1 11 ++ beInt 2 1) ++ (Spec.Binary.value (fun _ => []) .binary (.bin b) ++ (0 :: rest)))
      = some ((.error .unicodeError, ⟨1⟩), 0 :: rest) := by
    unfold readStructCore P.whileTrue readStructBody
    rw [exec_bind, show (rd cfg).readStructBegin = pure () from rfl, exec_pure, Res.andThen_ok,
      exec_bind, exec_Pbind, exec_bind, show (rd cfg).readFieldBegin = readFieldBegin from rfl, h1,
      Res.andThen_ok]
    simp only []
    rw [if_neg (by decide), show lookupField .gen [] 1 = none from rfl]
    simp only []
    rw [exec_bind]
    have h2' : exec (skip (rd cfg) (fuel + 1) skipDepth 11) ⟨1⟩
        (Spec.Binary.value (fun _ => []) .binary (.bin b) ++ (0 :: rest)) = _ := h2
    rw [h2', Res.andThen_error, Res.andThen_error, Res.andThen_error]
  rw [h3]
  rfl

/-- C14 fails in the dynamic mode for an unknown field with id `-1`: Python's negative indexing of
`thrift_spec` takes it for the last field. Here it is sent by a schema whose only field has id `-1`
and is received by a schema whose only field has id `1`; expected is an unset field. -/
theorem dyn_negative_id_aliases (cfg : Cfg) (i : Int) (s : St) (fuel : Nat) (rest : Bytes)
    (hi : InRange 32 i) :
    exec (readVal (rd cfg) (fun _ => [{ fid := 1, ty := .i32 }]) .dyn (fuel + 3) (.struct 0)) s
        (Spec.Binary.value (fun _ => [{ fid := -1, ty := .i32 }]) (.struct 0)
          (.struct [some (.int i)]) ++ rest)
      = some ((.ok (.struct [some (.int i)]), s), rest) ∧
    project (fun _ => [{ fid := -1, ty := .i32 }]) (fun _ => [{ fid := 1, ty := .i32 }]) (.struct 0)
      (.struct [some (.int i)]) = .struct [none] := by
  constructor
  · have hbytes : Spec.Binary.value (fun _ => [{ fid := -1, ty := .i32 }]) (.struct 0)
        (.struct [some (.int i)]) ++ rest
        = (beInt 1 8 ++ beInt 2 (-1)) ++ (beInt 4 i ++ (beInt 1 0 ++ rest)) := by
      rw [show beInt 1 8 = [8] by decide, show beInt 1 0 = [0] by decide]
      simp [Spec.Binary.value, Spec.Binary.fields, Spec.Binary.typeCode]
    have h1 := (readFieldBegin_ok (tt := 8) (fid := -1) (isTType_ttype .i32) (by decide) s).1
      (beInt 4 i ++ (beInt 1 0 ++ rest))
    have h2 := (readInt_ok (n := 4) (by omega) hi s).1 (beInt 1 0 ++ rest)
    have h3 := (readFieldStop_ok s).1 rest
    rw [readVal, hbytes]
    simp only [readStructCore, P.whileTrue, readStructBody, exec_bind, exec_Pbind,
      show (rd cfg).readStructBegin = pure () from rfl, exec_pure, Res.andThen_ok,
      show (rd cfg).readFieldBegin = readFieldBegin from rfl, h1]
    rw [if_neg (by decide), show lookupField .dyn [{ fid := 1, ty := .i32 }] (-1) = some 0 by decide]
    simp only [List.getElem?_cons_zero]
    rw [if_pos (by decide)]
    simp only [readVal, exec_bind, show (rd cfg).readI32 = readInt 4 from rfl, h2, Res.andThen_ok,
      exec_pure, show (rd cfg).readFieldEnd = pure () from rfl, exec_Pbind, h3, initAttrs,
      show (rd cfg).readStructEnd = pure () from rfl, if_true, exec_Ppure]
    rfl
  · rfl

example : InRange 32 (-5) := by decide

/-! ## C17: truncation -/

/-- C17: if the data ends anywhere strictly inside the bytes of a value, reading raises
`EOFError` and never returns a value. -/
theorem binary_truncation (cfg : Cfg) (mode : Mode) (sch : Schema) (t : Ty) (v : Val) (s : St)
    (fuel : Nat) (p q : Bytes) (hs : SchemaOK mode sch) (hv : WT sch t v)
    (hl : WithinLimits cfg.stringLimit cfg.containerLimit v)
    (hd : mode = .gen → s.depth + structDepth v ≤ 64) (hf : size v ≤ fuel)
    (hp : Spec.Binary.value sch t v = p ++ q) (hq : q ≠ []) :
    ∃ s', exec (readVal (rd cfg) sch mode fuel t) s p = some ((.error .eof, s'), []) :=
  (read_gen cfg mode sch sch t v s fuel hs hs (compatible_self hs) hv hl hd
    (Unknowns_self _ sch v t) hf).2 p q hp hq

/-- C17 for `skip`. -/
theorem binary_truncation_skip (cfg : Cfg) (sch : Schema) (t : Ty) (v : Val) (s : St)
    (fuel depth : Nat) (p q : Bytes) (hs : ∀ sid, FieldsOK (sch sid)) (hv : WT sch t v)
    (hl : WithinLimits cfg.stringLimit cfg.containerLimit v)
    (hd : nesting v ≤ depth) (hb : BinariesAreText IsUtf8 v) (hf : size v ≤ fuel)
    (hp : Spec.Binary.value sch t v = p ++ q) (hq : q ≠ []) :
    ∃ s', exec (skip (rd cfg) fuel depth t.ttype) s p = some ((.error .eof, s'), []) :=
  (skip_gen cfg sch t v s fuel depth hs hv hl hd hb hf).2 p q hp hq

example : 10 < (Spec.Binary.value Sample.sch (.struct 0) Sample.value).length := by
  rw [Sample.value_length]; omega

/-! ## C10, C11: messages -/

theorem version_or (type : Nat) (h : type < 256) :
    pyOr VERSION_1 type = -2147418112 + (type : Int) := by
  have : ∀ t : Fin 256, pyOr VERSION_1 (t.val : Nat) = -2147418112 + ((t.val : Nat) : Int) := by
    decide +kernel
  exact this ⟨type, h⟩

theorem version_and (type : Nat) (h : type < 256) :
    pyAnd (-2147418112 + (type : Int)) VERSION_MASK = VERSION_1 ∧
    pyAnd (-2147418112 + (type : Int)) TYPE_MASK = type := by
  constructor
  · have := pyAnd_neg_mask (-2147418112 + (type : Int)) 16
    rw [show VERSION_MASK = -((2 ^ 16 : Nat) : Int) by decide, this]
    have e : ((2 ^ 16 : Nat) : Int) = 65536 := by decide
    rw [e, show VERSION_1 = -2147418112 from rfl]
    omega
  · have := pyAnd_mask (-2147418112 + (type : Int)) 8
    rw [show TYPE_MASK = ((2 ^ 8 - 1 : Nat) : Int) by decide, this]
    have e : ((2 ^ 8 : Nat) : Int) = 256 := by decide
    rw [e]
    omega

theorem version_bytes (type : Nat) (h : type < 256) :
    beInt 4 (-2147418112 + (type : Int)) = [0x80, 0x01, 0x00, UInt8.ofNat type] := by
  have : ∀ t : Fin 256, beInt 4 (-2147418112 + ((t.val : Nat) : Int)) =
      [0x80, 0x01, 0x00, UInt8.ofNat t.val] := by decide +kernel
  exact this ⟨type, h⟩

theorem type_byte (type : Nat) (h : type < 128) : beInt 1 (type : Int) = [UInt8.ofNat type] := by
  have : ∀ t : Fin 128, beInt 1 ((t.val : Nat) : Int) = [UInt8.ofNat t.val] := by decide +kernel
  exact this ⟨type, h⟩

/-- C10, strict writer: the header has the documented bytes; every reader, strict or not, decodes
it to the same name, type and sequence id. -/
theorem binary_message_strict (cfg rcfg : Cfg) (name : PyStr) (type : Nat) (seqid : Int)
    (hc : cfg.strictWrite = true) (hn : TextOK name) (hl : Within rcfg.stringLimit (utf8Len name))
    (ht : type < 256) (hs : InRange 32 seqid) :
    WritesExactly (writeMessageBegin cfg name type seqid) (Spec.Binary.messageStrict name type seqid) ∧
    ReadsBack (readMessageBegin rcfg) (Spec.Binary.messageStrict name type seqid)
      (name, (type : Int), seqid) := by
  have hr : InRange 32 (-2147418112 + (type : Int)) := by unfold InRange; omega
  constructor
  · intro s out
    unfold writeMessageBegin
    rw [if_pos hc, version_or type ht]
    refine (W.bind_ok (writeInt_eq (n := 4) hr s out)).trans ?_
    refine (W.bind_ok (writeString_eq hn s _)).trans ?_
    refine (writeInt_eq (n := 4) hs s _).trans ?_
    rw [version_bytes type ht]
    simp [Spec.Binary.messageStrict, Spec.Binary.blob]
  · intro s rest
    unfold readMessageBegin Spec.Binary.messageStrict
    have h1 := (readInt_ok (n := 4) (by omega) hr s).1
      (Spec.Binary.blob (utf8 name) ++ beInt 4 seqid ++ rest)
    rw [version_bytes type ht] at h1
    rw [exec_bind, List.append_assoc, List.append_assoc,
      ← List.append_assoc (Spec.Binary.blob _), show readI32 = readInt 4 from rfl, h1, Res.andThen_ok]
    rw [if_pos (by omega)]
    simp only [(version_and type ht).1, (version_and type ht).2]
    rw [if_neg (by simp)]
    have h2 := (readString_ok hn hl s).1 (beInt 4 seqid ++ rest)
    have h3 := (readInt_ok (n := 4) (by omega) hs s).1 rest
    rw [exec_bind, List.append_assoc, h2, Res.andThen_ok, exec_bind, h3,
      Res.andThen_ok, exec_pure]

example : TextOK [0x70, 0x69, 0x6E, 0x67] ∧ InRange 32 (-1) := by decide

/-- C10, non-strict writer: documented bytes; every non-strict reader decodes them. -/
theorem binary_message_nonstrict (cfg rcfg : Cfg) (name : PyStr) (type : Nat) (seqid : Int)
    (hc : cfg.strictWrite = false) (hr : rcfg.strictRead = false) (hn : TextOK name)
    (ht : type < 128) (hs : InRange 32 seqid) :
    WritesExactly (writeMessageBegin cfg name type seqid) (Spec.Binary.messageOld name type seqid) ∧
    ReadsBack (readMessageBegin rcfg) (Spec.Binary.messageOld name type seqid)
      (name, (type : Int), seqid) := by
  have hty : InRange 8 (type : Int) := by unfold InRange; omega
  have hlen : (utf8 name).length < 2 ^ 31 := by rw [utf8_length hn.1]; exact hn.2
  constructor
  · intro s out
    unfold writeMessageBegin
    rw [if_neg (by simp [hc])]
    refine (W.bind_ok (writeString_eq hn s out)).trans ?_
    refine (W.bind_ok (writeInt_eq (n := 1) hty s _)).trans ?_
    refine (writeInt_eq (n := 4) hs s _).trans ?_
    rw [type_byte type ht]
    simp [Spec.Binary.messageOld, Spec.Binary.blob]
  · intro s rest
    unfold readMessageBegin Spec.Binary.messageOld Spec.Binary.blob
    have h1 := (readInt_ok (n := 4) (by omega) (inRange32_of_lt hlen) s).1
      (utf8 name ++ ([UInt8.ofNat type] ++ (beInt 4 seqid ++ rest)))
    have h2 := (Decodes.readAll (σ := St) (n := ((utf8 name).length : Int)) s (x := utf8 name) (by simp)).1
      ([UInt8.ofNat type] ++ (beInt 4 seqid ++ rest))
    have h3 := (readInt_ok (n := 1) (by omega) hty s).1 (beInt 4 seqid ++ rest)
    have h4 := (readInt_ok (n := 4) (by omega) hs s).1 rest
    rw [type_byte type ht] at h3
    rw [exec_bind, List.append_assoc, List.append_assoc, List.append_assoc,
      show readI32 = readInt 4 from rfl, h1, Res.andThen_ok]
    rw [if_neg (by omega), if_neg (by simp [hr])]
    rw [exec_bind, h2, Res.andThen_ok, utf8Decode_utf8 hn.1, exec_bind, exec_lift_ok, Res.andThen_ok,
      exec_bind, show readByte = readInt 1 from rfl, h3, Res.andThen_ok, exec_bind, h4,
      Res.andThen_ok, exec_pure]

theorem unpack4 (b0 b1 b2 b3 : UInt8) : unpackS [b0, b1, b2, b3] =
    if b0.toNat < 128 then
      (b0.toNat : Int) * 16777216 + b1.toNat * 65536 + b2.toNat * 256 + b3.toNat
    else (b0.toNat : Int) * 16777216 + b1.toNat * 65536 + b2.toNat * 256 + b3.toNat - 4294967296 := by
  have h0 := b0.toNat_lt; have h1 := b1.toNat_lt; have h2 := b2.toNat_lt; have h3 := b3.toNat_lt
  have e : beNat [b0, b1, b2, b3]
      = b0.toNat * 16777216 + b1.toNat * 65536 + b2.toNat * 256 + b3.toNat := by
    simp [beNat]; omega
  unfold unpackS
  rw [e]
  simp only [List.length_cons, List.length_nil]
  split <;> split <;> omega

/-- C11: the first four bytes decide. A first word with the top bit set whose upper half is not
`0x8001`, and with `strictRead` any first word without the top bit, raises
`TProtocolException(BAD_VERSION)` and nothing after the word is consumed. -/
theorem binary_bad_version (cfg : Cfg) (s : St) (b0 b1 b2 b3 : UInt8) (rest : Bytes)
    (h : (128 ≤ b0.toNat ∧ ¬ (b0 = 0x80 ∧ b1 = 0x01)) ∨ (b0.toNat < 128 ∧ cfg.strictRead = true)) :
    exec (readMessageBegin cfg) s (b0 :: b1 :: b2 :: b3 :: rest)
      = some ((.error TProtocolException.BAD_VERSION, s), rest) := by
  have hr : exec readI32 s (b0 :: b1 :: b2 :: b3 :: rest)
      = some ((.ok (unpackS [b0, b1, b2, b3]), s), rest) := by
    unfold readI32 readInt
    rw [exec_bind, exec_readAll, if_pos (by simp)]
    rfl
  have l0 := b0.toNat_lt; have l1 := b1.toNat_lt; have l2 := b2.toNat_lt; have l3 := b3.toNat_lt
  unfold readMessageBegin
  rw [exec_bind, hr, Res.andThen_ok]
  have hu := unpack4 b0 b1 b2 b3
  generalize unpackS [b0, b1, b2, b3] = sz at hu
  rcases h with ⟨h0, hv⟩ | ⟨h0, hs⟩
  · rw [if_neg (by omega)] at hu
    rw [if_pos (by omega)]
    simp only []
    rw [if_pos, exec_raise]
    intro hc
    rw [show VERSION_MASK = -((2 ^ 16 : Nat) : Int) by decide, pyAnd_neg_mask,
      show VERSION_1 = -2147418112 from rfl, show ((2 ^ 16 : Nat) : Int) = 65536 by decide] at hc
    apply hv
    constructor <;> apply UInt8.toNat_inj.mp
    · show b0.toNat = 128; omega
    · show b1.toNat = 1; omega
  · rw [if_pos h0] at hu
    rw [if_neg (by omega), if_pos hs, exec_raise]

example : (128 ≤ (0x82 : UInt8).toNat ∧ ¬ ((0x82 : UInt8) = 0x80 ∧ (0x21 : UInt8) = 0x01)) := by decide

/-- C11: hence whatever is accepted as a message starts with the identification of this protocol
(or, in the non-strict mode only, with a non-negative word, which is the length of the name). -/
theorem binary_accepts_only_own (cfg : Cfg) (s s' : St) (b0 b1 b2 b3 : UInt8) (rest rest' : Bytes)
    (r : PyStr × Int × Int)
    (h : exec (readMessageBegin cfg) s (b0 :: b1 :: b2 :: b3 :: rest) = some ((.ok r, s'), rest')) :
    (b0 = 0x80 ∧ b1 = 0x01) ∨ (b0.toNat < 128 ∧ cfg.strictRead = false) := by
  by_cases hc : (128 ≤ b0.toNat ∧ ¬ (b0 = 0x80 ∧ b1 = 0x01)) ∨ (b0.toNat < 128 ∧ cfg.strictRead = true)
  · rw [binary_bad_version cfg s b0 b1 b2 b3 rest hc] at h
    cases h
  · have l0 := b0.toNat_lt
    by_cases h0 : b0.toNat < 128
    · right
      refine ⟨h0, ?_⟩
      cases hs : cfg.strictRead with
      | false => rfl
      | true => exact absurd (Or.inr ⟨h0, hs⟩) hc
    · left
      by_cases hv : b0 = 0x80 ∧ b1 = 0x01
      · exact hv
      · exact absurd (Or.inl ⟨by omega, hv⟩) hc

end Thrift.Binary
