import Verif.Proofs.CompactLang
import Verif.Spec.Observe
import Verif.Spec.Sample
/-
Properties of `TCompactProtocol`: C02, C03, C05, C08, C10, C11, C13, C14, C17 (compact part).
-/

namespace Thrift.Compact
open Spec

/-- A protocol object on which a value of type `t` may be written next: inside a container any
value; as the value of a field (or the body of a message) any value but a bool, since
`writeFieldBegin` announces bools separately; at the top level a struct. -/
def CanWrite (t : Ty) (s : St) : Prop :=
  s.state = .CONTAINER_WRITE ∨ (s.state = .VALUE_WRITE ∧ t ≠ .bool) ∨
  (s.state = .CLEAR ∧ ∃ sid, t = .struct sid)

/-- The same for reading. -/
def CanRead (t : Ty) (s : St) : Prop :=
  s.state = .CONTAINER_READ ∨ (s.state = .VALUE_READ ∧ t ≠ .bool) ∨
  (s.state = .CLEAR ∧ ∃ sid, t = .struct sid)

/-- The same protocol object up to the two variables `__bool_fid` and `__bool_value`, which are
assigned before each use. -/
def SameObject (s s' : St) : Prop := ∃ f b, s' = { s with boolFid := f, boolValue := b }

theorem sameObject_of {s s' : St} (h0 : s'.depth = s.depth) (h1 : s'.state = s.state)
    (h2 : s'.lastFid = s.lastFid) (h3 : s'.structs = s.structs) (h4 : s'.containers = s.containers) :
    SameObject s s' := by
  refine ⟨s'.boolFid, s'.boolValue, ?_⟩
  cases s; cases s'
  simp only [] at *
  subst h0 h1 h2 h3 h4
  rfl

theorem start_write {t : Ty} {s : St} (h : CanWrite t s) :
    ∃ q : Q, RelW s.structs s.containers s q ∧ At t q ∧ q.structs = [] ∧ q.containers = [] := by
  rcases h with h | h | h
  · exact ⟨⟨.container, s.lastFid, [], []⟩, ⟨h, rfl, rfl, rfl⟩, .inl rfl, rfl, rfl⟩
  · exact ⟨⟨.value, s.lastFid, [], []⟩, ⟨h.1, rfl, rfl, rfl⟩, .inr (.inl ⟨rfl, h.2⟩), rfl, rfl⟩
  · exact ⟨⟨.clear, s.lastFid, [], []⟩, ⟨h.1, rfl, rfl, rfl⟩, .inr (.inr ⟨rfl, h.2⟩), rfl, rfl⟩

theorem start_read {t : Ty} {s : St} (h : CanRead t s) :
    ∃ q : Q, RelR s.structs s.containers s q ∧ At t q ∧ q.structs = [] ∧ q.containers = [] := by
  rcases h with h | h | h
  · exact ⟨⟨.container, s.lastFid, [], []⟩, ⟨h, rfl, rfl, rfl⟩, .inl rfl, rfl, rfl⟩
  · exact ⟨⟨.value, s.lastFid, [], []⟩, ⟨h.1, rfl, rfl, rfl⟩, .inr (.inl ⟨rfl, h.2⟩), rfl, rfl⟩
  · exact ⟨⟨.clear, s.lastFid, [], []⟩, ⟨h.1, rfl, rfl, rfl⟩, .inr (.inr ⟨rfl, h.2⟩), rfl, rfl⟩

theorem end_write {s s' : St} {q : Q} (h : RelW s.structs s.containers s q) (h1 : q.structs = [])
    (h2 : q.containers = []) (h' : RelW s.structs s.containers s' q) (hd : s'.depth = s.depth) :
    SameObject s s' := by
  refine sameObject_of hd (by rw [h.1, h'.1]) (by rw [h.2.1, h'.2.1]) ?_ ?_
  · rw [h'.2.2.1, h1]; rfl
  · rw [h'.2.2.2, h2]; rfl

theorem end_read {s s' : St} {q : Q} (h : RelR s.structs s.containers s q) (h1 : q.structs = [])
    (h2 : q.containers = []) (h' : RelR s.structs s.containers s' q) (hd : s'.depth = s.depth) :
    SameObject s s' := by
  refine sameObject_of hd (by rw [h.1, h'.1]) (by rw [h.2.1, h'.2.1]) ?_ ?_
  · rw [h'.2.2.1, h1]; rfl
  · rw [h'.2.2.2, h2]; rfl

/-! ## C02: integers -/

theorem writer_ok {m : W St Unit} {s : St} (h : s.state = .VALUE_WRITE ∨ s.state = .CONTAINER_WRITE)
    (out : Bytes) : writer m s out = m s out := by
  unfold writer
  refine (W.bind_ok (m := W.get) rfl).trans ?_
  refine (W.bind_ok (s' := s) (out' := out) (a := ()) ?_).trans rfl
  rcases h with h | h <;> rw [h] <;> rfl

theorem reader_ok' {α : Type} {m : P St α} {s : St}
    (h : s.state = .VALUE_READ ∨ s.state = .CONTAINER_READ) (b : Bytes) :
    exec (reader m) s b = exec m s b := by
  unfold reader
  rw [exec_bind, exec_get, Res.andThen_ok, exec_bind, exec_assert]
  rcases h with h | h <;> rw [h] <;> rfl

/-- C02, writing: an integer in range is written as the zigzag LEB128 encoding and nothing else
changes. -/
theorem compact_int_write (s : St) (out : Bytes) (i : Int)
    (h : s.state = .VALUE_WRITE ∨ s.state = .CONTAINER_WRITE) :
    (InRange 16 i → wr.writeI16 i s out = (.ok (), s, out ++ Spec.Compact.int i)) ∧
    (InRange 32 i → wr.writeI32 i s out = (.ok (), s, out ++ Spec.Compact.int i)) ∧
    (InRange 64 i → wr.writeI64 i s out = (.ok (), s, out ++ Spec.Compact.int i)) :=
  ⟨fun hi => (writer_ok h out).trans (writeZigZag_eq hi s out),
    fun hi => (writer_ok h out).trans (writeZigZag_eq hi s out),
    fun hi => (writer_ok h out).trans (writeZigZag_eq hi s out)⟩

/-- C02, reading back. -/
theorem compact_int_read (cfg : Cfg) (s : St) (rest : Bytes) (i : Int)
    (h : s.state = .VALUE_READ ∨ s.state = .CONTAINER_READ) :
    (InRange 16 i → exec (rd cfg).readI16 s (Spec.Compact.int i ++ rest) = some ((.ok i, s), rest)) ∧
    (InRange 32 i → exec (rd cfg).readI32 s (Spec.Compact.int i ++ rest) = some ((.ok i, s), rest)) ∧
    (InRange 64 i → exec (rd cfg).readI64 s (Spec.Compact.int i ++ rest) = some ((.ok i, s), rest)) :=
  ⟨fun hi => (reader_ok' h _).trans ((readZigZag_ok (by omega) hi s).1 rest),
    fun hi => (reader_ok' h _).trans ((readZigZag_ok (by omega) hi s).1 rest),
    fun hi => (reader_ok' h _).trans ((readZigZag_ok (by omega) hi s).1 rest)⟩

theorem writeZigZag_out {bits : Nat} (hb : bits = 16 ∨ bits = 32 ∨ bits = 64) {n : Int}
    (h : ¬ InRange bits n) (s : St) (out : Bytes) :
    writeZigZag bits n s out = (.error TProtocolException.INVALID_DATA, s, out) := by
  unfold writeZigZag makeZigZag
  rw [checkIntegerLimits_out hb h]
  rfl

/-- C02, out of range: `TProtocolException(INVALID_DATA)` and nothing is written. -/
theorem compact_int_out_of_range (s : St) (out : Bytes) (i : Int)
    (h : s.state = .VALUE_WRITE ∨ s.state = .CONTAINER_WRITE) :
    (¬ InRange 16 i → wr.writeI16 i s out = (.error TProtocolException.INVALID_DATA, s, out)) ∧
    (¬ InRange 32 i → wr.writeI32 i s out = (.error TProtocolException.INVALID_DATA, s, out)) ∧
    (¬ InRange 64 i → wr.writeI64 i s out = (.error TProtocolException.INVALID_DATA, s, out)) :=
  ⟨fun hi => (writer_ok h out).trans (writeZigZag_out (by omega) hi s out),
    fun hi => (writer_ok h out).trans (writeZigZag_out (by omega) hi s out),
    fun hi => (writer_ok h out).trans (writeZigZag_out (by omega) hi s out)⟩

theorem varintValue_lt (bs : Bytes) : Spec.Compact.varintValue bs < 128 ^ bs.length := by
  induction bs with
  | nil => simp [Spec.Compact.varintValue]
  | cons x xs ih =>
    simp only [Spec.Compact.varintValue, List.length_cons, Nat.pow_succ]
    omega

theorem varintValue_varint (n : Nat) : Spec.Compact.varintValue (Spec.Compact.varint n) = n := by
  induction n using Nat.strongRecOn with
  | ind n ih =>
    unfold Spec.Compact.varint
    split
    · simp [Spec.Compact.varintValue]; omega
    · rw [Spec.Compact.varintValue, ih (n / 128) (by omega)]
      simp; omega

/-- C02, length: at most 3, 5, 10 bytes, and no sequence of 7-bit groups denoting the same number is
shorter. -/
theorem compact_int_length (i : Int) :
    (InRange 16 i → (Spec.Compact.int i).length ≤ 3) ∧
    (InRange 32 i → (Spec.Compact.int i).length ≤ 5) ∧
    (InRange 64 i → (Spec.Compact.int i).length ≤ 10) ∧
    (Spec.Compact.varintValue (Spec.Compact.int i) = Spec.Compact.zigzag i) ∧
    (∀ bs : Bytes, bs ≠ [] → Spec.Compact.varintValue bs = Spec.Compact.zigzag i →
      (Spec.Compact.int i).length ≤ bs.length) := by
  refine ⟨fun h => ?_, fun h => ?_, fun h => ?_, varintValue_varint _, fun bs hne hv => ?_⟩
  · have := zigzag_lt (by omega) h
    exact varint_length_le _ 2 (by omega)
  · have := zigzag_lt (by omega) h
    exact varint_length_le _ 4 (by omega)
  · have := zigzag_lt (by omega) h
    exact varint_length_le _ 9 (by omega)
  · have h1 := varintValue_lt bs
    rw [hv] at h1
    have hl : 0 < bs.length := List.length_pos_iff.mpr hne
    have := varint_length_le (Spec.Compact.zigzag i) (bs.length - 1)
      (by rw [Nat.sub_add_cancel hl]; exact h1)
    unfold Spec.Compact.int
    omega

example : InRange 16 (-300) ∧ Spec.Compact.int (-300) = [0xD7, 0x04] ∧ ¬ InRange 16 40000 := by
  refine ⟨by decide, ?_, by decide⟩
  unfold Spec.Compact.int
  rw [show Spec.Compact.zigzag (-300) = 599 by decide]
  unfold Spec.Compact.varint Spec.Compact.varint
  decide

/-! ## C03: the varint reader on arbitrary input -/

/-- The number of leading bytes with the continuation bit. -/
def continuations : Bytes → Nat
  | [] => 0
  | x :: xs => if 128 ≤ x.toNat then continuations xs + 1 else 0

theorem readVarintLoop_any (k r sh : Nat) (s : St) (b : Bytes) (h : r < 2 ^ sh) :
    exec (readVarintLoop k r sh) s b =
      if k ≤ continuations b then some ((.error TProtocolException.INVALID_DATA, s), b.drop k)
      else if continuations b < b.length then
        some ((.ok ((r + Spec.Compact.varintValue (b.take (continuations b + 1)) * 2 ^ sh : Nat) : Int), s),
          b.drop (continuations b + 1))
      else some ((.error .eof, s), []) := by
  induction k generalizing r sh b with
  | zero => simp [readVarintLoop]
  | succ k ih =>
    rw [readVarintLoop_step _ _ _ h, exec_bind, exec_readAll]
    cases b with
    | nil => simp [continuations]
    | cons x xs =>
      have l0 := x.toNat_lt
      rw [if_pos (by simp)]
      simp only [Int.toNat_one, List.take_succ_cons, List.take_zero, List.drop_succ_cons, List.drop_zero,
        Res.andThen_ok, beNat_single]
      by_cases hx : x.toNat < 128
      · rw [if_pos hx, exec_pure]
        rw [show continuations (x :: xs) = 0 by simp [continuations]; omega]
        simp [Spec.Compact.varintValue]
      · rw [if_neg hx, ih _ _ _ (shift_lt h)]
        rw [show continuations (x :: xs) = continuations xs + 1 by simp [continuations]; omega]
        simp only [Nat.add_le_add_iff_right, List.length_cons, Nat.add_lt_add_iff_right,
          Spec.Compact.varintValue]
        split
        · rfl
        · split
          · congr 4
            rw [Nat.pow_add, Nat.add_mul, Nat.add_assoc]
            congr 3
            generalize Spec.Compact.varintValue _ = v
            rw [Nat.mul_comm 128 v, Nat.mul_assoc, Nat.mul_comm (2 ^ sh)]
          · rfl

/-- C03: what `readVarint` does with any bytes: with ten or more continuation bytes it raises
`INVALID_DATA` after exactly ten; otherwise it returns the base-128 value of the bytes up to the
first one without the continuation bit, which is below `2^70`; if there is no such byte it raises
`EOFError`. -/
theorem compact_varint_any (s : St) (b : Bytes) :
    exec readVarint s b =
      (if 10 ≤ continuations b then some ((.error TProtocolException.INVALID_DATA, s), b.drop 10)
      else if continuations b < b.length then
        some ((.ok (Spec.Compact.varintValue (b.take (continuations b + 1)) : Int), s),
          b.drop (continuations b + 1))
      else some ((.error .eof, s), [])) ∧
    (continuations b < 10 → Spec.Compact.varintValue (b.take (continuations b + 1)) < 2 ^ 70) := by
  constructor
  · have := readVarintLoop_any 10 0 0 s b (by simp)
    rw [show readVarint = readVarintLoop 10 0 0 from rfl, this]
    simp
  · intro h
    have h1 := varintValue_lt (b.take (continuations b + 1))
    have h2 : (b.take (continuations b + 1)).length ≤ 10 := by simp; omega
    have h3 : 128 ^ (b.take (continuations b + 1)).length ≤ 128 ^ 10 :=
      Nat.pow_le_pow_right (by omega) h2
    omega

example : continuations [0xFF, 0x80, 0x01, 0x55] = 2 ∧
    Spec.Compact.varintValue [0xFF, 0x80, 0x01] = 16511 := by decide

/-! ## C05, C08: structs and containers -/

/-- C08 (and the writing half of C05): for every schema and every well-typed value, from every
state of the protocol object in which the value may be written, the bytes written are exactly those
of the documented format and the protocol object is back in its state. The generated code accepts at
most 64 nested structs. -/
theorem compact_wire_format (mode : Mode) (sch : Schema) (t : Ty) (v : Val) (s : St) (out : Bytes)
    (hs : SchemaOK mode sch) (hv : WT sch t v) (hc : CanWrite t s)
    (hd : mode = .gen → s.depth + structDepth v ≤ 64) :
    ∃ s', writeVal wr sch mode t v s out = (.ok (), s', out ++ Spec.Compact.value sch t v) ∧
      SameObject s s' := by
  obtain ⟨q, hr, ha, h1, h2⟩ := start_write hc
  have hg := good_value none none sch v t q hv ha
  have hok := hg.ok (toks_bounds sch (fun sid => (hs sid).1) v t hv (within_none v))
  obtain ⟨s', e, r, d⟩ := write_ok sch mode (writerLaws none none) hs v t s q hv hok hr hd out
  rw [hg.enc] at e
  rw [hg.steps] at r
  exact ⟨s', e, end_write hr h1 h2 r d⟩

example : SchemaOK .gen Sample.sch ∧ WT Sample.sch (.struct 0) Sample.value ∧
    CanWrite (.struct 0) {} ∧ ({} : St).depth + structDepth Sample.value ≤ 64 :=
  ⟨Sample.sch_ok .gen, Sample.value_wt, .inr (.inr ⟨rfl, 0, rfl⟩), by simp [Sample.value_depth]⟩

/-- The cases with short and long field headers, bool fields and elements and empty maps. -/
example : Spec.Compact.value (fun _ => [{ fid := 1, ty := .bool }, { fid := 30, ty := .list .bool },
      { fid := 5, ty := .map .i32 .i32 }]) (.struct 0)
      (.struct [some (.bool false), some (.list [.bool true, .bool false]), some (.map [])])
    = [0x12, 0x09, 0x3C, 0x21, 0x01, 0x02, 0x0B, 0x0A, 0x00, 0x00] := by
  simp [Spec.Compact.value, Spec.Compact.fields, Spec.Compact.elements, Spec.Compact.pairs,
    Spec.Compact.fieldHeader, Spec.Compact.listHeader, Spec.Compact.mapHeader, Spec.Compact.int,
    Spec.Compact.zigzag, Spec.Compact.boolCode, Spec.Compact.typeCode, Spec.Compact.varint]

theorem read_gen (cfg : Cfg) (mode : Mode) (sch₁ sch₂ : Schema) (t : Ty) (v : Val) (s : St)
    (fuel : Nat) (h1 : SchemaOK mode sch₁) (h2 : SchemaOK mode sch₂) (hc : Compatible sch₁ sch₂)
    (hv : WT sch₁ t v) (hl : WithinLimits cfg.stringLimit cfg.containerLimit v) (hr : CanRead t s)
    (hd : mode = .gen → s.depth + structDepth v ≤ 64)
    (hu : Unknowns (fun u => nesting u ≤ 64 ∧ BinariesAreText IsUtf8 u) sch₁ sch₂ t v)
    (hf : size v ≤ fuel) :
    ∃ s', Decodes (readVal (rd cfg) sch₂ mode fuel t) s (Spec.Compact.value sch₁ t v)
      (project sch₁ sch₂ t v) s' ∧ SameObject s s' := by
  obtain ⟨q, hr, ha, hs1, hs2⟩ := start_read hr
  have hg := good_value cfg.stringLimit cfg.containerLimit sch₁ v t q hv ha
  have hok := hg.ok (toks_bounds sch₁ (fun sid => (h1 sid).1) v t hv hl)
  obtain ⟨s', e, r, d⟩ := read_ok sch₁ sch₂ mode (readerLaws cfg) h1 h2 hc v t fuel s q hv hok
    hr hf hd hu
  rw [hg.enc] at e
  rw [hg.steps] at r
  exact ⟨s', e, end_read hr hs1 hs2 r d⟩

/-- C05 (reading half): whatever follows the documented bytes of a well-typed value, reading them
with the same schema returns the value, consumes exactly those bytes, and the protocol object is
back in its state. -/
theorem compact_roundtrip (cfg : Cfg) (mode : Mode) (sch : Schema) (t : Ty) (v : Val) (s : St)
    (fuel : Nat) (hs : SchemaOK mode sch) (hv : WT sch t v) (hn : NoHiddenDefault sch t v)
    (hq : NoDuplicates v)
    (hl : WithinLimits cfg.stringLimit cfg.containerLimit v) (hr : CanRead t s)
    (hd : mode = .gen → s.depth + structDepth v ≤ 64) (hf : size v ≤ fuel) :
    ∃ s', SameObject s s' ∧ ∀ rest,
      exec (readVal (rd cfg) sch mode fuel t) s (Spec.Compact.value sch t v ++ rest)
        = some ((.ok v, s'), rest) := by
  obtain ⟨s', h, hso⟩ := read_gen cfg mode sch sch t v s fuel hs hs (compatible_self hs) hv hl hr hd
    (Unknowns_self _ sch v t) hf
  rw [project_self sch (fun sid => (hs sid).1) v t hv hn hq] at h
  exact ⟨s', hso, h.1⟩

example : NoHiddenDefault Sample.sch (.struct 0) Sample.value ∧ NoDuplicates Sample.value ∧ CanRead (.struct 0) {} ∧
    WithinLimits (some 5) (some 2) Sample.value ∧ ¬ WithinLimits (some 4) (some 2) Sample.value :=
  ⟨Sample.value_noHidden, Sample.value_noDup, .inr (.inr ⟨rfl, 0, rfl⟩), Sample.value_limits, Sample.value_not_limits⟩

/-! ## C53: repeated elements and keys -/

/-- C53: of the elements of a set that are equal, the reader keeps the first. -/
theorem compact_set_duplicates (cfg : Cfg) (mode : Mode) (sch : Schema) (e : Ty) (vs : List Val) (s : St)
    (fuel : Nat) (hs : SchemaOK mode sch) (hv : WT sch (.set e) (.set vs))
    (hl : WithinLimits cfg.stringLimit cfg.containerLimit (.set vs)) (hr : CanRead (.set e) s)
    (hd : mode = .gen → s.depth + structDepth (.set vs) ≤ 64) (hf : size (.set vs) ≤ fuel) :
    ∃ s', SameObject s s' ∧ ∀ rest,
      exec (readVal (rd cfg) sch mode fuel (.set e)) s (Spec.Compact.value sch (.set e) (.set vs) ++ rest)
        = some ((.ok (.set (firsts [] vs)), s'), rest) := by
  obtain ⟨s', h, hso⟩ := read_gen cfg mode sch sch _ _ s fuel hs hs (compatible_self hs) hv hl hr hd
    (Unknowns_self _ sch _ _) hf
  rw [project_set_hashable sch hv] at h
  exact ⟨s', hso, h.1⟩

/-- C53: of the pairs of a map with equal keys, the reader keeps the first key and the last value. -/
theorem compact_map_duplicates (cfg : Cfg) (mode : Mode) (sch : Schema) (k t : Ty)
    (kvs : List (Val × Val)) (s : St) (fuel : Nat) (hs : SchemaOK mode sch)
    (hv : WT sch (.map k t) (.map kvs))
    (hn : ∀ x ∈ kvs, NoHiddenDefault sch t x.2) (hq : ∀ x ∈ kvs, NoDuplicates x.2)
    (hl : WithinLimits cfg.stringLimit cfg.containerLimit (.map kvs)) (hr : CanRead (.map k t) s)
    (hd : mode = .gen → s.depth + structDepth (.map kvs) ≤ 64) (hf : size (.map kvs) ≤ fuel) :
    ∃ s', SameObject s s' ∧ ∀ rest,
      exec (readVal (rd cfg) sch mode fuel (.map k t)) s
          (Spec.Compact.value sch (.map k t) (.map kvs) ++ rest)
        = some ((.ok (.map (merged [] kvs)), s'), rest) := by
  obtain ⟨s', h, hso⟩ := read_gen cfg mode sch sch _ _ s fuel hs hs (compatible_self hs) hv hl hr hd
    (Unknowns_self _ sch _ _) hf
  rw [project_map_hashable sch (fun sid => (hs sid).1) hv hn hq] at h
  exact ⟨s', hso, h.1⟩

/-- A set that repeats an element. -/
example : WT (fun _ => []) (.set .i32) (.set [.int 1, .int 2, .int 1]) ∧
    firsts [] [.int 1, .int 2, .int 1] = [.int 1, .int 2] ∧ CanRead (.set .i32) { state := .VALUE_READ } :=
  ⟨by simp [WT, WTs, Ty.hashable, InRange], by simp [firsts, pyEq], .inr (.inl ⟨rfl, by decide⟩)⟩

/-! ## C13: skip -/

theorem skip_gen (cfg : Cfg) (sch : Schema) (t : Ty) (v : Val) (s : St) (fuel depth : Nat)
    (hs : ∀ sid, FieldsOK (sch sid)) (hv : WT sch t v)
    (hl : WithinLimits cfg.stringLimit cfg.containerLimit v) (hr : CanRead t s)
    (hd : nesting v ≤ depth) (hb : BinariesAreText IsUtf8 v) (hf : size v ≤ fuel) :
    ∃ s', Decodes (skip (rd cfg) fuel depth t.ttype) s (Spec.Compact.value sch t v) () s' ∧
      SameObject s s' := by
  obtain ⟨q, hr, ha, hs1, hs2⟩ := start_read hr
  have hg := good_value cfg.stringLimit cfg.containerLimit sch v t q hv ha
  have hok := hg.ok (toks_bounds sch hs v t hv hl)
  obtain ⟨s', e, r, d⟩ := skip_ok sch (readerLaws cfg) v t fuel depth s q hv hok hr hd hf hb
  rw [hg.enc] at e
  rw [hg.steps] at r
  exact ⟨s', e, end_read hr hs1 hs2 r d⟩

/-- C13 (partial): `skip` consumes exactly the bytes of a value. Restriction: every `binary` inside
is valid UTF-8; without it the claim is false, see `compact_skip_non_text`. -/
theorem compact_skip_partial (cfg : Cfg) (sch : Schema) (t : Ty) (v : Val) (s : St) (fuel depth : Nat)
    (hs : ∀ sid, FieldsOK (sch sid)) (hv : WT sch t v)
    (hl : WithinLimits cfg.stringLimit cfg.containerLimit v) (hr : CanRead t s)
    (hd : nesting v ≤ depth) (hb : BinariesAreText IsUtf8 v) (hf : size v ≤ fuel) :
    ∃ s', SameObject s s' ∧ ∀ rest,
      exec (skip (rd cfg) fuel depth t.ttype) s (Spec.Compact.value sch t v ++ rest)
        = some ((.ok (), s'), rest) := by
  obtain ⟨s', h, hso⟩ := skip_gen cfg sch t v s fuel depth hs hv hl hr hd hb hf
  exact ⟨s', hso, h.1⟩

example : nesting Sample.value ≤ 64 ∧ BinariesAreText IsUtf8 Sample.value :=
  ⟨by rw [Sample.value_nesting]; omega, Sample.value_text⟩

/-- C13 fails for every `binary` value that is not valid UTF-8: `skip` raises `UnicodeDecodeError`. -/
theorem compact_skip_non_text (cfg : Cfg) (sch : Schema) (b : Bytes) (s : St) (fuel depth : Nat)
    (rest : Bytes) (hr : CanRead .binary s) (hb : b.length < 2 ^ 31)
    (hl : Within cfg.stringLimit b.length) (hn : ¬ IsUtf8 b) :
    exec (skip (rd cfg) fuel (depth + 1) Ty.binary.ttype) s
        (Spec.Compact.value sch .binary (.bin b) ++ rest)
      = some ((.error .unicodeError, s), rest) := by
  have hr' : s.state = .VALUE_READ ∨ s.state = .CONTAINER_READ := by
    rcases hr with h | h | ⟨-, _, h⟩
    · exact .inr h
    · exact .inl h.1
    · cases h
  have e : skip (rd cfg) fuel (depth + 1) Ty.binary.ttype =
      (readString cfg >>= fun _ => pure ()) := rfl
  rw [e, exec_bind]
  unfold readString
  rw [exec_bind, reader_ok' hr']
  have := (readBinaryRaw_ok hb hl s).1 rest
  rw [show Spec.Compact.value sch .binary (.bin b) = Spec.Compact.blob b by
    simp [Spec.Compact.value]]
  rw [this, Res.andThen_ok, utf8Decode_not_utf8 hn, exec_lift_error, Res.andThen_error]

example : CanRead .binary { state := .VALUE_READ } ∧ ¬ IsUtf8 [0xFF, 0xFE] := by
  refine ⟨.inr (.inl ⟨rfl, by decide⟩), ?_⟩
  rw [isUtf8_iff]; rintro ⟨x, h⟩; cases h

/-! ## C14: schema evolution -/

/-- C14 (partial): reading with any compatible schema what was written with another one yields the
expected projection: fields known under the same id and wire type with their values, all other
attributes at their defaults; unknown fields are consumed without a trace. Restriction: the unknown
fields are nested at most 64 levels and contain no `binary` that is not UTF-8; without the second
restriction the claim is false, see `compact_unknown_binary_field`. Field ids are non-negative in
the dynamic mode; see `Binary.dyn_negative_id_aliases`. -/
theorem compact_schema_evolution_partial (cfg : Cfg) (mode : Mode) (sch₁ sch₂ : Schema) (t : Ty)
    (v : Val) (s : St) (fuel : Nat)
    (h1 : SchemaOK mode sch₁) (h2 : SchemaOK mode sch₂)
    (hc : Compatible sch₁ sch₂) (hv : WT sch₁ t v)
    (hl : WithinLimits cfg.stringLimit cfg.containerLimit v) (hr : CanRead t s)
    (hd : mode = .gen → s.depth + structDepth v ≤ 64)
    (hu : Unknowns (fun u => nesting u ≤ 64 ∧ BinariesAreText IsUtf8 u) sch₁ sch₂ t v)
    (hf : size v ≤ fuel) :
    ∃ s', SameObject s s' ∧ ∀ rest,
      exec (readVal (rd cfg) sch₂ mode fuel t) s (Spec.Compact.value sch₁ t v ++ rest)
        = some ((.ok (project sch₁ sch₂ t v), s'), rest) := by
  obtain ⟨s', h, hso⟩ := read_gen cfg mode sch₁ sch₂ t v s fuel h1 h2 hc hv hl hr hd hu hf
  exact ⟨s', hso, h.1⟩

example : Compatible Sample.sch Sample.older ∧ SchemaOK .dyn Sample.older ∧
    Unknowns (fun u => nesting u ≤ 64 ∧ BinariesAreText IsUtf8 u) Sample.sch Sample.older
      (.struct 0) Sample.value ∧
    project Sample.sch Sample.older (.struct 0) Sample.value = Sample.valueOlder :=
  ⟨Sample.compatible, Sample.older_ok .dyn, Sample.unknowns, Sample.project_eq⟩

/-- C14 fails for an unknown `binary` field that is not valid UTF-8: the whole struct cannot be
read. -/
theorem compact_unknown_binary_field (cfg : Cfg) (b : Bytes) (fuel : Nat) (rest : Bytes)
    (hb : b.length < 2 ^ 31) (hl : Within cfg.stringLimit b.length) (hn : ¬ IsUtf8 b) :
    ∃ s', exec (readVal (rd cfg) (fun _ => []) .gen (fuel + 2) (.struct 0)) {}
        (Spec.Compact.value (fun _ => [{ fid := 1, ty := .binary }]) (.struct 0)
          (.struct [some (.bin b)]) ++ rest)
      = some ((.error .unicodeError, s'), 0 :: rest) := by
  have hbytes : Spec.Compact.value (fun _ => [{ fid := 1, ty := .binary }]) (.struct 0)
      (.struct [some (.bin b)]) ++ rest
      = Spec.Compact.fieldHeader 0 8 1 ++ (Spec.Compact.value (fun _ => []) .binary (.bin b) ++ (0 :: rest)) := by
    simp [Spec.Compact.value, Spec.Compact.fields, Spec.Compact.typeCode]
  let s1 : St := { depth := 1, state := .FIELD_READ, lastFid := 0, structs := [(.CLEAR, 0)] }
  let s2 : St := { s1 with lastFid := 1, state := .VALUE_READ }
  have h1 := (readFieldBegin_ok (s := s1) (code := 8) (fid := 1) (tt := TType.STRING) rfl (by omega) (by decide) rfl).1
    (Spec.Compact.value (fun _ => []) .binary (.bin b) ++ (0 :: rest))
  have h2 := compact_skip_non_text cfg (fun _ => []) b s2 (fuel + 1) 63 (0 :: rest)
    (.inr (.inl ⟨rfl, by decide⟩)) hb hl hn
  refine ⟨{ s2 with depth := 0 }, ?_⟩
  rw [readVal, hbytes, exec_bind]
  generalize hin : Spec.Compact.fieldHeader 0 8 1 ++
    (Spec.Compact.value (fun _ => []) .binary (.bin b) ++ (0 :: rest)) = input
  have h0 : exec (incDepth : P St Unit) {} input = some ((.ok (), { depth := 1 }), input) := rfl
  rw [h0, Res.andThen_ok, exec_tryFinally]
  have h3 : exec (readStructCore (rd cfg) .gen (fuel + 1) ((fun _ => []) 0)
      (readVal (rd cfg) (fun _ => []) .gen (fuel + 1)) (skip (rd cfg) (fuel + 1) skipDepth)) { depth := 1 } input
      = some ((.error .unicodeError, s2), 0 :: rest) := by
    unfold readStructCore P.whileTrue readStructBody
    have hb0 : exec (rd cfg).readStructBegin { depth := 1 } input = some ((.ok (), s1), input) := rfl
    rw [exec_bind, hb0, Res.andThen_ok]
    subst hin
    rw [exec_bind, exec_Pbind, exec_bind, show (rd cfg).readFieldBegin = readFieldBegin from rfl, h1,
      Res.andThen_ok]
    simp only []
    rw [if_neg (by decide), show lookupField .gen [] 1 = none from rfl]
    simp only []
    rw [exec_bind]
    have h2' : exec (skip (rd cfg) (fuel + 1) skipDepth TType.STRING) (afterHeader s1 8 1)
        (Spec.Compact.value (fun _ => []) .binary (.bin b) ++ (0 :: rest)) = _ := h2
    rw [h2', Res.andThen_error, Res.andThen_error, Res.andThen_error]
  rw [h3]
  rfl

/-! ## C17: truncation -/

/-- C17: if the data ends anywhere strictly inside the bytes of a value, reading raises
`EOFError` and never returns a value. -/
theorem compact_truncation (cfg : Cfg) (mode : Mode) (sch : Schema) (t : Ty) (v : Val) (s : St)
    (fuel : Nat) (p q : Bytes) (hs : SchemaOK mode sch) (hv : WT sch t v)
    (hl : WithinLimits cfg.stringLimit cfg.containerLimit v) (hr : CanRead t s)
    (hd : mode = .gen → s.depth + structDepth v ≤ 64) (hf : size v ≤ fuel)
    (hp : Spec.Compact.value sch t v = p ++ q) (hq : q ≠ []) :
    ∃ s', exec (readVal (rd cfg) sch mode fuel t) s p = some ((.error .eof, s'), []) := by
  obtain ⟨s', h, -⟩ := read_gen cfg mode sch sch t v s fuel hs hs (compatible_self hs) hv hl hr hd
    (Unknowns_self _ sch v t) hf
  exact h.2 p q hp hq

/-- C17 for `skip`. -/
theorem compact_truncation_skip (cfg : Cfg) (sch : Schema) (t : Ty) (v : Val) (s : St)
    (fuel depth : Nat) (p q : Bytes) (hs : ∀ sid, FieldsOK (sch sid)) (hv : WT sch t v)
    (hl : WithinLimits cfg.stringLimit cfg.containerLimit v) (hr : CanRead t s)
    (hd : nesting v ≤ depth) (hb : BinariesAreText IsUtf8 v) (hf : size v ≤ fuel)
    (hp : Spec.Compact.value sch t v = p ++ q) (hq : q ≠ []) :
    ∃ s', exec (skip (rd cfg) fuel depth t.ttype) s p = some ((.error .eof, s'), []) := by
  obtain ⟨s', h, -⟩ := skip_gen cfg sch t v s fuel depth hs hv hl hr hd hb hf
  exact h.2 p q hp hq

/-! ## C10, C11: messages -/

theorem type_version {type : Nat} (h : type < 8) :
    pyOr VERSION (pyShl (type : Int) TYPE_SHIFT_AMOUNT) = ((32 * type + 1 : Nat) : Int) := by
  have : ∀ t : Fin 8, pyOr VERSION (pyShl ((t.val : Nat) : Int) TYPE_SHIFT_AMOUNT)
      = ((32 * t.val + 1 : Nat) : Int) := by decide +kernel
  exact this ⟨type, h⟩

theorem version_type {type : Nat} (h : type < 8) :
    pyAnd (pyShr ((32 * type + 1 : Nat) : Int) TYPE_SHIFT_AMOUNT) TYPE_BITS = type ∧
    pyAnd ((32 * type + 1 : Nat) : Int) VERSION_MASK = VERSION := by
  have : ∀ t : Fin 8, pyAnd (pyShr ((32 * t.val + 1 : Nat) : Int) TYPE_SHIFT_AMOUNT) TYPE_BITS = (t.val : Nat) ∧
      pyAnd ((32 * t.val + 1 : Nat) : Int) VERSION_MASK = VERSION := by decide +kernel
  exact this ⟨type, h⟩

/-- C10: the message header has the documented bytes and every reader decodes it to the same name,
type and sequence id, negative ones included. The writer is then ready for the arguments; the reader
is unchanged. -/
theorem compact_message (cfg : Cfg) (name : PyStr) (type : Nat) (seqid : Int) (s : St)
    (hst : s.state = .CLEAR) (hn : TextOK name) (hl : Within cfg.stringLimit (utf8Len name))
    (ht : type < 8) (hs : InRange 32 seqid) :
    (∀ out, writeMessageBegin name type seqid s out =
      (.ok (), { s with state := .VALUE_WRITE }, out ++ Spec.Compact.message name type seqid)) ∧
    (∀ rest, exec (readMessageBegin cfg) s (Spec.Compact.message name type seqid ++ rest)
      = some ((.ok (name, (type : Int), seqid), s), rest)) := by
  have hlen : (utf8 name).length < 2 ^ 31 := by rw [utf8_length hn.1]; exact hn.2
  unfold InRange at hs
  simp only [Nat.reduceSub] at hs
  constructor
  · intro out
    unfold writeMessageBegin
    refine (W.bind_ok (m := W.get) rfl).trans ?_
    refine (W.bind_ok (s' := s) (out' := out) (a := ()) (by rw [hst]; rfl)).trans ?_
    refine (W.bind_ok (writeUByte_eq (n := 0x82) (by omega) s out)).trans ?_
    rw [type_version ht]
    refine (W.bind_ok (writeUByte_eq (by omega) s _)).trans ?_
    have e : (if seqid < 0 then 2147483648 + (2147483648 + seqid) else seqid)
        = ((seqid % 2 ^ 32).toNat : Int) := by split <;> omega
    rw [e]
    refine (W.bind_ok (writeVarint_eq _ s _)).trans ?_
    rw [utf8Encode_eq hn.1]
    refine (W.bind_ok (m := W.lift _) (s' := s) rfl).trans ?_
    refine (W.bind_ok (writeBinaryRaw_eq (utf8 name) s _)).trans ?_
    simp [Spec.Compact.message]
  · intro rest
    unfold Spec.Compact.message
    have key : Decodes (readMessageBegin cfg) s
        ([UInt8.ofNat 0x82] ++ ([UInt8.ofNat (32 * type + 1)] ++
          (Spec.Compact.varint (seqid % 2 ^ 32).toNat ++ Spec.Compact.blob (utf8 name))))
        (name, (type : Int), seqid) s := by
      unfold readMessageBegin
      refine Decodes.pre (Decodes.get s) ?_
      refine Decodes.pre (Decodes.assert (by rw [hst]; rfl) s) ?_
      refine Decodes.seq (readUByte_ok (by omega) s) ?_
      rw [if_neg (by decide)]
      refine Decodes.seq (readUByte_ok (by omega) s) ?_
      simp only [(version_type ht).1, (version_type ht).2]
      rw [if_neg (by simp)]
      refine Decodes.seq (readVarint_ok (by omega) s) ?_
      have e : (if ((seqid % 2 ^ 32).toNat : Int) > 2147483647 then
          -2147483648 - (2147483648 - ((seqid % 2 ^ 32).toNat : Int))
          else ((seqid % 2 ^ 32).toNat : Int)) = seqid := by split <;> omega
      rw [e]
      rw [← List.append_nil (Spec.Compact.blob _)]
      refine Decodes.seq (readBinaryRaw_ok hlen (by rw [utf8_length hn.1]; exact hl) s) ?_
      rw [utf8Decode_utf8 hn.1]
      exact Decodes.pre (Decodes.lift_ok _ s) (Decodes.pure _ s)
    have := key.1 rest
    simpa using this

example : TextOK [0x70, 0x69, 0x6E, 0x67] ∧ InRange 32 (-2147483648) := by decide

/-- C11: the first byte and the low five bits of the second decide. -/
theorem compact_bad_version (cfg : Cfg) (s : St) (hst : s.state = .CLEAR) (b0 b1 : UInt8) (rest : Bytes) :
    (b0 ≠ 0x82 → exec (readMessageBegin cfg) s (b0 :: b1 :: rest)
      = some ((.error TProtocolException.BAD_VERSION, s), b1 :: rest)) ∧
    (b0 = 0x82 → b1.toNat % 32 ≠ 1 → exec (readMessageBegin cfg) s (b0 :: b1 :: rest)
      = some ((.error TProtocolException.BAD_VERSION, s), rest)) := by
  have hu : ∀ (b : UInt8) (rest : Bytes), exec readUByte s (b :: rest) = some ((.ok (b.toNat : Int), s), rest) := by
    intro b rest
    have := (readUByte_ok (n := b.toNat) b.toNat_lt s).1 rest
    simpa using this
  have hstart : ∀ b, exec (readMessageBegin cfg) s b = exec (do
      let protoId ← readUByte
      if protoId ≠ PROTOCOL_ID then P.raise TProtocolException.BAD_VERSION
      else
        let verType ← readUByte
        let type := pyAnd (pyShr verType TYPE_SHIFT_AMOUNT) TYPE_BITS
        let version := pyAnd verType VERSION_MASK
        if version ≠ VERSION then P.raise TProtocolException.BAD_VERSION
        else
          let seqid ← readVarint
          let seqid := if seqid > 2147483647 then -2147483648 - (2147483648 - seqid) else seqid
          let b ← readBinaryRaw cfg
          let name ← P.lift (utf8Decode b)
          pure (name, type, seqid)) s b := by
    intro b
    unfold readMessageBegin
    rw [exec_bind, exec_get, Res.andThen_ok, exec_bind, exec_assert, hst]
    rfl
  constructor
  · intro h
    rw [hstart, exec_bind, hu, Res.andThen_ok, if_pos, exec_raise]
    intro hc
    apply h
    apply UInt8.toNat_inj.mp
    show b0.toNat = 130
    unfold PROTOCOL_ID at hc
    omega
  · intro h0 h
    subst h0
    rw [hstart, exec_bind, hu, Res.andThen_ok, if_neg (by decide), exec_bind, hu, Res.andThen_ok]
    simp only []
    rw [if_pos, exec_raise]
    intro hc
    rw [show VERSION_MASK = ((2 ^ 5 - 1 : Nat) : Int) by decide, pyAnd_mask] at hc
    unfold VERSION at hc
    omega

example : (0x80 : UInt8) ≠ 0x82 ∧ (0x22 : UInt8).toNat % 32 ≠ 1 := by decide

/-- C11: whatever is accepted as a message starts with `0x82` and version 1. -/
theorem compact_accepts_only_own (cfg : Cfg) (s s' : St) (hst : s.state = .CLEAR) (b0 b1 : UInt8)
    (rest rest' : Bytes) (r : PyStr × Int × Int)
    (h : exec (readMessageBegin cfg) s (b0 :: b1 :: rest) = some ((.ok r, s'), rest')) :
    b0 = 0x82 ∧ b1.toNat % 32 = 1 := by
  have := compact_bad_version cfg s hst b0 b1 rest
  by_cases h0 : b0 = 0x82
  · refine ⟨h0, ?_⟩
    by_cases h1 : b1.toNat % 32 = 1
    · exact h1
    · rw [this.2 h0 h1] at h
      cases h
  · rw [this.1 h0] at h
    cases h

end Thrift.Compact
