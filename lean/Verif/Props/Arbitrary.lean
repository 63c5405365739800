import Verif.Proofs.SafeOps
import Verif.Proofs.Fuel
import Verif.Props.Binary
/-
C12, C18, C19: what the readers do with arbitrary bytes.
-/

namespace Thrift
open Spec

/-- The fuel is only a bound: a call that ends with some fuel ends in the same way with more. -/
theorem fuel_irrelevant {σ : Type} [HasDepth σ] (ops : RdOps σ) (sch : Schema) (mode : Mode) (t : Ty)
    (d : Nat) (tt : Int) {f f' : Nat} (hf : f ≤ f') {τ : Type}
    (step : Nat → τ → Option (Except Exc Bytes × τ)) (s : σ) (x : τ) :
    (∀ r, (readVal ops sch mode f t s).run step x = some r →
      (readVal ops sch mode f' t s).run step x = some r) ∧
    (∀ r, (skip ops f d tt s).run step x = some r → (skip ops f' d tt s).run step x = some r) :=
  ⟨fun _ h => (readVal_fuel ops sch mode hf t s).run step h,
    fun _ h => (skip_fuel ops hf d tt s).run step h⟩

theorem fits_two (b : Bytes) : Lim.two.fits b := fun _ h => by cases h

/-! ## C18: termination and the exceptions -/

theorem Out.total {σ α : Type} {L : Lim} {E : Exc → Prop} {m : P σ α} {s : σ} {b : Bytes}
    {Q : α → σ → Bytes → Prop} (hL : ¬ L.hang) (hb : L.fits b) (h : Out L E m s b Q) :
    ∃ r s' b' k, (m s).run countStep (b, 0) = some ((r, s'), (b', k)) ∧ b' <:+ b ∧
      k ≤ b.length - b'.length + L.slack ∧ ∀ e, r = .error e → E e := by
  obtain ⟨r, s', b', k, h1, h2, h3⟩ := (h hb 0).resolve_left fun h => hL h.1
  refine ⟨r, s', b', k, h1, h2, ?_, ?_⟩
  · cases r with
    | ok a => have := h3.1.resolve_left hL; omega
    | error e => have := h3.1.resolve_left hL; omega
  · intro e he
    subst he
    exact h3.2

theorem Out.value {σ α : Type} {L : Lim} {E : Exc → Prop} {m : P σ α} {s : σ} {b : Bytes}
    {Q : α → σ → Bytes → Prop} (hb : L.fits b) (h : Out L E m s b Q) {a : α} {s' : σ} {b' : Bytes}
    (he : exec m s b = some ((.ok a, s'), b')) : Q a s' b' ∧ b' <:+ b := by
  rcases h hb 0 with ⟨-, h1⟩ | ⟨r, s1, b1, k, h1, h2, h3⟩
  · rw [exec_count m s b 0, h1] at he
    cases he
  rw [exec_count m s b 0, h1] at he
  simp only [Option.map_some, Option.some.injEq, Prod.mk.injEq] at he
  obtain ⟨⟨rfl, rfl⟩, rfl⟩ := he
  exact ⟨h3.2, h2⟩

/-- C18, binary: reading a value of any type from any finite buffer ends; the bytes left are a suffix
of the buffer; `trans.read` is called at most once per byte consumed, plus two; an exception is one of
six, or `TypeError` in case the schema has a set or map with unhashable elements or keys. -/
theorem binary_total (cfg : Binary.Cfg) (sch : Schema) (mode : Mode) (t : Ty) (s : Binary.St) (b : Bytes)
    (fuel : Nat) (hf : b.length + 2 ≤ fuel) :
    ∃ r s' b' k, (readVal (Binary.rd cfg) sch mode fuel t s).run countStep (b, 0) = some ((r, s'), (b', k)) ∧
      b' <:+ b ∧ k ≤ b.length - b'.length + 2 ∧
      ∀ e, r = .error e →
        e ∈ [.eof, TTransportException.NEGATIVE_SIZE, TTransportException.SIZE_LIMIT, .unicodeError,
          TProtocolException.DEPTH_LIMIT, TProtocolException.INVALID_DATA] ∨
        (e = .typeError ∧ ¬ SchemaHashes sch t) := by
  refine Out.total id (fits_two b) (E := fun e => e ∈ Binary.catalogue ∨ (e = .typeError ∧ ¬ SchemaHashes sch t))
    (readVal_out (Binary.safeOps cfg _ fun e h => .inl h) sch mode fuel t s b trivial (.inr hf) ?_)
  by_cases h : SchemaHashes sch t
  · exact .inr h
  · exact .inl (.inr ⟨rfl, h⟩)

/-- C18, compact. Reading may start wherever the calling discipline allows it. `KeyError` is raised
for the type codes 14 and 15. -/
theorem compact_total (cfg : Compact.Cfg) (sch : Schema) (mode : Mode) (t : Ty) (s : Compact.St) (b : Bytes)
    (fuel : Nat) (hc : Compact.CanRead t s) (hf : b.length + 2 ≤ fuel) :
    ∃ r s' b' k, (readVal (Compact.rd cfg) sch mode fuel t s).run countStep (b, 0) = some ((r, s'), (b', k)) ∧
      b' <:+ b ∧ k ≤ b.length - b'.length + 2 ∧
      ∀ e, r = .error e →
        e ∈ [.eof, TTransportException.SIZE_LIMIT, .unicodeError, .keyError,
          TProtocolException.DEPTH_LIMIT, TProtocolException.INVALID_DATA] ∨
        (e = .typeError ∧ ¬ SchemaHashes sch t) := by
  refine Out.total id (fits_two b) (E := fun e => e ∈ Compact.catalogue ∨ (e = .typeError ∧ ¬ SchemaHashes sch t))
    (readVal_out (Compact.safeOps cfg _ fun e h => .inl h) sch mode fuel t s b ?_ (.inr hf) ?_)
  · exact Compact.can_of_canRead hc
  by_cases h : SchemaHashes sch t
  · exact .inr h
  · exact .inl (.inr ⟨rfl, h⟩)

/-- C18, skipping and message headers, both protocols. -/
theorem skip_total (bcfg : Binary.Cfg) (ccfg : Compact.Cfg) (tt : Int) (d : Nat) (b : Bytes) (fuel : Nat)
    (hf : b.length + 1 ≤ fuel) :
    (∀ s : Binary.St, ∃ r s' b' k, (skip (Binary.rd bcfg) fuel d tt s).run countStep (b, 0) = some ((r, s'), (b', k)) ∧
      b' <:+ b ∧ k ≤ b.length - b'.length + 2 ∧ ∀ e, r = .error e →
        e ∈ [.eof, TTransportException.NEGATIVE_SIZE, TTransportException.SIZE_LIMIT, .unicodeError,
          TProtocolException.DEPTH_LIMIT, TProtocolException.INVALID_DATA]) ∧
    (∀ s : Compact.St, s.state = .VALUE_READ ∧ tt ≠ TType.BOOL ∨ s.state = .CONTAINER_READ →
      ∃ r s' b' k, (skip (Compact.rd ccfg) fuel d tt s).run countStep (b, 0) = some ((r, s'), (b', k)) ∧
      b' <:+ b ∧ k ≤ b.length - b'.length + 2 ∧ ∀ e, r = .error e →
        e ∈ [.eof, TTransportException.SIZE_LIMIT, .unicodeError, .keyError,
          TProtocolException.DEPTH_LIMIT, TProtocolException.INVALID_DATA]) ∧
    (∀ s : Binary.St, ∃ r s' b' k, (Binary.readMessageBegin bcfg s).run countStep (b, 0) = some ((r, s'), (b', k)) ∧
      b' <:+ b ∧ k ≤ b.length - b'.length + 2 ∧ ∀ e, r = .error e →
        e ∈ [.eof, TTransportException.NEGATIVE_SIZE, TTransportException.SIZE_LIMIT, .unicodeError,
          TProtocolException.BAD_VERSION]) ∧
    (∀ s : Compact.St, s.state = .CLEAR →
      ∃ r s' b' k, (Compact.readMessageBegin ccfg s).run countStep (b, 0) = some ((r, s'), (b', k)) ∧
      b' <:+ b ∧ k ≤ b.length - b'.length + 2 ∧ ∀ e, r = .error e →
        e ∈ [.eof, TTransportException.SIZE_LIMIT, .unicodeError, TProtocolException.INVALID_DATA,
          TProtocolException.BAD_VERSION]) := by
  refine ⟨fun s => ?_, fun s hc => ?_, fun s => ?_, fun s hc => ?_⟩
  · exact Out.total id (fits_two b) (skip_out (Binary.safeOps bcfg (· ∈ Binary.catalogue) fun e h => h) fuel d tt s b trivial (.inr hf))
  · refine Out.total id (fits_two b) (skip_out (Compact.safeOps ccfg (· ∈ Compact.catalogue) fun e h => h) fuel d tt s b ?_ (.inr hf))
    rcases hc with h | h
    · exact .inr (.inl h)
    · exact .inl h
  · exact Out.total id (fits_two b) (Binary.readMessageBegin_out bcfg (by simp) (by simp) (by simp) (by simp) (by simp) s b)
  · exact Out.total id (fits_two b) (Compact.readMessageBegin_out ccfg (by simp) (by simp) (by simp) (by simp) (by simp) s b hc)

/-- Eight bytes announcing 2^31 - 1 elements: the reader fails after three reads. -/
example : (readVal (Binary.rd {}) (fun _ => []) .gen 10 (.list .i64) ⟨0⟩).run countStep
    ([10, 0x7F, 0xFF, 0xFF, 0xFF, 1, 2, 3], 0) = some ((.error .eof, ⟨0⟩), ([], 4)) := by rfl

/-- `TypeError` does occur: a set of lists. -/
example : ¬ SchemaHashes (fun _ => []) (.set (.list .byte)) ∧
    exec (readVal (Binary.rd {}) (fun _ => []) .gen 12 (.set (.list .byte))) ⟨0⟩
      [15, 0, 0, 0, 1, 3, 0, 0, 0, 0] = some ((.error .typeError, ⟨0⟩), []) :=
  ⟨fun h => by have := h.1; simp [Hashes, Ty.hashable] at this, rfl⟩

/-! ## C12, C19: what can be returned -/

/-- C19 and C12, binary: a value returned for type `t`, whatever the bytes, inhabits `t`, and all
strings and containers in it are within the limits. -/
theorem binary_decoded_values (cfg : Binary.Cfg) (sch : Schema) (mode : Mode) (t : Ty) (s s' : Binary.St)
    (b b' : Bytes) (fuel : Nat) (v : Val)
    (h : exec (readVal (Binary.rd cfg) sch mode fuel t) s b = some ((.ok v, s'), b')) :
    Decoded InRange cfg.stringLimit cfg.containerLimit sch t v ∧ b' <:+ b := by
  have h' := (fuel_irrelevant (Binary.rd cfg) sch mode t 0 0 (Nat.le_max_left fuel (b.length + 2))
    memStep s b).1 _ h
  have := Out.value (fits_two b) (readVal_out (Binary.safeOps cfg (fun _ => True) fun _ _ => trivial) sch mode _ t s b trivial
    (.inr (Nat.le_max_right _ _)) (.inl trivial)) h'
  exact ⟨this.1.2, this.2⟩

/-- C12, and C19 except for the range of integers, compact: bytes are in range, the other integers
are only known to lie within 70 bits. The protocol object is as before. -/
theorem compact_decoded_values_partial (cfg : Compact.Cfg) (sch : Schema) (mode : Mode) (t : Ty)
    (s s' : Compact.St) (b b' : Bytes) (fuel : Nat) (v : Val) (hc : Compact.CanRead t s)
    (h : exec (readVal (Compact.rd cfg) sch mode fuel t) s b = some ((.ok v, s'), b')) :
    Decoded (fun bits i => if bits = 8 then InRange 8 i else InRange 70 i)
      cfg.stringLimit cfg.containerLimit sch t v ∧ b' <:+ b ∧ Compact.SameObject s s' := by
  have h' := (fuel_irrelevant (Compact.rd cfg) sch mode t 0 0 (Nat.le_max_left fuel (b.length + 2))
    memStep s b).1 _ h
  have := Out.value (fits_two b) (readVal_out (Compact.safeOps cfg (fun _ => True) fun _ _ => trivial) sch mode _ t s b
    (Compact.can_of_canRead hc) (.inr (Nat.le_max_right _ _)) (.inl trivial)) h'
  obtain ⟨g1, g2, g3, g4, g5⟩ := this.1.1
  exact ⟨this.1.2, this.2, Compact.sameObject_of g1 g2 g3 g4 g5⟩

/-- C19 fails for the compact protocol: an `i16` element decodes to 40000. -/
theorem compact_out_of_range :
    exec (readVal (Compact.rd {}) (fun _ => []) .gen 3 (.list .i16)) { state := .VALUE_READ }
      [0x14, 0x80, 0xF1, 0x04] = some ((.ok (.list [.int 40000]), { state := .VALUE_READ }), []) ∧
    ¬ InRange 16 40000 := ⟨by rfl, by decide⟩

/-! ## C12: a bad length is refused before the contents -/

/-- The exception for a length that `_check_length` refuses. -/
def BadLength (limit : Option Int) (n : Int) (e : Exc) : Prop :=
  (n < 0 ∧ e = TTransportException.NEGATIVE_SIZE) ∨
  (0 ≤ n ∧ (∃ l, limit = some l ∧ l < n) ∧ e = TTransportException.SIZE_LIMIT)

theorem checkLength_bad {limit : Option Int} {n : Int} {e : Exc} (h : BadLength limit n e) :
    checkLength limit n = .error e := by
  unfold checkLength
  rcases h with ⟨h1, rfl⟩ | ⟨h0, ⟨l, rfl, h2⟩, rfl⟩
  · rw [if_pos h1]
  · rw [if_neg (by omega)]
    simp only
    rw [if_pos h2]

/-- C12, binary: a negative or oversized length raises before anything behind it is read. -/
theorem binary_bad_length (cfg : Binary.Cfg) (s : Binary.St) (n : Int) (e : Exc) (k v : UInt8) (rest : Bytes)
    (hn : InRange 32 n) :
    (BadLength cfg.stringLimit n e →
      exec (Binary.rd cfg).readBinary s (beInt 4 n ++ rest) = some ((.error e, s), rest) ∧
      exec (Binary.rd cfg).readString s (beInt 4 n ++ rest) = some ((.error e, s), rest)) ∧
    (BadLength cfg.containerLimit n e →
      exec (Binary.rd cfg).readListBegin s (v :: beInt 4 n ++ rest) = some ((.error e, s), rest) ∧
      exec (Binary.rd cfg).readSetBegin s (v :: beInt 4 n ++ rest) = some ((.error e, s), rest) ∧
      exec (Binary.rd cfg).readMapBegin s (k :: v :: beInt 4 n ++ rest) = some ((.error e, s), rest)) := by
  have h4 := (Binary.readInt_ok (n := 4) (by omega) hn s).1 rest
  have h1 : ∀ (x : UInt8) (r : Bytes), ∃ i, exec (Binary.readInt 1) s (x :: r) = some ((.ok i, s), r) := by
    intro x r
    refine ⟨unpackS [x], ?_⟩
    unfold Binary.readInt
    rw [exec_bind, exec_readAll]
    simp
  constructor
  · intro hb
    have hB : exec (Binary.readBinary cfg) s (beInt 4 n ++ rest) = some ((.error e, s), rest) := by
      unfold Binary.readBinary Binary.readI32
      rw [exec_bind, h4]
      simp only [Res.andThen_ok, exec_bind, checkLength_bad hb, exec_lift_error, Res.andThen_error]
    refine ⟨hB, ?_⟩
    show exec (Binary.readString cfg) s _ = _
    unfold Binary.readString
    rw [exec_bind, hB]
    rfl
  · intro hb
    have hL : exec (Binary.readListBegin cfg) s (v :: beInt 4 n ++ rest) = some ((.error e, s), rest) := by
      obtain ⟨i, hi⟩ := h1 v (beInt 4 n ++ rest)
      unfold Binary.readListBegin Binary.readByte Binary.readI32
      rw [List.cons_append, exec_bind, hi, Res.andThen_ok, exec_bind, h4]
      simp only [Res.andThen_ok, exec_bind, checkLength_bad hb, exec_lift_error, Res.andThen_error]
    refine ⟨hL, hL, ?_⟩
    obtain ⟨i, hi⟩ := h1 k (v :: (beInt 4 n ++ rest))
    obtain ⟨j, hj⟩ := h1 v (beInt 4 n ++ rest)
    show exec (Binary.readMapBegin cfg) s _ = _
    unfold Binary.readMapBegin Binary.readByte Binary.readI32
    rw [List.cons_append, List.cons_append, exec_bind, hi, Res.andThen_ok, exec_bind, hj, Res.andThen_ok,
      exec_bind, h4]
    simp only [Res.andThen_ok, exec_bind, checkLength_bad hb, exec_lift_error, Res.andThen_error]

/-- C12, compact: an oversized length raises before anything behind it is read. (A varint is never
negative.) -/
theorem compact_bad_length (cfg : Compact.Cfg) (s : Compact.St) (n : Nat) (l : Int) (t : Ty) (rest : Bytes)
    (hs : s.state = .VALUE_READ ∨ s.state = .CONTAINER_READ) (hn : n < 2 ^ 31) (hl : l < n) :
    (cfg.stringLimit = some l →
      exec (Compact.rd cfg).readBinary s (Spec.Compact.varint n ++ rest)
        = some ((.error TTransportException.SIZE_LIMIT, s), rest) ∧
      exec (Compact.rd cfg).readString s (Spec.Compact.varint n ++ rest)
        = some ((.error TTransportException.SIZE_LIMIT, s), rest)) ∧
    (cfg.containerLimit = some l →
      exec (Compact.rd cfg).readListBegin s (Spec.Compact.listHeader (Spec.Compact.typeCode t) n ++ rest)
        = some ((.error TTransportException.SIZE_LIMIT, s), rest) ∧
      exec (Compact.rd cfg).readSetBegin s (Spec.Compact.listHeader (Spec.Compact.typeCode t) n ++ rest)
        = some ((.error TTransportException.SIZE_LIMIT, s), rest) ∧
      exec (Compact.rd cfg).readMapBegin s (Spec.Compact.varint n ++ rest)
        = some ((.error TTransportException.SIZE_LIMIT, s), rest)) := by
  have hz : exec Compact.readSize s (Spec.Compact.varint n ++ rest) = some ((.ok (n : Int), s), rest) := by
    have h := (Compact.readVarint_ok (n := n) (by omega) s).1 rest
    unfold Compact.readSize
    rw [exec_bind, h, Res.andThen_ok]
    rw [if_neg (by omega)]
    rfl
  have hst : (s.state == .VALUE_READ || s.state == .CONTAINER_READ) = true := by
    rcases hs with h | h <;> simp [h]
  constructor
  · intro hc
    have hck : checkLength cfg.stringLimit (n : Int) = .error TTransportException.SIZE_LIMIT :=
      checkLength_bad (.inr ⟨by omega, ⟨l, hc, hl⟩, rfl⟩)
    have hB : exec (Compact.reader (Compact.readBinaryRaw cfg)) s (Spec.Compact.varint n ++ rest)
        = some ((.error TTransportException.SIZE_LIMIT, s), rest) := by
      unfold Compact.reader Compact.readBinaryRaw
      simp only [exec_bind, exec_get, Res.andThen_ok, hst, exec_assert_true, hz, hck, exec_lift_error,
        Res.andThen_error]
    refine ⟨hB, ?_⟩
    show exec (Compact.readString cfg) s _ = _
    unfold Compact.readString
    rw [exec_bind, hB]
    rfl
  · intro hc
    have hck : checkLength cfg.containerLimit (n : Int) = .error TTransportException.SIZE_LIMIT :=
      checkLength_bad (.inr ⟨by omega, ⟨l, hc, hl⟩, rfl⟩)
    have hL : exec (Compact.readCollectionBegin cfg) s
        (Spec.Compact.listHeader (Spec.Compact.typeCode t) n ++ rest)
        = some ((.error TTransportException.SIZE_LIMIT, s), rest) := by
      rw [← Compact.codeOf_ttype]
      have hc := Compact.codeOf_lt t.ttype
      have hg : ∀ m : Nat, m % 16 = Compact.codeOf t.ttype → Compact.getTType (m : Int) = P.lift (.ok t.ttype) := by
        intro m hm
        unfold Compact.getTType
        rw [Compact.nib_lo, hm, Compact.ttypes_codeOf (isTType_ttype t)]
      unfold Compact.readCollectionBegin Spec.Compact.listHeader
      by_cases h14 : n ≤ 14
      · have e2 : pyShr ((16 * n + Compact.codeOf t.ttype : Nat) : Int) 4 = (n : Int) := by
          rw [Compact.nib_hi]; omega
        rw [if_pos h14]
        simp only [exec_bind, exec_get, Res.andThen_ok, hst, exec_assert_true,
          (Compact.readUByte_ok (show 16 * n + Compact.codeOf t.ttype < 256 by omega) s).1 rest]
        rw [hg _ (by omega), e2]
        simp only [exec_lift_ok, Res.andThen_ok]
        rw [if_neg (by omega)]
        simp only [exec_lift_ok, Res.andThen_ok, exec_bind, exec_pure, hck, exec_lift_error, Res.andThen_error]
      · have e2 : pyShr ((0xF0 + Compact.codeOf t.ttype : Nat) : Int) 4 = 15 := by
          rw [Compact.nib_hi]; omega
        have hu := (Compact.readUByte_ok (show 0xF0 + Compact.codeOf t.ttype < 256 by omega) s).1
          (Spec.Compact.varint n ++ rest)
        rw [if_neg h14, List.cons_append]
        rw [List.cons_append, List.nil_append] at hu
        simp only [exec_bind, exec_get, Res.andThen_ok, hst, exec_assert_true, hu]
        rw [hg _ (by omega), e2]
        simp only [exec_lift_ok, Res.andThen_ok]
        rw [if_pos trivial]
        simp only [exec_lift_ok, Res.andThen_ok, exec_bind, hz, hck, exec_lift_error, Res.andThen_error]
    refine ⟨hL, hL, ?_⟩
    show exec (Compact.readMapBegin cfg) s _ = _
    unfold Compact.readMapBegin
    simp only [exec_bind, exec_get, Res.andThen_ok, hst, exec_assert_true, hz, hck, exec_lift_error,
      Res.andThen_error]

/-- C12 fails for the name of a message in the old (non-strict) encoding: the limit is 1, a name of 4
characters is returned. -/
theorem binary_old_name_unlimited :
    exec (Binary.readMessageBegin { stringLimit := some 1 }) ⟨0⟩
      (Spec.Binary.messageOld [0x70, 0x69, 0x6E, 0x67] 1 7) =
      some ((.ok ([0x70, 0x69, 0x6E, 0x67], 1, 7), ⟨0⟩), []) := by rfl

/-- C12 holds for the name of a message otherwise. -/
theorem message_name_limit (bcfg : Binary.Cfg) (ccfg : Compact.Cfg) (b b' : Bytes) (name : PyStr)
    (type seqid : Int) :
    (∀ s s' : Binary.St, bcfg.strictRead = true →
      exec (Binary.readMessageBegin bcfg) s b = some ((.ok (name, type, seqid), s'), b') →
      Within bcfg.stringLimit (utf8Len name)) ∧
    (∀ s s' : Compact.St, s.state = .CLEAR →
      exec (Compact.readMessageBegin ccfg) s b = some ((.ok (name, type, seqid), s'), b') →
      Within ccfg.stringLimit (utf8Len name)) :=
  ⟨fun s _ hs h => (Out.value (fits_two b) (Binary.readMessageBegin_strict_out bcfg hs s b) h).1,
    fun s _ hs h => (Out.value (fits_two b) (Compact.readMessageBegin_out (E := fun _ => True) ccfg trivial trivial trivial trivial
      trivial s b hs) h).1.2.2⟩

end Thrift
