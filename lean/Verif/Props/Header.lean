import Verif.Proofs.Header
import Verif.Props.Transport
import Verif.Props.Fragmentation
/-
C26-C29: `THeaderTransport`.
-/

namespace Thrift.Header
open Spec Spec.Header Spec.Compact

/-! ## Fixed-width integers of the frame -/

theorem packU_eq {n x : Nat} (h : x < 2 ^ (8 * n)) : packU n (x : Int) = .ok (beInt n x) := by
  unfold packU
  have h1 : (x : Int) < ((2 ^ (8 * n) : Nat) : Int) := Int.ofNat_lt.mpr h
  rw [Int.natCast_pow] at h1
  rw [if_pos ⟨Int.natCast_nonneg x, h1⟩, Int.toNat_natCast]
  rw [← pow256] at h
  have h2 : (x : Int) < ((256 ^ n : Nat) : Int) := Int.ofNat_lt.mpr h
  rw [beBytes_eq_beInt (m := n) (i := (x : Int)) ?_ (Nat.le_refl n)]
  rw [Int.natCast_pow] at h2
  exact (Int.emod_eq_of_lt (Int.natCast_nonneg x) h2).symm

theorem beNat_beInt {n x : Nat} (h : x < 2 ^ (8 * n)) : beNat (beInt n x) = x := by
  have h2 := packU_eq h
  unfold packU at h2
  split at h2
  · have h3 := Except.ok.inj h2
    rw [← pow256] at h
    rw [← h3, Int.toNat_natCast]
    exact beNat_beBytes_of_lt h
  · cases h2

theorem takeU16_beInt {x : Nat} (h : x < 2 ^ 16) (rest : Bytes) :
    takeU16 (beInt 2 x ++ rest) = .ok ((x : Int), rest) := by
  unfold takeU16
  have e : (beInt 2 x ++ rest).take 2 = beInt 2 x := List.take_left' (beInt_length 2 _)
  have e2 : (beInt 2 x ++ rest).drop 2 = rest := List.drop_left' (beInt_length 2 _)
  rw [e, e2, if_pos (beInt_length 2 _)]
  unfold unpackU
  rw [beNat_beInt (n := 2) h]

theorem takeI32_beInt {i : Int} (h : InRange 32 i) (rest : Bytes) :
    takeI32 (beInt 4 i ++ rest) = .ok (i, rest) := by
  unfold takeI32
  have e : (beInt 4 i ++ rest).take 4 = beInt 4 i := List.take_left' (beInt_length 4 _)
  have e2 : (beInt 4 i ++ rest).drop 4 = rest := List.drop_left' (beInt_length 4 _)
  rw [e, e2, if_pos (beInt_length 4 _), unpackS_beInt (n := 4) (by decide) h]

/-! ## C27: client types -/

theorem unframedType_iff (w : Bytes) (hw : w.length = 4) :
    unframedType w = if looksBinary (unpackS w) then some ClientType.UNFRAMED_BINARY
      else if looksCompact w then some ClientType.UNFRAMED_COMPACT else none := by
  obtain ⟨a, b, c, d, rfl⟩ := four hw
  unfold unframedType
  by_cases h1 : word [a, b, c, d] = .binary
  · rw [if_pos ((looksBinary_iff a b c d).mpr h1), h1]; rfl
  · rw [if_neg (fun h => h1 ((looksBinary_iff a b c d).mp h))]
    by_cases h2 : word [a, b, c, d] = .compact
    · rw [if_pos ((looksCompact_iff a b c d).mpr h2), h2]; rfl
    · rw [if_neg (fun h => h2 ((looksCompact_iff a b c d).mp h))]
      cases h : word [a, b, c, d] <;> simp_all

theorem exec_readFrame (z : Zlib) (req : Int) (s : St) (w rest : Bytes) (hw : w.length = 4) :
    exec (readFrame z req) s (w ++ rest) =
      match unframedType w with
      | some t => exec (do setClientTypeP t; startUnframed req w) s rest
      | none => exec (readFramed z (unpackS w)) s rest := by
  unfold readFrame
  have h0 : exec (P.readAll 4) s (w ++ rest) = some ((.ok w, s), rest) := exec_readAll_append 4 s w rest hw
  rw [exec_bind, h0, Res.andThen_ok, unframedType_iff w hw]
  by_cases h1 : looksBinary (unpackS w) = true
  · rw [if_pos h1, if_pos h1]
  · rw [if_neg h1, if_neg h1]
    by_cases h2 : looksCompact w = true
    · rw [if_pos h2, if_pos h2]
    · rw [if_neg h2, if_neg h2]

theorem exec_setClientTypeP (t : Int) (s : St) (b : Bytes) :
    exec (setClientTypeP t) s b = if t ∈ s.allowed then some ((.ok (), { s with clientType := t }), b)
      else some ((.error TTransportException.INVALID_CLIENT_TYPE, s), b) := by
  unfold exec setClientTypeP setClientType
  by_cases h : t ∈ s.allowed
  · simp [h, Prog.run]
  · simp [h, Prog.run]

theorem exec_startUnframed (req : Int) (w : Bytes) (s : St) (b : Bytes) :
    exec (startUnframed req w) s b =
      some ((.ok (), { s with rbuf := BytesIO.of (w ++ b.take (req - 4).toNat) }), b.drop (req - 4).toNat) := by
  unfold startUnframed
  by_cases h : req - 4 > 0
  · rw [if_pos h]; rfl
  · rw [if_neg h]
    have : (req - 4).toNat = 0 := by omega
    rw [this]
    simp

/-- C27, unframed clients: if the first word is the start of a binary or compact message, the client
type is that of an unframed client, provided it is permitted, and the bytes read are kept for the
protocol; otherwise `INVALID_CLIENT_TYPE` is raised and the transport object, in particular its read
buffer, is unchanged. -/
theorem header_unframed (z : Zlib) (req : Int) (s : St) (w rest : Bytes) (hw : w.length = 4) (t : Int)
    (ht : unframedType w = some t) :
    exec (readFrame z req) s (w ++ rest) =
      if t ∈ s.allowed then
        some ((.ok (), { s with clientType := t, rbuf := BytesIO.of (w ++ rest.take (req - 4).toNat) }),
          rest.drop (req - 4).toNat)
      else some ((.error TTransportException.INVALID_CLIENT_TYPE, s), rest) := by
  rw [exec_readFrame z req s w rest hw, ht]
  simp only [exec_bind, exec_setClientTypeP]
  by_cases h : t ∈ s.allowed
  · simp only [if_pos h, Res.andThen_ok, exec_startUnframed]
  · simp only [if_neg h, Res.andThen_error]

example : unframedType [0x80, 0x01, 0x00, 0x01] = some ClientType.UNFRAMED_BINARY ∧
    unframedType [0x82, 0x21, 0x00, 0x04] = some ClientType.UNFRAMED_COMPACT := by decide

/-- A frame length below 2^31 is never taken for the start of an unframed message. -/
theorem unframedType_len {n : Nat} (h : n < 2 ^ 31) : unframedType (beInt 4 n) = none := by
  have hu := unpackS_beInt (n := 4) (by decide) (inRange32_of_lt h)
  rw [unframedType_iff _ (beInt_length 4 _), hu]
  have h1 : ¬ looksBinary (n : Int) = true := by
    have e := pyAnd_neg_mask (n : Int) 16
    have e2 : Binary.VERSION_MASK = -((2 ^ 16 : Nat) : Int) := by decide
    simp only [looksBinary, decide_eq_true_eq, e2, e, Binary.VERSION_1, Nat.reducePow]
    omega
  rw [if_neg h1]
  obtain ⟨a, b, c, d, hw⟩ := four (beInt_length 4 (n : Int))
  rw [hw] at hu ⊢
  have h2 : ¬ looksCompact [a, b, c, d] = true := by
    rw [looksCompact_iff, word_nat]
    rw [unpackS4] at hu
    have ha := a.toNat_lt
    have : a.toNat < 128 := by
      by_cases h' : a.toNat < 128
      · exact h'
      · have hb := b.toNat_lt; have hc := c.toNat_lt; have hd := d.toNat_lt
        rw [if_neg h'] at hu
        omega
    rw [if_neg (by omega), if_neg (by omega)]
    split <;> (intro h; cases h)
  rw [if_neg h2]

theorem exec_openFrameP (z : Zlib) (frame : Bytes) (s : St) (b : Bytes) :
    exec (openFrameP z frame) s b = (openFrame z frame s).map fun r => (r, b) := by
  unfold exec openFrameP
  cases openFrame z frame s <;> rfl

theorem exec_readFramed (z : Zlib) (s : St) (body rest : Bytes) (h : (body.length : Int) ≤ s.maxFrame) :
    exec (readFramed z (body.length : Int)) s (body ++ rest) = (openFrame z body s).map fun r => (r, rest) := by
  unfold readFramed
  simp only [exec_bind, exec_get, Res.andThen_ok]
  rw [if_neg (by omega), exec_bind, exec_readAll_append body.length s body rest rfl, Res.andThen_ok,
    exec_openFrameP]

/-- A complete frame within the size limit is handed to `openFrame`, and nothing behind it is read. -/
theorem exec_frame (z : Zlib) (req : Int) (s : St) (body rest : Bytes) (hl : body.length < 2 ^ 31)
    (h : (body.length : Int) ≤ s.maxFrame) :
    exec (readFrame z req) s (beInt 4 body.length ++ (body ++ rest)) =
      (openFrame z body s).map fun r => (r, rest) := by
  rw [exec_readFrame z req s _ _ (beInt_length 4 _), unframedType_len hl,
    unpackS_beInt (n := 4) (by decide) (inRange32_of_lt hl)]
  exact exec_readFramed z s body rest h

theorem takeI32_four (a b c d : UInt8) (r : Bytes) : takeI32 (a :: b :: c :: d :: r) = .ok (unpackS [a, b, c, d], r) := by
  simp [takeI32]

theorem setClientType_ok {t : Int} {s : St} (h : t ∈ s.allowed) :
    setClientType t s = .ok { s with clientType := t } := if_pos h
theorem setClientType_err {t : Int} {s : St} (h : t ∉ s.allowed) :
    setClientType t s = .error TTransportException.INVALID_CLIENT_TYPE := if_neg h

/-- What `openFrame` does, by the first word of the frame. -/
theorem openFrame_eq (z : Zlib) (s : St) (body : Bytes) (h4 : 4 ≤ body.length) :
    openFrame z body s =
      match framedType (body.take 4) with
      | none => some (.error TTransportException.INVALID_CLIENT_TYPE, s)
      | some t =>
        if t ∈ s.allowed then
          if t = ClientType.HEADERS then
            match parseHeader z { s with clientType := t } body with
            | none => none
            | some (.error e, s) => some (.error e, s)
            | some (.ok p, s) => some (.ok (), { s with rbuf := BytesIO.of p })
          else some (.ok (), { s with clientType := t, rbuf := BytesIO.of body })
        else some (.error TTransportException.INVALID_CLIENT_TYPE, s) := by
  match body, h4 with
  | a :: b :: c :: d :: r, _ =>
    unfold openFrame
    rw [takeI32_four]
    have e : List.take 4 (a :: b :: c :: d :: r) = [a, b, c, d] := rfl
    rw [e]
    simp only [looksHeader_iff, looksBinary_iff, looksCompact_iff]
    unfold framedType
    cases hw : word [a, b, c, d] with
    | binary =>
      simp only [reduceCtorEq, if_false, if_true]
      by_cases h : (1 : Int) ∈ s.allowed
      · rw [show ClientType.FRAMED_BINARY = 1 from rfl, setClientType_ok h, if_pos h]; rfl
      · rw [show ClientType.FRAMED_BINARY = 1 from rfl, setClientType_err h, if_neg h]
    | compact =>
      simp only [reduceCtorEq, if_false, if_true]
      by_cases h : (3 : Int) ∈ s.allowed
      · rw [show ClientType.FRAMED_COMPACT = 3 from rfl, setClientType_ok h, if_pos h]; rfl
      · rw [show ClientType.FRAMED_COMPACT = 3 from rfl, setClientType_err h, if_neg h]
    | header =>
      simp only [reduceCtorEq, if_false, if_true]
      by_cases h : (0 : Int) ∈ s.allowed
      · rw [show ClientType.HEADERS = 0 from rfl, setClientType_ok h, if_pos h]; rfl
      · rw [show ClientType.HEADERS = 0 from rfl, setClientType_err h, if_neg h]
    | other =>
      simp only [reduceCtorEq, if_false]

/-- C27, framed clients: the first word of the frame decides between a header frame, a framed binary
and a framed compact message. If the word is none of these, or the type is not permitted,
`INVALID_CLIENT_TYPE` is raised, the transport object is unchanged and exactly the frame has been
consumed. For the framed binary and compact types the frame becomes the read buffer. (Header frames:
`header_contained`, `header_roundtrip`.) -/
theorem header_framed (z : Zlib) (req : Int) (s : St) (body rest : Bytes) (hl : body.length < 2 ^ 31)
    (h : (body.length : Int) ≤ s.maxFrame) (h4 : 4 ≤ body.length) :
    (∀ t, framedType (body.take 4) = some t → t ∈ s.allowed → t ≠ ClientType.HEADERS →
      exec (readFrame z req) s (beInt 4 body.length ++ (body ++ rest)) =
        some ((.ok (), { s with clientType := t, rbuf := BytesIO.of body }), rest)) ∧
    (∀ t, framedType (body.take 4) = some t → t ∉ s.allowed →
      exec (readFrame z req) s (beInt 4 body.length ++ (body ++ rest)) =
        some ((.error TTransportException.INVALID_CLIENT_TYPE, s), rest)) ∧
    (framedType (body.take 4) = none →
      exec (readFrame z req) s (beInt 4 body.length ++ (body ++ rest)) =
        some ((.error TTransportException.INVALID_CLIENT_TYPE, s), rest)) := by
  rw [exec_frame z req s body rest hl h, openFrame_eq z s body h4]
  refine ⟨fun t ht ha hn => ?_, fun t ht ha => ?_, fun ht => ?_⟩
  · rw [ht]; simp only [if_pos ha, if_neg hn]; rfl
  · rw [ht]; simp only [if_neg ha]; rfl
  · rw [ht]; rfl

example : framedType [0x0F, 0xFF, 0, 0] = some ClientType.HEADERS ∧
    framedType [0x80, 0x01, 0, 1] = some ClientType.FRAMED_BINARY ∧
    framedType [0x82, 0x21, 0, 1] = some ClientType.FRAMED_COMPACT ∧
    framedType [0, 0, 0, 4] = none := by decide

/-- C27: a frame of fewer than four bytes has no second word: `struct.error`, nothing changed. -/
theorem header_tiny_frame (z : Zlib) (req : Int) (s : St) (body rest : Bytes) (h4 : body.length < 4)
    (h : (body.length : Int) ≤ s.maxFrame) :
    exec (readFrame z req) s (beInt 4 body.length ++ (body ++ rest)) = some ((.error .structError, s), rest) := by
  rw [exec_frame z req s body rest (by omega) h]
  unfold openFrame takeI32
  rw [if_neg (by simp; omega)]
  rfl

/-- C27: the protocol in which a client is answered is the one its first word belongs to: 0 is binary, 2
is compact. -/
theorem header_protocol (s : St) (w : Bytes) (t : Int)
    (h : unframedType w = some t ∨ framedType w = some t ∧ t ≠ 0) :
    (word w = .binary → protocolIdOf { s with clientType := t } = .ok 0) ∧
    (word w = .compact → protocolIdOf { s with clientType := t } = .ok 2) ∧
    (word w = .binary ∨ word w = .compact) := by
  unfold unframedType framedType at h
  cases hw : word w <;> rw [hw] at h <;> simp at h
  · rcases h with h | ⟨h, -⟩ <;> subst h <;> exact ⟨fun _ => rfl, (by simp), .inl rfl⟩
  · rcases h with h | ⟨h, -⟩ <;> subst h <;> exact ⟨(by simp), fun _ => rfl, .inr rfl⟩
  · exact absurd h.1.symm h.2

/-! ## C28: size limits -/

/-- Calls that set the two limits. -/
inductive LimitOp where
  | frame (n : Int)
  | decompressed (n : Int)

def LimitOp.run (op : LimitOp) (s : St) : Except Exc Unit × St :=
  match op with
  | .frame n => setMaxFrameSize n s
  | .decompressed n => setMaxDecompressedSize n s

theorem run_frame (n : Int) (s : St) : LimitOp.run (.frame n) s =
    if 0 < n ∧ n ≤ 2 ^ 30 - 2 then (.ok (), { s with maxFrame := n }) else (.error .valueError, s) := by
  unfold LimitOp.run setMaxFrameSize HARD_MAX_FRAME_SIZE
  by_cases h : 0 < n ∧ n ≤ 2 ^ 30 - 2
  · rw [if_pos h]; exact if_pos (by omega)
  · rw [if_neg h]; exact if_neg (by omega)

theorem run_decompressed (n : Int) (s : St) : LimitOp.run (.decompressed n) s =
    if 0 < n ∧ n ≤ 2 ^ 30 - 1 then (.ok (), { s with maxDecomp := n }) else (.error .valueError, s) := by
  unfold LimitOp.run setMaxDecompressedSize HARD_MAX_FRAME_SIZE
  by_cases h : 0 < n ∧ n ≤ 2 ^ 30 - 1
  · rw [if_pos h]; exact if_pos (by omega)
  · rw [if_neg h]; exact if_neg (by omega)

/-- C28: whatever limits are asked for, the limits in force are positive and stay under the hard limits
(2^30 - 2 for a frame, 2^30 - 1 for decompressed data); a refused call raises `ValueError` and changes
nothing, an accepted one sets the limit. -/
theorem header_limits (ops : List LimitOp) (allowed : List Int) :
    let s := ops.foldl (fun s op => (op.run s).2) ({ allowed := allowed } : St)
    (0 < s.maxFrame ∧ s.maxFrame ≤ 2 ^ 30 - 2 ∧ 0 < s.maxDecomp ∧ s.maxDecomp ≤ 2 ^ 30 - 1) ∧
    ∀ n : Int,
      (LimitOp.run (.frame n) s = if 0 < n ∧ n ≤ 2 ^ 30 - 2 then (.ok (), { s with maxFrame := n }) else (.error .valueError, s)) ∧
      (LimitOp.run (.decompressed n) s =
        if 0 < n ∧ n ≤ 2 ^ 30 - 1 then (.ok (), { s with maxDecomp := n }) else (.error .valueError, s)) := by
  refine ⟨?_, ?_⟩
  · have key : ∀ (ops : List LimitOp) (s : St),
        (0 < s.maxFrame ∧ s.maxFrame ≤ 2 ^ 30 - 2 ∧ 0 < s.maxDecomp ∧ s.maxDecomp ≤ 2 ^ 30 - 1) →
        let s' := ops.foldl (fun s op => (op.run s).2) s
        (0 < s'.maxFrame ∧ s'.maxFrame ≤ 2 ^ 30 - 2 ∧ 0 < s'.maxDecomp ∧ s'.maxDecomp ≤ 2 ^ 30 - 1) := by
      intro ops
      induction ops with
      | nil => exact fun s h => h
      | cons op ops ih =>
        intro s h
        apply ih
        cases op with
        | frame n =>
          simp only [run_frame]
          by_cases hn : 0 < n ∧ n ≤ 2 ^ 30 - 2
          · rw [if_pos hn]; exact ⟨hn.1, hn.2, h.2.2⟩
          · rw [if_neg hn]; exact h
        | decompressed n =>
          simp only [run_decompressed]
          by_cases hn : 0 < n ∧ n ≤ 2 ^ 30 - 1
          · rw [if_pos hn]; exact ⟨h.1, h.2.1, hn.1, hn.2⟩
          · rw [if_neg hn]; exact h
    refine key ops _ ⟨?_, ?_, ?_, ?_⟩ <;> simp [DEFAULT_MAX_FRAME_SIZE]
  · intro n
    exact ⟨run_frame n _, run_decompressed n _⟩

/-- Refused and accepted calls. -/
example : ([LimitOp.frame 0, .frame 100, .frame 0x3FFFFFFF, .decompressed 7].foldl (fun s op => (op.run s).2)
    ({ allowed := [] } : St)) = { allowed := [], maxFrame := 100, maxDecomp := 7 } := by decide

/-- C28, receiving: a frame whose announced size is above `max_frame_size` is refused after its length
word, before any byte of the body is read, and nothing changes. -/
theorem header_frame_too_large (z : Zlib) (req : Int) (s : St) (n : Nat) (rest : Bytes) (hl : n < 2 ^ 31)
    (h : s.maxFrame < (n : Int)) :
    exec (readFrame z req) s (beInt 4 n ++ rest) = some ((.error TTransportException.SIZE_LIMIT, s), rest) := by
  rw [exec_readFrame z req s _ _ (beInt_length 4 _), unframedType_len hl,
    unpackS_beInt (n := 4) (by decide) (inRange32_of_lt hl)]
  unfold readFramed
  simp only [exec_bind, exec_get, Res.andThen_ok]
  rw [if_pos (by omega)]
  rfl

example : (16384001 : Nat) < 2 ^ 31 ∧ ({ allowed := [] } : St).maxFrame < ((16384001 : Nat) : Int) := by decide

/-! ## C29: what is read from a header frame -/

/-- The header of a frame starts at byte 10 and is four times the number in bytes 8 and 9 long. -/
def headerEnd (frame : Bytes) : Nat := 10 + 4 * beNat ((frame.drop 8).take 2)

/-- The exceptions with which a malformed header is refused. -/
def HeaderError (z : Zlib) (e : Exc) : Prop :=
  e = .structError ∨ e = .eof ∨ e = TTransportException.SIZE_LIMIT ∨ e = TProtocolException.INVALID_DATA ∨
    e = TApplicationException.INVALID_TRANSFORM ∨ ∃ d max, z.decompress d max = .error e

theorem inflateN_err {z : Zlib} {max : Int} (k : Nat) : ∀ {p : Bytes} {e : Exc}, inflateN z max k p = .error e →
    e = TTransportException.SIZE_LIMIT ∨ ∃ d, z.decompress d max = .error e := by
  induction k with
  | zero => intro p e h; cases h
  | succ k ih =>
    intro p e h
    rw [inflateN] at h
    split at h
    · cases h; exact .inr ⟨_, by assumption⟩
    · exact ih h
    · cases h; exact .inl rfl

theorem takeU16_inv {b r : Bytes} {i : Int} (h : takeU16 b = .ok (i, r)) :
    2 ≤ b.length ∧ i = (beNat (b.take 2) : Int) ∧ r = b.drop 2 := by
  unfold takeU16 at h
  split at h
  · rename_i h2
    cases h
    simp at h2
    exact ⟨by omega, rfl, rfl⟩
  · cases h

theorem takeI32_inv {b r : Bytes} {i : Int} (h : takeI32 b = .ok (i, r)) : 4 ≤ b.length ∧ r = b.drop 4 := by
  unfold takeI32 at h
  split at h
  · rename_i h2
    cases h
    simp at h2
    exact ⟨by omega, rfl⟩
  · cases h

theorem takeU16_err {b : Bytes} {e : Exc} (h : takeU16 b = .error e) : e = .structError := by
  unfold takeU16 at h
  split at h <;> cases h
  rfl

theorem takeI32_err {b : Bytes} {e : Exc} (h : takeI32 b = .error e) : e = .structError := by
  unfold takeI32 at h
  split at h <;> cases h
  rfl

/-- What `parseHeader` does with any frame. -/
theorem parseHeader_any (z : Zlib) (s : St) (frame : Bytes) :
    ∃ r s', parseHeader z s frame = some (r, s') ∧ s'.rbuf = s.rbuf ∧ s'.clientType = s.clientType ∧
      s'.allowed = s.allowed ∧ s'.wbuf = s.wbuf ∧ s'.writeHeaders = s.writeHeaders ∧
      s'.writeTransforms = s.writeTransforms ∧ s'.maxFrame = s.maxFrame ∧ s'.maxDecomp = s.maxDecomp ∧
      (∀ e, r = .error e → HeaderError z e) ∧
      (∀ p, r = .ok p → headerEnd frame ≤ frame.length ∧
        ∃ pid k b1 b2, varintAt (frame.drop 10) = some (pid, b1) ∧ varintAt b1 = some (k, b2) ∧
          s'.protocolId = pid ∧ inflateN z s.maxDecomp k (frame.drop (headerEnd frame)) = .ok p) := by
  unfold parseHeader
  cases h1 : takeU16 (frame.drop 2) with
  | error e =>
    exact ⟨_, _, rfl, rfl, rfl, rfl, rfl, rfl, rfl, rfl, rfl, (by intro e' h; cases h; exact .inl (takeU16_err h1)),
      (by intro p h; cases h)⟩
  | ok x1 =>
  obtain ⟨flags, b1⟩ := x1
  obtain ⟨l1, _, rfl⟩ := takeU16_inv h1
  simp only
  cases h2 : takeI32 ((frame.drop 2).drop 2) with
  | error e =>
    exact ⟨_, _, rfl, rfl, rfl, rfl, rfl, rfl, rfl, rfl, rfl, (by intro e' h; cases h; exact .inl (takeI32_err h2)),
      (by intro p h; cases h)⟩
  | ok x2 =>
  obtain ⟨seq, b2⟩ := x2
  obtain ⟨l2, rfl⟩ := takeI32_inv h2
  simp only
  cases h3 : takeU16 (((frame.drop 2).drop 2).drop 4) with
  | error e =>
    exact ⟨_, _, rfl, rfl, rfl, rfl, rfl, rfl, rfl, rfl, rfl, (by intro e' h; cases h; exact .inl (takeU16_err h3)),
      (by intro p h; cases h)⟩
  | ok x3 =>
  obtain ⟨len, b3⟩ := x3
  obtain ⟨l3, hlen, rfl⟩ := takeU16_inv h3
  simp only [List.drop_drop, List.length_drop] at l1 l2 l3 hlen ⊢
  have he : frame.length - (frame.length - (2 + 2 + 4 + 2)) + len.toNat * 4 = headerEnd frame := by
    unfold headerEnd
    rw [hlen, Int.toNat_natCast]
    simp only [Nat.reduceAdd] at l3 ⊢
    omega
  rw [he]
  by_cases hend : headerEnd frame > frame.length
  · rw [if_pos hend]
    exact ⟨_, _, rfl, rfl, rfl, rfl, rfl, rfl, rfl, rfl, rfl, (by intro e' h; cases h; exact .inr (.inr (.inl rfl))),
      (by intro p h; cases h)⟩
  rw [if_neg hend]
  simp only [Nat.reduceAdd]
  unfold parseIds
  have verr : ∀ {b : Bytes} {e : Exc}, takeVarint b = .error e → HeaderError z e := by
    intro b e h
    rcases takeVarint_err h with h | h
    · exact .inr (.inr (.inr (.inl h)))
    · exact .inr (.inl h)
  cases h4 : takeVarint (frame.drop 10) with
  | error e =>
    exact ⟨_, _, rfl, rfl, rfl, rfl, rfl, rfl, rfl, rfl, rfl, (by intro e' h; cases h; exact verr h4),
      (by intro p h; cases h)⟩
  | ok x4 =>
  obtain ⟨pid, b4⟩ := x4
  obtain ⟨npid, rfl, hv4, l4⟩ := takeVarint_inv h4
  simp only
  cases h5 : takeVarint b4 with
  | error e =>
    exact ⟨_, _, rfl, rfl, rfl, rfl, rfl, rfl, rfl, rfl, rfl, (by intro e' h; cases h; exact verr h5),
      (by intro p h; cases h)⟩
  | ok x5 =>
  obtain ⟨cnt, b5⟩ := x5
  obtain ⟨k, rfl, hv5, l5⟩ := takeVarint_inv h5
  simp only [Int.toNat_natCast]
  cases h6 : takeTransforms k b5 with
  | error e =>
    refine ⟨_, _, rfl, rfl, rfl, rfl, rfl, rfl, rfl, rfl, rfl, ?_, (by intro p h; cases h)⟩
    intro e' h
    cases h
    rcases takeTransforms_err k h6 with h | h | h
    · exact .inr (.inr (.inr (.inl h)))
    · exact .inr (.inl h)
    · exact .inr (.inr (.inr (.inr (.inl h))))
  | ok x6 =>
  obtain ⟨ids, b6⟩ := x6
  have hids := takeTransforms_inv k h6
  subst hids
  simp only
  unfold parseRest
  cases h7 : takeInfos (frame.length - headerEnd frame) (b6.length + 1) [] b6 with
  | none => exact absurd h7 (takeInfos_total _ _ _ _ (by omega))
  | some x7 =>
  cases x7 with
  | error e =>
    refine ⟨_, _, rfl, rfl, rfl, rfl, rfl, rfl, rfl, rfl, rfl, ?_, (by intro p h; cases h)⟩
    intro e' h
    cases h
    rcases takeInfos_err _ _ h7 with h | h
    · exact .inr (.inr (.inr (.inl h)))
    · exact .inr (.inl h)
  | ok d =>
    simp only [List.reverse_replicate, applyReadTransforms_eq]
    refine ⟨_, _, rfl, rfl, rfl, rfl, rfl, rfl, rfl, rfl, rfl, ?_, ?_⟩
    · intro e h
      rcases inflateN_err k h with h | ⟨d, h⟩
      · exact .inr (.inr (.inl h))
      · exact .inr (.inr (.inr (.inr (.inr ⟨_, _, h⟩))))
    · intro p h
      exact ⟨by omega, npid, k, b4, b5, hv4, hv5, rfl, h⟩

/-- C29 (and C28 for decompression): whatever a header frame contains, `readFrame` ends, consumes
exactly the frame, and either raises one of the listed exceptions and leaves the read buffer as it was,
or makes the read buffer the payload: the part of the frame behind the announced header length,
decompressed as many times as the header announces. With a zlib that keeps its promises no
intermediate or final result of decompression is longer than `max_decompressed_size`. -/
theorem header_contained (z : Zlib) (req : Int) (s : St) (body rest : Bytes) (hl : body.length < 2 ^ 31)
    (h : (body.length : Int) ≤ s.maxFrame) (h4 : 4 ≤ body.length)
    (ht : framedType (body.take 4) = some ClientType.HEADERS) (ha : ClientType.HEADERS ∈ s.allowed) :
    ∃ r s', exec (readFrame z req) s (beInt 4 body.length ++ (body ++ rest)) = some ((r, s'), rest) ∧
      (∀ e, r = .error e → HeaderError z e ∧ s'.rbuf = s.rbuf) ∧
      (r = .ok () → headerEnd body ≤ body.length ∧
        ∃ pid k b1 b2 payload, varintAt (body.drop 10) = some (pid, b1) ∧ varintAt b1 = some (k, b2) ∧
          s'.protocolId = pid ∧ s'.clientType = ClientType.HEADERS ∧ s'.rbuf = BytesIO.of payload ∧
          inflateN z s.maxDecomp k (body.drop (headerEnd body)) = .ok payload ∧
          (ZlibOk z → 0 < s.maxDecomp → ∀ j, 0 < j → j ≤ k → ∃ q,
            inflateN z s.maxDecomp j (body.drop (headerEnd body)) = .ok q ∧ (q.length : Int) ≤ s.maxDecomp)) := by
  rw [exec_frame z req s body rest hl h, openFrame_eq z s body h4, ht]
  simp only [if_pos ha, if_true]
  obtain ⟨r, s', hp, hrb, hct, _, _, _, _, _, _, he, hok⟩ :=
    parseHeader_any z { s with clientType := ClientType.HEADERS } body
  rw [hp]
  cases r with
  | error e =>
    refine ⟨.error e, s', rfl, ?_, by intro h; cases h⟩
    intro e' h
    cases h
    exact ⟨he e rfl, hrb⟩
  | ok p =>
    refine ⟨.ok (), { s' with rbuf := BytesIO.of p }, rfl, (by intro e h; cases h), fun _ => ?_⟩
    obtain ⟨h1, pid, k, b1, b2, h2, h3, h5, h6⟩ := hok p rfl
    refine ⟨h1, pid, k, b1, b2, p, h2, h3, h5, hct, rfl, h6, ?_⟩
    intro hz hm j hj hjk
    obtain ⟨q, hq⟩ := inflateN_prefix k j hjk h6
    exact ⟨q, hq, inflateN_bounded hz hm j hj hq⟩

/-- A concrete frame meets the hypotheses: flags 0, sequence id 5, an empty-padded header block, payload
`01 02 03`. -/
example : framedType (([0x0F, 0xFF, 0, 0, 0, 0, 0, 5, 0, 1, 0, 0, 0, 0, 1, 2, 3] : Bytes).take 4) =
      some ClientType.HEADERS ∧
    parseHeader storedZlib { allowed := [0] } [0x0F, 0xFF, 0, 0, 0, 0, 0, 5, 0, 1, 0, 0, 0, 0, 1, 2, 3] =
      some (.ok [1, 2, 3], { allowed := [0], sequenceId := 5 }) := by decide +kernel

/-! ## C26: round trip -/

theorem flatten_varints (k : Nat) :
    ((List.replicate k ZLIB).map fun id => Compact.varintBytes id.toNat).flatten =
      (List.replicate k 1).flatMap varint := by
  induction k with
  | zero => rfl
  | succ k ih =>
    simp only [List.replicate_succ, List.map_cons, List.flatten_cons, List.flatMap_cons, ih]
    rw [Compact.varintBytes_eq]
    rfl

/-- The header block that `flush` builds is the one of the specification. -/
theorem headerBytes_eq (pid k : Nat) (headers : Dict) :
    headerBytes pid (List.replicate k ZLIB) headers = pad (block pid (List.replicate k 1) headers) := by
  have hh : (headers.map fun kv => stringBytes kv.1 ++ stringBytes kv.2).flatten =
      headers.flatMap fun kv => blob kv.1 ++ blob kv.2 := by
    rw [List.flatMap_def]
    congr 1
    apply List.map_congr_left
    intro kv _
    simp only [stringBytes, blob, Compact.varintBytes_eq]
  have hb : Compact.varintBytes (pid : Int).toNat ++ Compact.varintBytes (List.replicate k ZLIB).length ++
      ((List.replicate k ZLIB).map fun id => Compact.varintBytes id.toNat).flatten ++
      (if headers = [] then [] else
        Compact.varintBytes KEY_VALUE.toNat ++ Compact.varintBytes headers.length ++
          (headers.map fun kv => stringBytes kv.1 ++ stringBytes kv.2).flatten) =
      block pid (List.replicate k 1) headers := by
    rw [flatten_varints, hh]
    simp only [Compact.varintBytes_eq, Int.toNat_natCast, List.length_replicate]
    unfold block
    cases headers with
    | nil => simp [info]
    | cons x xs => simp [KEY_VALUE, info]
  unfold headerBytes
  simp only
  rw [hb]
  unfold pad
  congr 2
  omega

/-- What a message of a `THeaderTransport` consists of besides its payload. -/
structure Meta where
  flags : Nat
  seq : Int
  pid : Nat
  /-- the number of times zlib is applied (it is the only transform) -/
  zlibs : Nat
  headers : Dict

/-- The header block of a message. -/
def Meta.block (m : Meta) : Bytes := pad (Header.block m.pid (List.replicate m.zlibs 1) m.headers)

/-- Field widths of the format: 16 bits for the flags, 32 for the sequence id, 16 for the header size in
words; varints carry at most 70 bits. -/
structure Meta.Fits (m : Meta) : Prop where
  flags : m.flags < 2 ^ 16
  seq : InRange 32 m.seq
  pid : m.pid < 2 ^ 70
  zlibs : m.zlibs < 2 ^ 70
  size : m.block.length / 4 < 2 ^ 16

/-- The transport is about to send `m`. -/
structure Sends (s : St) (m : Meta) : Prop where
  client : s.clientType = ClientType.HEADERS
  flags : s.flags = m.flags
  seq : s.sequenceId = m.seq
  pid : s.protocolId = m.pid
  transforms : s.writeTransforms = List.replicate m.zlibs ZLIB
  headers : s.writeHeaders = m.headers

theorem assemble_ok (a b c d e h p : Bytes) :
    assemble (.ok a) (.ok b) (.ok c) (.ok d) (.ok e) h p = .ok (a ++ b ++ c ++ d ++ e ++ h ++ p) := rfl

theorem magic_bytes : packU 2 HEADER_MAGIC = .ok [0x0F, 0xFF] := by decide

theorem pad_length (h : Bytes) : (pad h).length = (h.length + 3) / 4 * 4 := by
  simp [pad]; omega

theorem headerFrame_eq {s : St} {m : Meta} (hs1 : s.flags = m.flags) (hs2 : s.sequenceId = m.seq)
    (hf : m.Fits) (p : Bytes)
    (hl : 10 + m.block.length + p.length < 2 ^ 31) :
    headerFrame s m.block p = .ok (frame m.flags m.seq m.block p) := by
  unfold headerFrame
  rw [hs1, hs2, magic_bytes, packS_len hl, packU_eq (n := 2) hf.flags,
    packS_eq (n := 4) hf.seq, packU_eq (n := 2) hf.size, assemble_ok]
  rfl

theorem flush_headers {ω : Type} (z : Zlib) (k : Sink ω) {s : St} {m : Meta} (hs : Sends s m) (hf : m.Fits)
    (w : ω) (hl : 10 + m.block.length + (deflateN z m.zlibs s.wbuf.value).length < 2 ^ 31) :
    flush z k s w =
      sendBuilt k { s with wbuf := BytesIO.of [], writeHeaders := [] }
        (.ok (frame m.flags m.seq m.block (deflateN z m.zlibs s.wbuf.value))) w := by
  have e1 : applyWriteTransforms z s.writeTransforms s.wbuf.value = .ok (deflateN z m.zlibs s.wbuf.value) := by
    rw [hs.transforms, applyWriteTransforms_eq]
  have e2 : headerBytes s.protocolId s.writeTransforms s.writeHeaders = m.block := by
    rw [hs.pid, hs.transforms, hs.headers, headerBytes_eq]; rfl
  have e3 := headerFrame_eq (s := { s with wbuf := BytesIO.of [], writeHeaders := [] }) (m := m)
    hs.flags hs.seq hf _ hl
  unfold flush
  simp only
  rw [if_pos hs.client]
  simp only [e1]
  rw [if_neg (by rw [hs.pid]; omega), e2, e3]

theorem frame_length (m : Meta) (p : Bytes) :
    ((frame m.flags m.seq m.block p).length : Int) - 4 = ((10 + m.block.length + p.length : Nat) : Int) := by
  simp only [Spec.Header.frame, List.length_append, beInt_length, List.length_cons, List.length_nil]
  omega

/-- C26, sending: `flush` hands exactly one frame of the specified layout to the underlying transport and
flushes it. Afterwards the write buffer is empty and the headers are gone, so they go with one message
only; everything else is unchanged. -/
theorem header_flush {ω : Type} (z : Zlib) (k : Sink ω) {s : St} {m : Meta} (hs : Sends s m) (hf : m.Fits)
    (w : ω) (hmax : s.maxFrame < 2 ^ 31)
    (hl : ((10 + m.block.length + (deflateN z m.zlibs s.wbuf.value).length : Nat) : Int) ≤ s.maxFrame) :
    flush z k s w =
      (let r := k.writeFlush (frame m.flags m.seq m.block (deflateN z m.zlibs s.wbuf.value)) w
       (r.1, { s with wbuf := BytesIO.of [], writeHeaders := [] }, r.2)) := by
  rw [flush_headers z k hs hf w (by omega)]
  unfold sendBuilt send
  simp only
  rw [frame_length, if_neg (by omega)]

/-- C28, sending: a frame above `max_frame_size` is refused before anything is sent. -/
theorem header_send_too_large {ω : Type} (z : Zlib) (k : Sink ω) {s : St} {m : Meta} (hs : Sends s m) (hf : m.Fits)
    (w : ω) (hl : 10 + m.block.length + (deflateN z m.zlibs s.wbuf.value).length < 2 ^ 31)
    (hbig : s.maxFrame < ((10 + m.block.length + (deflateN z m.zlibs s.wbuf.value).length : Nat) : Int)) :
    flush z k s w = (.error TTransportException.SIZE_LIMIT,
      { s with wbuf := BytesIO.of [], writeHeaders := [] }, w) := by
  rw [flush_headers z k hs hf w hl]
  unfold sendBuilt send
  simp only
  rw [frame_length, if_pos (by omega)]

theorem varint_length_lt (n : Nat) : n < 2 ^ 70 → 0 < (varint n).length := by
  intro _
  rw [varint]
  split <;> simp

/-- The body of a header frame as `_parse_header_format` sees it. -/
theorem parseHeader_frame {z : Zlib} (hz : ZlibOk z) (s : St) {m : Meta} (hf : m.Fits)
    (hd : (m.headers.map (·.1)).Nodup) (payload : Bytes)
    (hmax : ∀ j, j < m.zlibs → ((deflateN z j payload).length : Int) ≤ s.maxDecomp) :
    parseHeader z s ([0x0F, 0xFF] ++ beInt 2 m.flags ++ beInt 4 m.seq ++ beInt 2 (m.block.length / 4 : Nat) ++
        m.block ++ deflateN z m.zlibs payload) =
      some (.ok payload, { s with
        flags := m.flags, sequenceId := m.seq, protocolId := m.pid, readHeaders := m.headers }) := by
  -- the pairs are shorter than the block that contains them
  have hbl : m.block.length < 2 ^ 20 := by have := hf.size; omega
  have hblen : (block m.pid (List.replicate m.zlibs 1) m.headers).length ≤ m.block.length := by
    unfold Meta.block pad; simp
  have hkv : ∀ kv ∈ m.headers, kv.1.length < 2 ^ 70 ∧ kv.2.length < 2 ^ 70 := by
    intro kv hm
    have h1 : (blob kv.1 ++ blob kv.2).length ≤
        (m.headers.flatMap fun kv => blob kv.1 ++ blob kv.2).length := by
      obtain ⟨a, b, hab⟩ := List.append_of_mem hm
      rw [hab]
      simp only [List.flatMap_append, List.flatMap_cons, List.length_append]
      omega
    have h2 : (m.headers.flatMap fun kv => blob kv.1 ++ blob kv.2).length ≤
        (block m.pid (List.replicate m.zlibs 1) m.headers).length := by
      unfold block
      cases hh : m.headers with
      | nil => rw [hh] at hm; cases hm
      | cons x xs => simp only [info, List.length_append]; omega
    have h3 : (blob kv.1 ++ blob kv.2).length =
        (varint kv.1.length).length + kv.1.length + ((varint kv.2.length).length + kv.2.length) := by
      simp only [blob, List.length_append]
    omega
  have hcnt : m.headers.length < 2 ^ 70 := by
    have h1 : m.headers.length ≤ (m.headers.flatMap fun kv => blob kv.1 ++ blob kv.2).length := by
      generalize m.headers = hs
      induction hs with
      | nil => simp
      | cons x xs ih =>
        have : 0 < (blob x.1).length := by
          unfold blob
          rw [varint]
          split <;> simp
        simp only [List.flatMap_cons, List.length_append, List.length_cons]
        omega
    have h2 : (m.headers.flatMap fun kv => blob kv.1 ++ blob kv.2).length ≤
        (block m.pid (List.replicate m.zlibs 1) m.headers).length := by
      unfold block
      cases hh : m.headers with
      | nil => simp
      | cons x xs => simp only [info, List.length_append]; omega
    omega
  unfold parseHeader
  have e0 : ∀ x : Bytes, ([0x0F, 0xFF] ++ x).drop 2 = x := fun x => rfl
  simp only [List.append_assoc]
  rw [e0, takeU16_beInt hf.flags]
  simp only
  rw [takeI32_beInt hf.seq]
  simp only
  rw [takeU16_beInt hf.size]
  simp only [Int.toNat_natCast, List.length_append, beInt_length, List.length_cons, List.length_nil]
  have hmod : m.block.length / 4 * 4 = m.block.length := by
    unfold Meta.block
    rw [pad_length]
    omega
  rw [hmod]
  have hsub : 0 + 1 + 1 + (2 + (4 + (2 + (m.block.length + (deflateN z m.zlibs payload).length)))) -
      (m.block.length + (deflateN z m.zlibs payload).length) + m.block.length = 10 + m.block.length := by omega
  rw [hsub, if_neg (by omega)]
  unfold parseIds
  have hblk : m.block = varint m.pid ++ (varint m.zlibs ++ ((List.replicate m.zlibs 1).flatMap varint ++
      (info m.headers ++ List.replicate (((block m.pid (List.replicate m.zlibs 1) m.headers).length + 3) / 4 * 4 -
          (block m.pid (List.replicate m.zlibs 1) m.headers).length) 0))) := by
    unfold Meta.block pad
    conv => lhs; arg 1; unfold block
    simp only [List.append_assoc, List.length_replicate]
  generalize hpad : ((block m.pid (List.replicate m.zlibs 1) m.headers).length + 3) / 4 * 4 -
      (block m.pid (List.replicate m.zlibs 1) m.headers).length = np at hblk
  have hdrop : ∀ x : Bytes, List.drop (10 + m.block.length)
      ([0x0F, 0xFF] ++ (beInt 2 m.flags ++ (beInt 4 m.seq ++ (beInt 2 (m.block.length / 4 : Nat) ++ (m.block ++ x))))) =
      x := by
    intro x
    have : [0x0F, 0xFF] ++ (beInt 2 m.flags ++ (beInt 4 m.seq ++ (beInt 2 (m.block.length / 4 : Nat) ++ (m.block ++ x)))) =
      ([0x0F, 0xFF] ++ (beInt 2 m.flags ++ (beInt 4 m.seq ++ (beInt 2 (m.block.length / 4 : Nat) ++ m.block)))) ++ x := by
      simp only [List.append_assoc]
    rw [this]
    apply List.drop_left'
    simp only [List.length_append, beInt_length, List.length_cons, List.length_nil]
    omega
  have hlen : ∀ x : Bytes,
      ([0x0F, 0xFF] ++ (beInt 2 m.flags ++ (beInt 4 m.seq ++ (beInt 2 (m.block.length / 4 : Nat) ++ (m.block ++ x))))).length
        - (10 + m.block.length) = x.length := by
    intro x
    simp only [List.length_append, beInt_length, List.length_cons, List.length_nil]
    omega
  generalize hframe : [0x0F, 0xFF] ++ (beInt 2 m.flags ++ (beInt 4 m.seq ++ (beInt 2 (m.block.length / 4 : Nat) ++
    (m.block ++ deflateN z m.zlibs payload)))) = fr
  have hdrop' := hdrop (deflateN z m.zlibs payload)
  have hlen' := hlen (deflateN z m.zlibs payload)
  rw [hframe] at hdrop' hlen'
  generalize 10 + m.block.length = endH at hdrop' hlen'
  rw [hblk]
  simp only [List.append_assoc]
  rw [takeVarint_ok hf.pid]
  simp only
  rw [takeVarint_ok hf.zlibs]
  simp only [Int.toNat_natCast]
  rw [takeTransforms_ok]
  simp only
  unfold parseRest
  rw [hlen', hdrop', List.reverse_replicate, applyReadTransforms_eq]
  have hinf : inflateN z s.maxDecomp m.zlibs (deflateN z m.zlibs payload) = .ok payload :=
    inflateN_deflateN hz _ _ _ hmax
  cases hh : m.headers with
  | nil =>
    simp only [info, List.nil_append]
    rw [takeInfos_pad _ _ _ _ _ rfl]
    simp only [hinf]
  | cons x xs =>
    simp only [info, List.append_assoc]
    have hv1 : 0 < (varint 1).length := varint_length_lt 1 (by decide)
    have hk : ((1 : Nat) : Int) = KEY_VALUE := by decide
    rw [takeInfos, if_neg (by simp only [List.length_append]; omega), takeVarint_ok (by decide)]
    simp only
    rw [if_pos hk, ← hh, takeVarint_ok hcnt]
    simp only [Int.toNat_natCast]
    rw [takePairs_ok m.headers [] _ (by simpa using hd) hkv]
    simp only [List.nil_append]
    have hf2 : ∃ f, (varint 1 ++ (varint m.headers.length ++ (m.headers.flatMap (fun kv : Bytes × Bytes => blob kv.1 ++ blob kv.2) ++
        (List.replicate np 0 ++ deflateN z m.zlibs payload)))).length = f + 1 := by
      have : 0 < (varint 1).length := varint_length_lt 1 (by decide)
      refine ⟨_, (Nat.succ_pred_eq_of_pos ?_).symm⟩
      simp only [List.length_append]
      omega
    obtain ⟨f, hf2⟩ := hf2
    rw [hf2, takeInfos_pad _ _ _ _ _ rfl]
    simp only [hinf]

theorem word_magic (x : Bytes) : framedType (List.take 4 ([0x0F, 0xFF] ++ x)) = some ClientType.HEADERS := by
  match x with
  | [] => rfl
  | [_] => rfl
  | _ :: _ :: _ => rfl

/-- The transport object after it has received message `m` with payload `p`. -/
def received (s : St) (m : Meta) (p : Bytes) : St :=
  { s with
    clientType := ClientType.HEADERS, flags := m.flags, sequenceId := m.seq, protocolId := m.pid
    readHeaders := m.headers, rbuf := BytesIO.of p }

theorem openFrame_header {z : Zlib} (hz : ZlibOk z) (s : St) {m : Meta} (hf : m.Fits)
    (hd : (m.headers.map (·.1)).Nodup) (ha : ClientType.HEADERS ∈ s.allowed) (payload : Bytes)
    (hmax : ∀ j, j < m.zlibs → ((deflateN z j payload).length : Int) ≤ s.maxDecomp) :
    openFrame z ([0x0F, 0xFF] ++ beInt 2 m.flags ++ beInt 4 m.seq ++ beInt 2 (m.block.length / 4 : Nat) ++
        m.block ++ deflateN z m.zlibs payload) s = some (.ok (), received s m payload) := by
  rw [openFrame_eq z s _ (by
    simp only [List.length_append, beInt_length, List.length_cons, List.length_nil]; omega)]
  rw [show framedType (List.take 4 ([0x0F, 0xFF] ++ beInt 2 m.flags ++ beInt 4 m.seq ++
    beInt 2 (m.block.length / 4 : Nat) ++ m.block ++ deflateN z m.zlibs payload)) =
      some ClientType.HEADERS from by simp only [List.append_assoc]; exact word_magic _]
  simp only [if_pos ha, if_true]
  rw [parseHeader_frame hz { s with clientType := ClientType.HEADERS } hf hd payload hmax]
  rfl

/-- C26, receiving: a frame laid out as specified is read back as exactly the flags, the sequence id, the
protocol id, the headers and the payload it was made from; nothing behind the frame is consumed and
nothing else in the transport changes. -/
theorem header_receive {z : Zlib} (hz : ZlibOk z) (req : Int) (s : St) {m : Meta} (hf : m.Fits)
    (hd : (m.headers.map (·.1)).Nodup) (ha : ClientType.HEADERS ∈ s.allowed) (payload rest : Bytes)
    (hl : 10 + m.block.length + (deflateN z m.zlibs payload).length < 2 ^ 31)
    (hfr : ((10 + m.block.length + (deflateN z m.zlibs payload).length : Nat) : Int) ≤ s.maxFrame)
    (hmax : ∀ j, j < m.zlibs → ((deflateN z j payload).length : Int) ≤ s.maxDecomp) :
    exec (readFrame z req) s (frame m.flags m.seq m.block (deflateN z m.zlibs payload) ++ rest) =
      some ((.ok (), received s m payload), rest) := by
  generalize hbody : [0x0F, 0xFF] ++ beInt 2 m.flags ++ beInt 4 m.seq ++ beInt 2 (m.block.length / 4 : Nat) ++
        m.block ++ deflateN z m.zlibs payload = body
  have hlen : body.length = 10 + m.block.length + (deflateN z m.zlibs payload).length := by
    rw [← hbody]
    simp only [List.length_append, beInt_length, List.length_cons, List.length_nil]
  have hfb : frame m.flags m.seq m.block (deflateN z m.zlibs payload) ++ rest =
      beInt 4 body.length ++ (body ++ rest) := by
    rw [hlen, ← hbody]
    simp only [Spec.Header.frame, List.append_assoc]
  rw [hfb, exec_frame z req s body rest (by omega) (by omega), ← hbody,
    openFrame_header hz s hf hd ha payload hmax]
  rfl

/-- What the user of the sending side may do between two flushes. -/
inductive SendOp where
  | setHeader (key value : Bytes)
  | clearHeaders
  | addTransform
  | write (b : Bytes)

def SendOp.run : SendOp → St → St
  | .setHeader k v, s => (Header.setHeader (.bytes k) (.bytes v) s).2
  | .clearHeaders, s => Header.clearHeaders s
  | .addTransform, s => (Header.addTransform ZLIB s).2
  | .write b, s => (Header.write (.bytes b) s).2

/-- The bytes written. -/
def SendOp.payload : List SendOp → Bytes
  | [] => []
  | .write b :: ops => b ++ payload ops
  | _ :: ops => payload ops

/-- The number of transforms added. -/
def SendOp.zlibs : List SendOp → Nat
  | [] => 0
  | .addTransform :: ops => zlibs ops + 1
  | _ :: ops => zlibs ops

/-- The value that a history of `set_header` and `clear_headers` gives to a key: the last one set, unless
the headers were cleared since; `cur` is the value before. -/
def SendOp.header (key : Bytes) : List SendOp → Option Bytes → Option Bytes
  | [], cur => cur
  | .setHeader k v :: ops, cur => header key ops (if k = key then some v else cur)
  | .clearHeaders :: ops, _ => header key ops none
  | _ :: ops, cur => header key ops cur

theorem Dict.put_keys (d : Dict) (k v : Bytes) :
    (d.put k v).map (·.1) = if k ∈ d.map (·.1) then d.map (·.1) else d.map (·.1) ++ [k] := by
  induction d with
  | nil => simp [Dict.put]
  | cons x d ih =>
    obtain ⟨k', v'⟩ := x
    unfold Dict.put
    by_cases h : k' = k
    · subst h; simp
    · simp only [if_neg h, List.map_cons, ih, List.mem_cons, List.cons_append]
      by_cases h2 : k ∈ d.map (·.1)
      · simp [h2]
      · have : ¬ k = k' := fun e => h e.symm
        simp [h2, this]

theorem Dict.put_nodup (d : Dict) (k v : Bytes) (h : (d.map (·.1)).Nodup) : ((d.put k v).map (·.1)).Nodup := by
  rw [Dict.put_keys]
  split
  · exact h
  · rename_i hk
    rw [List.nodup_append]
    refine ⟨h, by simp, ?_⟩
    intro a ha b hb e
    simp at hb
    subst hb; subst e
    exact hk ha

theorem Dict.put_lookup (d : Dict) (k v key : Bytes) :
    (d.put k v).lookup key = if k = key then some v else d.lookup key := by
  induction d with
  | nil =>
    unfold Dict.put
    by_cases h : k = key
    · subst h; simp
    · have : (key == k) = false := by simpa using fun e => h e.symm
      simp [List.lookup, this, h]
  | cons x d ih =>
    obtain ⟨k', v'⟩ := x
    unfold Dict.put
    by_cases h : k' = k
    · subst h
      by_cases h2 : k' = key
      · subst h2; simp
      · have : (key == k') = false := by simpa using fun e => h2 e.symm
        simp [List.lookup, this, h2]
    · simp only [if_neg h, List.lookup]
      by_cases h2 : key = k'
      · subst h2
        have : ¬ k = key := fun e => h e.symm
        simp [this]
      · have : (key == k') = false := by simpa using h2
        simp only [this, ih]

/-- The state of the sending side after any history of calls since the last flush. -/
theorem sendOps (ops : List SendOp) : ∀ s : St, s.wbuf.pos = s.wbuf.value.length →
    (s.writeHeaders.map (·.1)).Nodup → ∀ k, s.writeTransforms = List.replicate k ZLIB →
    let s' := ops.foldl (fun s op => op.run s) s
    s'.wbuf.value = s.wbuf.value ++ SendOp.payload ops ∧ s'.wbuf.pos = s'.wbuf.value.length ∧
    (s'.writeHeaders.map (·.1)).Nodup ∧ s'.writeTransforms = List.replicate (k + SendOp.zlibs ops) ZLIB ∧
    (∀ key, s'.writeHeaders.lookup key = SendOp.header key ops (s.writeHeaders.lookup key)) ∧
    s'.clientType = s.clientType ∧ s'.flags = s.flags ∧ s'.sequenceId = s.sequenceId ∧
    s'.protocolId = s.protocolId ∧ s'.maxFrame = s.maxFrame := by
  induction ops with
  | nil => intro s h1 h2 k h3; simp [SendOp.payload, SendOp.zlibs, SendOp.header, h1, h2, h3]
  | cons op ops ih =>
    intro s h1 h2 k h3
    cases op with
    | setHeader key v =>
      obtain ⟨a, b, c, d, e, f⟩ := ih (SendOp.run (.setHeader key v) s) h1 (Dict.put_nodup _ _ _ h2) k h3
      refine ⟨a, b, c, d, ?_, f⟩
      intro key'
      refine (e key').trans ?_
      rw [SendOp.header]
      congr 1
      exact Dict.put_lookup _ _ _ _
    | clearHeaders =>
      obtain ⟨a, b, c, d, e, f⟩ := ih (SendOp.run .clearHeaders s) h1 (by simp [SendOp.run, Header.clearHeaders]) k h3
      exact ⟨a, b, c, d, fun key => (e key), f⟩
    | addTransform =>
      obtain ⟨a, b, c, d, e, f⟩ := ih (SendOp.run .addTransform s) h1 h2 (k + 1) (by
        unfold SendOp.run Header.addTransform
        simp only [if_true, h3, List.replicate_succ'])
      refine ⟨a, b, c, ?_, e, f⟩
      rw [SendOp.zlibs, List.foldl_cons, d]
      congr 1; omega
    | write x =>
      obtain ⟨w1, w2, _⟩ := BytesIO.write_end s.wbuf x h1
      obtain ⟨a, b, c, d, e, f⟩ := ih (SendOp.run (.write x) s) w2 h2 k h3
      refine ⟨?_, b, c, d, e, f⟩
      refine a.trans ?_
      change (s.wbuf.write x).value ++ _ = _
      rw [w1, List.append_assoc]
      rfl

/-- An underlying transport that keeps everything and never fails. -/
def recorder : Sink Bytes where
  write b w := (.ok (), w ++ b)
  flush w := (.ok (), w)

/-- C26: two transports connected back to back. Whatever the sender has done since the last flush
(`ops`: headers, transforms, writes), a flush produces bytes from which the peer reads the payload, the
flags, the sequence id, the protocol id and, for every key, the last value set; the sender is left with no
headers and an empty buffer. Hypotheses: the field widths of the format and the size limits of either
side. -/
theorem header_roundtrip {z : Zlib} (hz : ZlibOk z) (s0 sr : St) (ops : List SendOp) (m : Meta) (hf : m.Fits)
    (hfresh : s0.wbuf = BytesIO.of [] ∧ s0.writeHeaders = [] ∧ s0.writeTransforms = [] ∧
      s0.clientType = ClientType.HEADERS)
    (hm : m.flags = s0.flags ∧ m.seq = s0.sequenceId ∧ m.pid = s0.protocolId ∧ m.zlibs = SendOp.zlibs ops ∧
      m.headers = (ops.foldl (fun s op => op.run s) s0).writeHeaders)
    (ha : ClientType.HEADERS ∈ sr.allowed) (hs31 : s0.maxFrame < 2 ^ 31)
    (hfs : ((10 + m.block.length + (deflateN z m.zlibs (SendOp.payload ops)).length : Nat) : Int) ≤ s0.maxFrame)
    (hfr : ((10 + m.block.length + (deflateN z m.zlibs (SendOp.payload ops)).length : Nat) : Int) ≤ sr.maxFrame)
    (hmax : ∀ j, j < m.zlibs → ((deflateN z j (SendOp.payload ops)).length : Int) ≤ sr.maxDecomp)
    (req : Int) (rest : Bytes) :
    let s := ops.foldl (fun s op => op.run s) s0
    ∃ wire, flush z recorder s [] = (.ok (), { s with wbuf := BytesIO.of [], writeHeaders := [] }, wire) ∧
      exec (readFrame z req) sr (wire ++ rest) = some ((.ok (), received sr m (SendOp.payload ops)), rest) ∧
      ∀ key, m.headers.lookup key = SendOp.header key ops none := by
  obtain ⟨f1, f2, f3, f4⟩ := hfresh
  obtain ⟨m1, m2, m3, m4, m5⟩ := hm
  obtain ⟨a, b, c, d, e, g1, g2, g3, g4, g5⟩ := sendOps ops s0 (by rw [f1]; rfl) (by rw [f2]; simp) 0 (by rw [f3]; rfl)
  rw [f1] at a
  simp only [BytesIO.of, List.nil_append] at a
  have hs : Sends (ops.foldl (fun s op => op.run s) s0) m :=
    ⟨g1.trans f4, g2.trans m1.symm, g3.trans m2.symm, g4.trans m3.symm, by rw [d, m4]; congr 1; omega, m5.symm⟩
  intro s
  refine ⟨frame m.flags m.seq m.block (deflateN z m.zlibs (SendOp.payload ops)), ?_, ?_, ?_⟩
  · rw [header_flush z recorder hs hf [] (by rw [g5]; exact hs31) (by rw [a, g5]; exact hfs), a]
    rfl
  · exact header_receive hz req sr hf (by rw [m5]; exact c) ha _ _ (by omega) hfr hmax
  · intro key
    rw [m5, e key, f2]
    rfl

/-- A concrete case of the hypotheses of `header_roundtrip`: two headers, one of them set twice, zlib
applied twice, a payload in two writes. -/
example :
    let ops : List SendOp := [.setHeader [1] [2], .addTransform, .write [7, 8], .setHeader [3] [4, 5],
      .setHeader [1] [9], .addTransform, .write [6]]
    let s0 : St := { allowed := [0], sequenceId := -7, flags := 3, protocolId := 2 }
    let m : Meta := ⟨3, -7, 2, 2, [([1], [9]), ([3], [4, 5])]⟩
    m.headers = (ops.foldl (fun s op => op.run s) s0).writeHeaders ∧ SendOp.payload ops = [7, 8, 6] ∧
    (flush storedZlib recorder (ops.foldl (fun s op => op.run s) s0) []).2.2 =
      [0, 0, 0, 31, 0x0F, 0xFF, 0, 3, 0xFF, 0xFF, 0xFF, 0xF9, 0, 4,
       2, 2, 1, 1, 1, 2, 1, 1, 1, 9, 1, 3, 2, 4, 5, 0, 0x78, 0x78, 7, 8, 6] := by decide +kernel

example : (⟨3, -7, 2, 2, [([1], [9]), ([3], [4, 5])]⟩ : Meta).Fits :=
  ⟨by decide, ⟨by decide, by decide⟩, by decide, by decide, by decide +kernel⟩

theorem sendBuilt_state {ω : Type} (k : Sink ω) (s : St) (f : Except Exc Bytes) (w : ω) :
    (sendBuilt k s f w).2.1 = s := by
  cases f <;> rfl

/-- C28, sending, for every state and client type: `flush` either leaves the underlying transport alone
and raises, or sends one frame that is, not counting a length word, within `max_frame_size`. -/
theorem header_send_limit {ω : Type} (z : Zlib) (k : Sink ω) (s : St) (w : ω) :
    (∃ e, (flush z k s w).1 = .error e ∧ (flush z k s w).2.2 = w) ∨
    (∃ f : Bytes, (f.length : Int) - 4 ≤ s.maxFrame ∧
      ((flush z k s w).1, (flush z k s w).2.2) = k.writeFlush f w) := by
  have key : ∀ (s' : St) (f : Except Exc Bytes), s'.maxFrame = s.maxFrame →
      (∃ e, (sendBuilt k s' f w).1 = .error e ∧ (sendBuilt k s' f w).2.2 = w) ∨
      (∃ f' : Bytes, (f'.length : Int) - 4 ≤ s.maxFrame ∧
        ((sendBuilt k s' f w).1, (sendBuilt k s' f w).2.2) = k.writeFlush f' w) := by
    intro s' f hs
    cases f with
    | error e => exact .inl ⟨e, rfl, rfl⟩
    | ok f =>
      unfold sendBuilt send
      simp only
      by_cases h : (f.length : Int) - 4 > s'.maxFrame
      · rw [if_pos h]; exact .inl ⟨_, rfl, rfl⟩
      · rw [if_neg h]; exact .inr ⟨f, by omega, rfl⟩
  unfold flush
  simp only
  by_cases h1 : s.clientType = ClientType.HEADERS
  · rw [if_pos h1]
    cases applyWriteTransforms z s.writeTransforms s.wbuf.value with
    | error e => exact .inl ⟨e, rfl, rfl⟩
    | ok p =>
      simp only
      by_cases h2 : s.protocolId < 0
      · rw [if_pos h2]; exact .inl ⟨_, rfl, rfl⟩
      · rw [if_neg h2]; exact key _ _ rfl
  · rw [if_neg h1]
    by_cases h2 : s.clientType = ClientType.FRAMED_BINARY ∨ s.clientType = ClientType.FRAMED_COMPACT
    · rw [if_pos h2]; exact key _ _ rfl
    · rw [if_neg h2]
      by_cases h3 : s.clientType = ClientType.UNFRAMED_BINARY ∨ s.clientType = ClientType.UNFRAMED_COMPACT
      · rw [if_pos h3]; exact key _ _ rfl
      · rw [if_neg h3]; exact .inl ⟨_, rfl, rfl⟩

/-- Headers set while the transport speaks to a client of another type are not sent and not dropped: they
go with the next header frame. -/
theorem header_kept_framed {ω : Type} (z : Zlib) (k : Sink ω) (s : St) (w : ω)
    (h : s.clientType ≠ ClientType.HEADERS) : (flush z k s w).2.1.writeHeaders = s.writeHeaders := by
  unfold flush
  simp only
  rw [if_neg h]
  split
  · rw [sendBuilt_state]
  · split
    · rw [sendBuilt_state]
    · rfl

/-- C26, framed and unframed clients: `flush` answers with what the client understands. -/
theorem header_flush_other {ω : Type} (z : Zlib) (k : Sink ω) (s : St) (w : ω) (hmax : s.maxFrame < 2 ^ 31)
    (hl : (s.wbuf.value.length : Int) ≤ s.maxFrame) :
    ((s.clientType = ClientType.FRAMED_BINARY ∨ s.clientType = ClientType.FRAMED_COMPACT) →
      flush z k s w = (let r := k.writeFlush (beInt 4 s.wbuf.value.length ++ s.wbuf.value) w
        (r.1, { s with wbuf := BytesIO.of [] }, r.2))) ∧
    ((s.clientType = ClientType.UNFRAMED_BINARY ∨ s.clientType = ClientType.UNFRAMED_COMPACT) →
      flush z k s w = (let r := k.writeFlush s.wbuf.value w
        (r.1, { s with wbuf := BytesIO.of [] }, r.2))) := by
  constructor
  · intro h
    have h0 : ¬ s.clientType = ClientType.HEADERS := by
      rcases h with h | h <;> rw [h] <;> decide
    unfold flush
    simp only
    rw [if_neg h0, if_pos h, packS_len (by omega)]
    unfold sendBuilt send
    simp only [Except.map]
    rw [if_neg (by simp only [List.length_append, beInt_length]; omega)]
  · intro h
    have h0 : ¬ s.clientType = ClientType.HEADERS := by
      rcases h with h | h <;> rw [h] <;> decide
    have h1 : ¬ (s.clientType = ClientType.FRAMED_BINARY ∨ s.clientType = ClientType.FRAMED_COMPACT) := by
      rcases h with h | h <;> rw [h] <;> decide
    unfold flush
    simp only
    rw [if_neg h0, if_neg h1, if_pos h]
    unfold sendBuilt send
    simp only
    rw [if_neg (by omega)]

/-! ## Reading through `read`, over any transport -/

/-- The user reads from the transport: the first read that finds the buffer empty takes one frame and
returns its first bytes. -/
theorem header_read {z : Zlib} (hz : ZlibOk z) (n : Nat) (hn : 0 < n) (s : St) {m : Meta} (hf : m.Fits)
    (hempty : s.rbuf.unread = [])
    (hct : ¬ (s.clientType = ClientType.UNFRAMED_BINARY ∨ s.clientType = ClientType.UNFRAMED_COMPACT))
    (hd : (m.headers.map (·.1)).Nodup) (ha : ClientType.HEADERS ∈ s.allowed) (payload rest : Bytes)
    (hl : 10 + m.block.length + (deflateN z m.zlibs payload).length < 2 ^ 31)
    (hfr : ((10 + m.block.length + (deflateN z m.zlibs payload).length : Nat) : Int) ≤ s.maxFrame)
    (hmax : ∀ j, j < m.zlibs → ((deflateN z j payload).length : Int) ≤ s.maxDecomp) :
    ∃ s', exec (read z n) s (frame m.flags m.seq m.block (deflateN z m.zlibs payload) ++ rest) =
        some ((.ok (payload.take n), s'), rest) ∧
      s'.rbuf.unread = payload.drop n ∧ s'.readHeaders = m.headers ∧ s'.clientType = ClientType.HEADERS ∧
      s'.flags = m.flags ∧ s'.sequenceId = m.seq ∧ s'.protocolId = m.pid := by
  have hg : (s.rbuf.read n).1 = [] := by rw [BytesIO.read_fst, hempty]; simp
  refine ⟨{ received { s with rbuf := (s.rbuf.read n).2 } m payload with
    rbuf := ((BytesIO.of payload).read n).2 }, ?_, ?_, rfl, rfl, rfl, rfl, rfl⟩
  · unfold read
    rw [exec_bind]
    change Res.andThen (some ((.ok s, s), _)) _ = _
    rw [Res.andThen_ok]
    simp only [hg, List.length_nil, Nat.sub_zero]
    rw [exec_bind]
    change Res.andThen (some ((.ok (), { s with rbuf := (s.rbuf.read n).2 }), _)) _ = _
    rw [Res.andThen_ok, if_neg (by omega), if_neg hct, exec_bind,
      header_receive hz n { s with rbuf := (s.rbuf.read n).2 } hf hd ha payload rest hl hfr hmax, Res.andThen_ok]
    rw [exec_bind]
    change Res.andThen (some ((.ok (received { s with rbuf := (s.rbuf.read n).2 } m payload), received { s with rbuf := (s.rbuf.read n).2 } m payload), _)) _ = _
    rw [Res.andThen_ok]
    simp only [List.nil_append]
    have : (received { s with rbuf := (s.rbuf.read n).2 } m payload).rbuf = BytesIO.of payload := rfl
    rw [this, BytesIO.read_fst, BytesIO.of_unread]
    rfl
  · exact BytesIO.read_unread _ _

theorem openFrameP_steady (z : Zlib) (frame : Bytes) : Steady (openFrameP z frame) := by
  constructor
  · intro τ step rest _ s t
    rw [exec_openFrameP]
    unfold openFrameP
    cases openFrame z frame s with
    | none => rfl
    | some r => exact ⟨t, rfl, rfl⟩
  · intro τ step rest _ s t a s' b' hx
    unfold exec openFrameP at hx
    unfold openFrameP
    cases h : openFrame z frame s with
    | none => rw [h] at hx; cases hx
    | some r => rw [h] at hx; cases hx; exact ⟨t, rfl, rfl⟩

theorem setClientTypeP_steady (c : Int) : Steady (setClientTypeP c) := by
  refine Steady.ret fun s => ?_
  unfold setClientTypeP
  split <;> exact ⟨_, rfl⟩

/-- C16 and C26: receiving a frame does not depend on how the underlying transport cuts the stream. (For
an unframed client and more than four bytes `readFrame` passes the request on with one `read`.) -/
theorem header_fragmentation (z : Zlib) (req : Int) (hr : req ≤ 4) {τ : Type}
    (step : Nat → τ → Option (Except Exc Bytes × τ)) (rest : τ → Bytes) (hd : Delivers step rest) (s : St) (t : τ) :
    SameAsMemory (readFrame z req) s step rest t := by
  refine SameAsMemory.of ?_ s step rest hd t
  have hu : ∀ first, Steady (startUnframed req first) := by
    intro first
    unfold startUnframed
    rw [if_neg (by omega)]
    exact Steady.modify _
  unfold readFrame
  refine Steady.bind (Steady.readAll 4) fun first => ?_
  refine Steady.ite (Steady.bind (setClientTypeP_steady _) fun _ => hu _) ?_
  refine Steady.ite (Steady.bind (setClientTypeP_steady _) fun _ => hu _) ?_
  unfold readFramed
  refine Steady.bind Steady.get fun s => Steady.ite (Steady.raise _) ?_
  exact Steady.bind (Steady.readAll _) fun _ => openFrameP_steady _ _

end Thrift.Header
