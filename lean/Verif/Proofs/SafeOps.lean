import Verif.Proofs.Safe
import Verif.Proofs.Utf8
import Verif.Props.Compact
/-
The readers of the binary and the compact protocol on arbitrary bytes.
-/

namespace Thrift
open Spec

theorem checkLength_within {l : Option Int} {n : Int} {u : Unit} (h : checkLength l n = .ok u) :
    0 ≤ n ∧ Within l n.toNat := by
  unfold checkLength at h
  split at h
  · cases h
  · refine ⟨by omega, ?_⟩
    intro x hx
    subst hx
    simp only at h
    split at h
    · cases h
    · omega

theorem checkLength_error {l : Option Int} {n : Int} {e : Exc} (h : checkLength l n = .error e) :
    (n < 0 ∧ e = TTransportException.NEGATIVE_SIZE) ∨ e = TTransportException.SIZE_LIMIT := by
  unfold checkLength at h
  split at h
  · cases h; exact .inl ⟨‹_›, rfl⟩
  · right
    cases l with
    | none => cases h
    | some l =>
      simp only at h
      split at h
      · cases h; rfl
      · cases h

theorem text_of_decode {l : Option Int} {b : Bytes} {x : PyStr} (hb : Within l b.length)
    (h : utf8Decode b = .ok x) : (∀ c ∈ x, Scalar c) ∧ Within l (utf8Len x) := by
  obtain ⟨h1, h2⟩ := utf8Decode_sound b x h
  refine ⟨h1, ?_⟩
  rw [← utf8_length h1, h2]
  exact hb

theorem take_length {n : Nat} {b : Bytes} (h : n ≤ b.length) : (b.take n).length = n := by
  simp; omega

theorem ite_ok_error {α : Type} {c : Prop} [Decidable c] {a : α} {x : Except Exc α} {e : Exc}
    (h : (if c then .ok a else x) = .error e) : x = .error e := by
  split at h
  · cases h
  · exact h

namespace Binary

variable {E : Exc → Prop}

theorem readInt_out (he : E .eof) (n : Nat) (hn : 0 < n) (s : St) (b : Bytes) :
    Out .two E (readInt n) s b fun i s' b' => s' = s ∧ b'.length + n = b.length ∧ InRange (8 * n) i := by
  refine Out.bind (Out.readAll (Q := fun x s' b' => s' = s ∧ b'.length + n = b.length ∧ x.length = n)
    he fun h => ?_) fun x s1 b1 _ h1 => Out.pure ⟨h1.1, h1.2.1, ?_⟩
  · rw [Int.toNat_natCast] at *
    exact ⟨rfl, by simp; omega, take_length h⟩
  · have := unpackS_range (b := x) (by omega)
    rw [h1.2.2] at this
    exact this

theorem readBinary_out (cfg : Cfg) (he : E .eof) (hn : E TTransportException.NEGATIVE_SIZE)
    (hs : E TTransportException.SIZE_LIMIT) (s : St) (b : Bytes) :
    Out .two E (readBinary cfg) s b fun x s' _ => s' = s ∧ Within cfg.stringLimit x.length := by
  refine Out.bind (readInt_out he 4 (by omega) s b) fun n s1 b1 _ h1 => ?_
  refine Out.bind (Q := fun _ s' b' => s' = s ∧ Within cfg.stringLimit n.toNat)
    (Out.lift (fun u hu => ⟨h1.1, (checkLength_within hu).2⟩) fun e hu => ?_) fun _ s2 b2 _ h2 => ?_
  · rcases checkLength_error hu with ⟨-, h⟩ | h
    · rw [h]; exact hn
    · rw [h]; exact hs
  · refine Out.readAll he fun h => ⟨h2.1, ?_⟩
    rw [take_length h]; exact h2.2

theorem readString_out (cfg : Cfg) (he : E .eof) (hn : E TTransportException.NEGATIVE_SIZE)
    (hs : E TTransportException.SIZE_LIMIT) (hu : E .unicodeError) (s : St) (b : Bytes) :
    Out .two E (readString cfg) s b fun x s' _ => s' = s ∧ (∀ c ∈ x, Scalar c) ∧ Within cfg.stringLimit (utf8Len x) := by
  refine Out.bind (readBinary_out cfg he hn hs s b) fun x s1 b1 _ h1 =>
    Out.lift (fun y hy => ⟨h1.1, text_of_decode h1.2 hy⟩) fun e hy => ?_
  rw [utf8Decode_error_kind _ _ hy]; exact hu

theorem readListBegin_out (cfg : Cfg) (he : E .eof) (hn : E TTransportException.NEGATIVE_SIZE)
    (hs : E TTransportException.SIZE_LIMIT) (s : St) (b : Bytes) :
    Out .two E (readListBegin cfg) s b fun a s' b' =>
      b'.length + 1 ≤ b.length ∧ Within cfg.containerLimit a.2.toNat ∧ s' = s := by
  refine Out.bind (readInt_out he 1 (by omega) s b) fun et s1 b1 _ h1 =>
    Out.bind (readInt_out he 4 (by omega) s1 b1) fun n s2 b2 _ h2 => ?_
  refine Out.bind (Q := fun _ s' b' => s' = s ∧ b' = b2 ∧ Within cfg.containerLimit n.toNat)
    (Out.lift (fun u hu => ⟨h2.1.trans h1.1, rfl, (checkLength_within hu).2⟩) fun e hu => ?_)
    fun _ s3 b3 _ h3 => Out.pure ⟨?_, h3.2.2, h3.1⟩
  · rcases checkLength_error hu with ⟨-, h⟩ | h
    · rw [h]; exact hn
    · rw [h]; exact hs
  · have := h1.2.1; have := h2.2.1; rw [h3.2.1]; omega

theorem readMapBegin_out (cfg : Cfg) (he : E .eof) (hn : E TTransportException.NEGATIVE_SIZE)
    (hs : E TTransportException.SIZE_LIMIT) (s : St) (b : Bytes) :
    Out .two E (readMapBegin cfg) s b fun a s' b' =>
      b'.length + 1 ≤ b.length ∧ Within cfg.containerLimit a.2.2.toNat ∧ s' = s := by
  refine Out.bind (readInt_out he 1 (by omega) s b) fun kt s1 b1 _ h1 =>
    Out.bind (readInt_out he 1 (by omega) s1 b1) fun vt s2 b2 _ h2 =>
    Out.bind (readInt_out he 4 (by omega) s2 b2) fun n s3 b3 _ h3 => ?_
  refine Out.bind (Q := fun _ s' b' => s' = s ∧ b' = b3 ∧ Within cfg.containerLimit n.toNat)
    (Out.lift (fun u hu => ⟨h3.1.trans (h2.1.trans h1.1), rfl, (checkLength_within hu).2⟩) fun e hu => ?_)
    fun _ s4 b4 _ h4 => Out.pure ⟨?_, h4.2.2, h4.1⟩
  · rcases checkLength_error hu with ⟨-, h⟩ | h
    · rw [h]; exact hn
    · rw [h]; exact hs
  · have := h1.2.1; have := h2.2.1; have := h3.2.1; rw [h4.2.1]; omega

/-- The exceptions that reading a value can raise, `TypeError` apart. -/
def catalogue : List Exc :=
  [.eof, TTransportException.NEGATIVE_SIZE, TTransportException.SIZE_LIMIT, .unicodeError,
    TProtocolException.DEPTH_LIMIT, TProtocolException.INVALID_DATA]

/-- The calling discipline of `TBinaryProtocol`: any method may be called at any time. -/
def safeOps (cfg : Cfg) (E : Exc → Prop) (hE : ∀ e ∈ catalogue, E e) :
    SafeOps (rd cfg) .two E InRange cfg.stringLimit cfg.containerLimit where
  Can _ _ := True
  Same s s' := s' = s
  Fld s s' := s' = s
  Fval s _ s' := s' = s
  Fin s s' := s' = s
  Elt s s' := s' = s
  Pr s s' := s' = s
  same_refl _ := rfl
  same_fval := by intro s0 tt s s' h1 h2; rw [h2, h1]
  same_elt := by intro s0 s s' h1 h2; rw [h2, h1]
  same_pr := by intro s0 s s' h1 h2; rw [h2, h1]
  fval_can _ _ _ _ := trivial
  elt_can _ _ _ _ := trivial
  pr_can _ _ _ _ := trivial
  can_depth _ _ _ _ := trivial
  same_depth := by
    intro s s' h
    subst h
    show (⟨s.depth + 1 - 1⟩ : St) = s
    cases s
    simp
  depthLimit := hE _ (by decide)
  invalidData := hE _ (by decide)
  structBegin _ _ _ := Out.pure rfl
  structEnd _ _ _ h := Out.pure h
  fieldBegin := by
    intro s0 s b h0
    have he : E .eof := hE _ (by decide)
    refine Out.bind (readInt_out he 1 (by omega) s b) fun ty s1 b1 _ h1 => Out.ite (fun hs => ?_) fun hs => ?_
    · exact Out.pure ⟨by have := h1.2.1; omega, .inl ⟨hs, h1.1.trans h0⟩⟩
    · exact Out.bind (readInt_out he 2 (by omega) s1 b1) fun id s2 b2 _ h2 =>
        Out.pure ⟨by have := h1.2.1; have := h2.2.1; omega, .inr ⟨hs, h2.1.trans (h1.1.trans h0)⟩⟩
  fieldEnd _ _ _ _ h := Out.pure h
  mapBegin s b _ := readMapBegin_out cfg (hE _ (by decide)) (hE _ (by decide)) (hE _ (by decide)) s b
  mapEnd _ _ _ h := Out.pure h
  listBegin s b _ := readListBegin_out cfg (hE _ (by decide)) (hE _ (by decide)) (hE _ (by decide)) s b
  listEnd _ _ _ h := Out.pure h
  setBegin s b _ := readListBegin_out cfg (hE _ (by decide)) (hE _ (by decide)) (hE _ (by decide)) s b
  setEnd _ _ _ h := Out.pure h
  bool := by
    intro s b _
    refine Out.bind (readInt_out (hE _ (by decide)) 1 (by omega) s b) fun x s1 b1 _ h1 => ?_
    exact Out.ite (fun _ => Out.pure h1.1) fun _ => Out.pure h1.1
  byte s b _ := (readInt_out (hE _ (by decide)) 1 (by omega) s b).mono fun _ _ _ _ h => ⟨h.1, h.2.2⟩
  i16 s b _ := (readInt_out (hE _ (by decide)) 2 (by omega) s b).mono fun _ _ _ _ h => ⟨h.1, h.2.2⟩
  i32 s b _ := (readInt_out (hE _ (by decide)) 4 (by omega) s b).mono fun _ _ _ _ h => ⟨h.1, h.2.2⟩
  i64 s b _ := (readInt_out (hE _ (by decide)) 8 (by omega) s b).mono fun _ _ _ _ h => ⟨h.1, h.2.2⟩
  double := by
    intro s b _
    exact Out.bind (Out.readAll (Q := fun _ s' _ => s' = s) (hE _ (by decide)) fun _ => rfl)
      fun _ _ _ _ h => Out.pure h
  string s b _ := readString_out cfg (hE _ (by decide)) (hE _ (by decide)) (hE _ (by decide))
    (hE _ (by decide)) s b
  binary s b _ := readBinary_out cfg (hE _ (by decide)) (hE _ (by decide)) (hE _ (by decide)) s b
  uuid := by
    intro s b _
    exact Out.readAll (hE _ (by decide)) fun h => ⟨rfl, take_length h⟩

/-- What `readMessageBegin` can raise. -/
theorem readMessageBegin_out (cfg : Cfg) (he : E .eof) (hn : E TTransportException.NEGATIVE_SIZE)
    (hl : E TTransportException.SIZE_LIMIT) (hu : E .unicodeError) (hv : E TProtocolException.BAD_VERSION)
    (s : St) (b : Bytes) : Out .two E (readMessageBegin cfg) s b fun r s' _ =>
      s' = s ∧ (∀ c ∈ r.1, Scalar c) ∧ InRange 32 r.2.2 := by
  refine Out.bind (readInt_out he 4 (by omega) s b) fun sz s1 b1 _ h1 => Out.ite (fun _ => ?_) fun _ => ?_
  · refine Out.ite (fun _ => Out.raise hv) fun _ => ?_
    refine Out.bind (readString_out cfg he hn hl hu s1 b1)
      fun x s2 b2 _ h2 => Out.bind (readInt_out he 4 (by omega) s2 b2) fun n s3 b3 _ h3 =>
        Out.pure ⟨h3.1.trans (h2.1.trans h1.1), h2.2.1, h3.2.2⟩
  · refine Out.ite (fun _ => Out.raise hv) fun _ => ?_
    refine Out.bind (Out.readAll (Q := fun _ s' _ => s' = s1) he fun _ => rfl) fun x s2 b2 _ h2 => ?_
    refine Out.bind (Q := fun y s' _ => s' = s2 ∧ ∀ c ∈ y, Scalar c)
      (Out.lift (fun y hy => ⟨rfl, (utf8Decode_sound _ _ hy).1⟩) fun e hy => ?_) fun y s3 b3 _ h3 => ?_
    · rw [utf8Decode_error_kind _ _ hy]; exact hu
    · exact Out.bind (readInt_out he 1 (by omega) s3 b3) fun t s4 b4 _ h4 =>
        Out.bind (readInt_out he 4 (by omega) s4 b4) fun n s5 b5 _ h5 =>
          Out.pure ⟨by rw [h5.1, h4.1, h3.1, h2, h1.1], h3.2, h5.2.2⟩

/-- A strict reader checks the length of the name. -/
theorem readMessageBegin_strict_out (cfg : Cfg) (hs : cfg.strictRead = true) (s : St) (b : Bytes) :
    Out .two (fun _ => True) (readMessageBegin cfg) s b fun r _ _ => Within cfg.stringLimit (utf8Len r.1) := by
  refine Out.bind (readInt_out trivial 4 (by omega) s b) fun sz s1 b1 _ h1 => Out.ite (fun _ => ?_) fun _ => ?_
  · refine Out.ite (fun _ => Out.raise trivial) fun _ => ?_
    exact Out.bind (readString_out cfg trivial trivial trivial trivial s1 b1)
      fun x s2 b2 _ h2 => Out.bind (readInt_out trivial 4 (by omega) s2 b2) fun n s3 b3 _ h3 =>
        Out.pure h2.2.2
  · exact Out.ite (fun _ => Out.raise trivial) fun h => absurd hs h

end Binary

namespace Compact

variable {E : Exc → Prop}

/-- Equal except for `__bool_fid` and `__bool_value`. -/
def Same (s s' : St) : Prop :=
  s'.depth = s.depth ∧ s'.state = s.state ∧ s'.lastFid = s.lastFid ∧ s'.structs = s.structs ∧
  s'.containers = s.containers

theorem Same.refl (s : St) : Same s s := ⟨rfl, rfl, rfl, rfl, rfl⟩

/-- Inside a struct that was opened in state `s0`. -/
def InStruct (s0 s : St) : Prop :=
  s.depth = s0.depth ∧ s.structs = (s0.state, s0.lastFid) :: s0.structs ∧ s.containers = s0.containers

/-- A value of wire type `tt` may be read. -/
def Can (tt : Int) (s : St) : Prop :=
  s.state = .CONTAINER_READ ∨ (s.state = .VALUE_READ ∧ tt ≠ TType.BOOL) ∨
  (s.state = .BOOL_READ ∧ tt = TType.BOOL) ∨ (s.state = .CLEAR ∧ tt = TType.STRUCT)

def Fld (s0 s : St) : Prop := s.state = .FIELD_READ ∧ InStruct s0 s
def Fval (s0 : St) (tt : Int) (s : St) : Prop :=
  ((s.state = .BOOL_READ ∧ tt = TType.BOOL) ∨ (s.state = .VALUE_READ ∧ tt ≠ TType.BOOL)) ∧ InStruct s0 s
def Elt (s0 s : St) : Prop :=
  s.state = .CONTAINER_READ ∧ s.containers = s0.state :: s0.containers ∧ s.depth = s0.depth ∧
  s.structs = s0.structs ∧ s.lastFid = s0.lastFid

theorem readByte1_out (he : E .eof) (s : St) (b : Bytes) :
    Out .two E (P.readAll 1) s b fun x s' b' => s' = s ∧ b'.length + 1 = b.length ∧ x.length = 1 := by
  refine Out.readAll he fun h => ?_
  have e : (1 : Int).toNat = 1 := rfl
  rw [e] at *
  exact ⟨rfl, by simp; omega, take_length h⟩

theorem readUByte_out (he : E .eof) (s : St) (b : Bytes) :
    Out .two E readUByte s b fun x s' b' => s' = s ∧ b'.length + 1 = b.length ∧ 0 ≤ x ∧ x < 256 := by
  refine Out.bind (readByte1_out he s b) fun x s1 b1 _ h1 => Out.pure ⟨h1.1, h1.2.1, ?_, ?_⟩
  · unfold unpackU; omega
  · unfold unpackU
    have := beNat_lt x
    rw [h1.2.2] at this
    omega

theorem readByteRaw_out (he : E .eof) (s : St) (b : Bytes) :
    Out .two E readByteRaw s b fun x s' b' => s' = s ∧ b'.length + 1 = b.length ∧ InRange 8 x := by
  refine Out.bind (readByte1_out he s b) fun x s1 b1 _ h1 => Out.pure ⟨h1.1, h1.2.1, ?_⟩
  have := unpackS_range (b := x) (by omega)
  rw [h1.2.2] at this
  exact this

theorem readVarintLoop_out (he : E .eof) (hi : E TProtocolException.INVALID_DATA) (k r sh : Nat) (s : St)
    (b : Bytes) (h : r < 2 ^ sh) :
    Out .two E (readVarintLoop k r sh) s b fun n s' b' =>
      s' = s ∧ b'.length + 1 ≤ b.length ∧ 0 ≤ n ∧ n < 2 ^ (sh + 7 * k) := by
  induction k generalizing r sh b with
  | zero => exact Out.raise hi
  | succ k ih =>
    rw [readVarintLoop_step _ _ _ h]
    refine Out.bind (readByte1_out he s b) fun x s1 b1 _ h1 => Out.ite (fun _ => Out.pure ?_) fun _ => ?_
    · refine ⟨h1.1, by have := h1.2.1; omega, by omega, ?_⟩
      have h2 := shift_lt (a := beNat x) h
      have h3 : 2 ^ (sh + 7) ≤ 2 ^ (sh + 7 * (k + 1)) := Nat.pow_le_pow_right (by omega) (by omega)
      have h4 : r + beNat x % 128 * 2 ^ sh < 2 ^ (sh + 7 * (k + 1)) := by omega
      exact_mod_cast h4
    · obtain ⟨rfl, h2, h3⟩ := h1
      refine (ih _ _ b1 (shift_lt h)).mono fun n s' b' _ g => ⟨g.1, by have := g.2.1; omega, g.2.2.1, ?_⟩
      rw [show sh + 7 * (k + 1) = sh + 7 + 7 * k by omega]
      exact g.2.2.2

theorem readVarint_out (he : E .eof) (hi : E TProtocolException.INVALID_DATA) (s : St) (b : Bytes) :
    Out .two E readVarint s b fun n s' b' => s' = s ∧ b'.length + 1 ≤ b.length ∧ 0 ≤ n ∧ n < 2 ^ 70 :=
  readVarintLoop_out he hi 10 0 0 s b (by simp)

theorem fromZigZag_range {n : Int} (h0 : 0 ≤ n) (h1 : n < 2 ^ 70) : InRange 70 (fromZigZag n) := by
  have : ∃ m : Int, (Spec.Compact.zigzag m : Int) = n ∧ InRange 70 m := by
    unfold Spec.Compact.zigzag InRange
    by_cases h : n % 2 = 0
    · exact ⟨n / 2, by rw [if_pos (by omega)]; omega, by omega, by omega⟩
    · exact ⟨-(n + 1) / 2, by rw [if_neg (by omega)]; omega, by omega, by omega⟩
  obtain ⟨m, h2, h3⟩ := this
  rw [← h2, fromZigZag_eq]
  exact h3

theorem readZigZag_out (he : E .eof) (hi : E TProtocolException.INVALID_DATA) (s : St) (b : Bytes) :
    Out .two E readZigZag s b fun n s' b' => s' = s ∧ b'.length + 1 ≤ b.length ∧ InRange 70 n :=
  Out.bind (readVarint_out he hi s b) fun _ _ _ _ h =>
    Out.pure ⟨h.1, h.2.1, fromZigZag_range h.2.2.1 h.2.2.2⟩

theorem readSize_out (he : E .eof) (hi : E TProtocolException.INVALID_DATA) (s : St) (b : Bytes) :
    Out .two E readSize s b fun n s' b' => s' = s ∧ b'.length + 1 ≤ b.length ∧ 0 ≤ n := by
  refine Out.bind (readVarint_out he hi s b) fun n _ _ _ h => Out.ite (fun hn => ?_) fun _ =>
    Out.pure ⟨h.1, h.2.1, h.2.2.1⟩
  have := h.2.2.1
  omega

theorem checkLength_out {s : St} {b : Bytes} {l : Option Int} {n : Int} (h0 : 0 ≤ n)
    (hs : E TTransportException.SIZE_LIMIT) :
    Out .two E (P.lift (checkLength l n)) s b fun _ s' b' => s' = s ∧ b' = b ∧ Within l n.toNat := by
  refine Out.lift (fun u hu => ⟨rfl, rfl, (checkLength_within hu).2⟩) fun e hu => ?_
  rcases checkLength_error hu with ⟨h, -⟩ | h
  · omega
  · rw [h]; exact hs

/-- The exceptions that reading a value can raise, `TypeError` apart. -/
def catalogue : List Exc :=
  [.eof, TTransportException.SIZE_LIMIT, .unicodeError, .keyError,
    TProtocolException.DEPTH_LIMIT, TProtocolException.INVALID_DATA]

theorem readBinaryRaw_out (cfg : Cfg) (he : E .eof) (hl : E TTransportException.SIZE_LIMIT)
    (hi : E TProtocolException.INVALID_DATA) (s : St) (b : Bytes) :
    Out .two E (readBinaryRaw cfg) s b fun x s' _ => s' = s ∧ Within cfg.stringLimit x.length := by
  refine Out.bind (readSize_out he hi s b) fun n s1 b1 _ h1 =>
    Out.bind (checkLength_out h1.2.2 hl) fun _ s2 b2 _ h2 =>
      Out.readAll he fun h => ⟨h2.1.trans h1.1, ?_⟩
  rw [take_length h]; exact h2.2.2

theorem reader_out {α : Type} {m : P St α} {s : St} {b : Bytes} {Q : α → St → Bytes → Prop} {tt : Int}
    (hc : Can tt s) (h1 : tt ≠ TType.BOOL) (h2 : tt ≠ TType.STRUCT) (h : Out .two E m s b Q) :
    Out .two E (reader m) s b Q := by
  refine Out.bind (Out.get (Q := fun x s' b' => x = s ∧ s' = s ∧ b' = b) ⟨rfl, rfl, rfl⟩)
    fun x s1 b1 _ hx => ?_
  obtain ⟨rfl, rfl, rfl⟩ := hx
  refine Out.bind (Out.assert (Q := fun _ s' b' => s' = s1 ∧ b' = b1) ?_ ⟨rfl, rfl⟩) fun _ s2 b2 _ h2 => ?_
  · rcases hc with h | h | h | h
    · simp [h]
    · simp [h.1]
    · exact absurd h.2 h1
    · exact absurd h.2 h2
  · obtain ⟨rfl, rfl⟩ := h2
    exact h

theorem can_container {tt : Int} {s : St} (hc : Can tt s) (h1 : tt ≠ TType.BOOL) (h2 : tt ≠ TType.STRUCT) :
    (s.state == .VALUE_READ || s.state == .CONTAINER_READ) = true := by
  rcases hc with h | h | h | h
  · simp [h]
  · simp [h.1]
  · exact absurd h.2 h1
  · exact absurd h.2 h2

theorem getTType_out (hE : ∀ e ∈ catalogue, E e) (c : Int) (s : St) (b : Bytes) :
    Out .two E (getTType c) s b fun t s' b' => s' = s ∧ b' = b ∧ ttypes (pyAnd c 0x0f) = .ok t := by
  refine Out.lift (fun t ht => ⟨rfl, rfl, ht⟩) fun e he => ?_
  have : e = .keyError := by
    generalize pyAnd c 0x0f = d at he
    unfold ttypes at he
    repeat replace he := ite_ok_error he
    injection he with he
    exact he.symm
  rw [this]; exact hE _ (by decide)

theorem ttypes_bool {c t : Int} (h : ttypes c = .ok t) :
    (t = TType.BOOL ↔ c = CompactType.TRUE ∨ c = CompactType.FALSE) ∧ (t = TType.STOP ↔ c = CompactType.STOP) := by
  unfold ttypes at h
  by_cases h0 : c = CompactType.STOP
  · subst h0; simp at h; subst h; decide
  rw [if_neg h0] at h
  by_cases h1 : c = CompactType.TRUE
  · subst h1; simp at h; subst h; decide
  rw [if_neg h1] at h
  by_cases h2 : c = CompactType.FALSE
  · subst h2; simp at h; subst h; decide
  rw [if_neg h2] at h
  simp only [h0, h1, h2, or_self, iff_false]
  repeat' split at h
  all_goals first
    | cases h; done
    | (cases h; decide)

theorem pyAnd_15 (x : Int) : pyAnd x 0x0f = x % 16 := pyAnd_mask x 4

theorem readFieldBegin_out (hE : ∀ e ∈ catalogue, E e) (s0 s : St) (b : Bytes) (h0 : Fld s0 s) :
    Out .two E readFieldBegin s b fun a s' b' => b'.length + 1 ≤ b.length ∧
      ((a.1 = TType.STOP ∧ Fld s0 s') ∨ (a.1 ≠ TType.STOP ∧ Fval s0 a.1 s')) := by
  have he : E .eof := hE _ (by decide)
  have hi : E TProtocolException.INVALID_DATA := hE _ (by decide)
  refine Out.bind (Out.get (Q := fun x s' b' => x = s ∧ s' = s ∧ b' = b) ⟨rfl, rfl, rfl⟩)
    fun x s1 b1 _ hx => ?_
  obtain ⟨rfl, rfl, rfl⟩ := hx
  refine Out.bind (Out.assert (Q := fun _ s' b' => s' = s1 ∧ b' = b1) (by simp [h0.1]) ⟨rfl, rfl⟩)
    fun _ s2 b2 _ h2 => ?_
  obtain ⟨rfl, rfl⟩ := h2
  refine Out.bind (readUByte_out he s2 b2) fun ty s3 b3 _ h3 => ?_
  obtain ⟨rfl, h3, h4, h5⟩ := h3
  refine Out.ite (fun hs => ?_) fun hs => ?_
  · exact Out.pure ⟨by omega, .inl ⟨rfl, h0⟩⟩
  -- the header after the field id is known
  have rest : ∀ (fid : Int) (s4 : St) (b4 : Bytes), s4 = s3 → b4.length + 1 ≤ b2.length →
      Out .two E (do
        P.modify fun s => { s with lastFid := fid }
        let type := pyAnd ty 0x0f
        if type = CompactType.TRUE then
          P.modify fun s => { s with state := .BOOL_READ, boolValue := true }
        else if type = CompactType.FALSE then
          P.modify fun s => { s with state := .BOOL_READ, boolValue := false }
        else
          P.modify fun s => { s with state := .VALUE_READ }
        let t ← getTType type
        pure (t, fid)) s4 b4 fun a s' b' => b'.length + 1 ≤ b2.length ∧
          ((a.1 = TType.STOP ∧ Fld s0 s') ∨ (a.1 ≠ TType.STOP ∧ Fval s0 a.1 s')) := by
    intro fid s4 b4 hs4 hb4
    subst hs4
    refine Out.bind (Out.modify (Q := fun _ s' b' => s' = { s4 with lastFid := fid } ∧ b' = b4) ⟨rfl, rfl⟩)
      fun _ s5 b5 _ h5 => ?_
    obtain ⟨rfl, rfl⟩ := h5
    have tail : ∀ (st : State) (bv : Bool),
        ((st = .BOOL_READ ∧ (pyAnd ty 15 = CompactType.TRUE ∨ pyAnd ty 15 = CompactType.FALSE)) ∨
          (st = .VALUE_READ ∧ ¬ (pyAnd ty 15 = CompactType.TRUE ∨ pyAnd ty 15 = CompactType.FALSE))) →
        Out .two E (do
          let t ← getTType (pyAnd ty 0x0f)
          pure (t, fid)) { s4 with lastFid := fid, state := st, boolValue := bv } b5 fun a s' b' =>
            b'.length + 1 ≤ b2.length ∧
            ((a.1 = TType.STOP ∧ Fld s0 s') ∨ (a.1 ≠ TType.STOP ∧ Fval s0 a.1 s')) := by
      intro st bv hst
      refine Out.bind (getTType_out hE _ _ _) fun t s6 b6 _ h6 => Out.pure ?_
      obtain ⟨rfl, rfl, ht⟩ := h6
      have e : pyAnd (pyAnd ty 15) 15 = pyAnd ty 15 := by rw [pyAnd_15, pyAnd_15]; omega
      rw [e] at ht
      have hb := ttypes_bool ht
      refine ⟨hb4, .inr ⟨fun hz => hs (hb.2.mp hz), ?_, h0.2⟩⟩
      rcases hst with ⟨rfl, h⟩ | ⟨rfl, h⟩
      · exact .inl ⟨rfl, hb.1.mpr h⟩
      · exact .inr ⟨rfl, fun hz => h (hb.1.mp hz)⟩
    refine Out.ite (fun h1 => ?_) fun h1 => Out.ite (fun h2 => ?_) fun h2 => ?_
    · refine Out.bind (Out.modify (Q := fun _ s' b' => s' = _ ∧ b' = b5) ⟨rfl, rfl⟩) fun _ s6 b6 _ h6 => ?_
      obtain ⟨rfl, rfl⟩ := h6
      exact tail .BOOL_READ true (.inl ⟨rfl, .inl h1⟩)
    · refine Out.bind (Out.modify (Q := fun _ s' b' => s' = _ ∧ b' = b5) ⟨rfl, rfl⟩) fun _ s6 b6 _ h6 => ?_
      obtain ⟨rfl, rfl⟩ := h6
      exact tail .BOOL_READ false (.inl ⟨rfl, .inr h2⟩)
    · refine Out.bind (Out.modify (Q := fun _ s' b' => s' = _ ∧ b' = b5) ⟨rfl, rfl⟩) fun _ s6 b6 _ h6 => ?_
      obtain ⟨rfl, rfl⟩ := h6
      exact tail .VALUE_READ s4.boolValue (.inr ⟨rfl, fun h => h.elim h1 h2⟩)
  refine Out.ite (fun _ => ?_) fun _ => ?_
  · refine Out.bind (readZigZag_out he hi s3 b3) fun fid s4 b4 _ h4 => ?_
    exact rest fid s4 b4 h4.1 (by have := h4.2.1; omega)
  · refine Out.bind (Out.get (Q := fun x s' b' => x = s3 ∧ s' = s3 ∧ b' = b3) ⟨rfl, rfl, rfl⟩)
      fun x s4 b4 _ h4 => ?_
    exact rest _ s4 b4 h4.2.1 (by rw [h4.2.2]; omega)

theorem readCollectionBegin_out (cfg : Cfg) (hE : ∀ e ∈ catalogue, E e) {tt : Int} (s : St) (b : Bytes)
    (hc : Can tt s) (h1 : tt ≠ TType.BOOL) (h2 : tt ≠ TType.STRUCT) :
    Out .two E (readCollectionBegin cfg) s b fun a s' b' =>
      b'.length + 1 ≤ b.length ∧ Within cfg.containerLimit a.2.toNat ∧ Elt s s' := by
  have he : E .eof := hE _ (by decide)
  have hi : E TProtocolException.INVALID_DATA := hE _ (by decide)
  refine Out.bind (Out.get (Q := fun x s' b' => x = s ∧ s' = s ∧ b' = b) ⟨rfl, rfl, rfl⟩)
    fun x s1 b1 _ hx => ?_
  obtain ⟨rfl, rfl, rfl⟩ := hx
  refine Out.bind (Out.assert (Q := fun _ s' b' => s' = s1 ∧ b' = b1) (can_container hc h1 h2) ⟨rfl, rfl⟩)
    fun _ s2 b2 _ h2 => ?_
  obtain ⟨rfl, rfl⟩ := h2
  refine Out.bind (readUByte_out he s2 b2) fun ty s3 b3 _ h3 => ?_
  obtain ⟨rfl, h3, h4, h5⟩ := h3
  refine Out.bind (getTType_out hE _ _ _) fun t s6 b6 _ h6 => ?_
  obtain ⟨rfl, rfl, ht⟩ := h6
  have rest : ∀ (n : Int) (s4 : St) (b4 : Bytes), s4 = s6 → b4.length + 1 ≤ b2.length → 0 ≤ n →
      Out .two E (do
        P.lift (checkLength cfg.containerLimit n)
        P.modify fun s => { s with containers := s.state :: s.containers, state := .CONTAINER_READ }
        pure (t, n)) s4 b4 fun a s' b' =>
          b'.length + 1 ≤ b2.length ∧ Within cfg.containerLimit a.2.toNat ∧ Elt s6 s' := by
    intro n s4 b4 hs4 hb4 hn
    subst hs4
    refine Out.bind (checkLength_out hn (hE _ (by decide))) fun _ s5 b5 _ h5 => ?_
    obtain ⟨rfl, rfl, h5⟩ := h5
    refine Out.bind (Out.modify (Q := fun _ s' b' => s' = _ ∧ b' = b5) ⟨rfl, rfl⟩) fun _ s6 b6 _ h6 => ?_
    obtain ⟨rfl, rfl⟩ := h6
    exact Out.pure ⟨hb4, h5, rfl, rfl, rfl, rfl, rfl⟩
  refine Out.ite (fun _ => ?_) fun _ => ?_
  · refine Out.bind (readSize_out he hi s6 b6) fun n s4 b4 _ h4 => ?_
    exact rest n s4 b4 h4.1 (by have := h4.2.1; omega) h4.2.2
  · refine Out.bind (Out.pure (Q := fun n s' b' => s' = s6 ∧ b' = b6 ∧ 0 ≤ n) ⟨rfl, rfl, ?_⟩) fun n s4 b4 _ h4 => ?_
    · unfold pyShr; omega
    · exact rest n s4 b4 h4.1 (by rw [h4.2.1]; omega) h4.2.2

theorem readMapBegin_out (cfg : Cfg) (hE : ∀ e ∈ catalogue, E e) {tt : Int} (s : St) (b : Bytes)
    (hc : Can tt s) (h1 : tt ≠ TType.BOOL) (h2 : tt ≠ TType.STRUCT) :
    Out .two E (readMapBegin cfg) s b fun a s' b' =>
      b'.length + 1 ≤ b.length ∧ Within cfg.containerLimit a.2.2.toNat ∧ Elt s s' := by
  have he : E .eof := hE _ (by decide)
  have hi : E TProtocolException.INVALID_DATA := hE _ (by decide)
  refine Out.bind (Out.get (Q := fun x s' b' => x = s ∧ s' = s ∧ b' = b) ⟨rfl, rfl, rfl⟩)
    fun x s1 b1 _ hx => ?_
  obtain ⟨rfl, rfl, rfl⟩ := hx
  refine Out.bind (Out.assert (Q := fun _ s' b' => s' = s1 ∧ b' = b1) (can_container hc h1 h2) ⟨rfl, rfl⟩)
    fun _ s2 b2 _ h2 => ?_
  obtain ⟨rfl, rfl⟩ := h2
  refine Out.bind (readSize_out he hi s2 b2) fun n s3 b3 _ h3 => ?_
  obtain ⟨rfl, h3, h4⟩ := h3
  refine Out.bind (checkLength_out h4 (hE _ (by decide))) fun _ s5 b5 _ h5 => ?_
  obtain ⟨rfl, rfl, h5⟩ := h5
  have rest : ∀ (types : Int) (s4 : St) (b4 : Bytes), s4 = s5 → b4.length + 1 ≤ b2.length →
      Out .two E (do
        let vtype ← getTType types
        let ktype ← getTType (pyShr types 4)
        P.modify fun s => { s with containers := s.state :: s.containers, state := .CONTAINER_READ }
        pure (ktype, vtype, n)) s4 b4 fun a s' b' =>
          b'.length + 1 ≤ b2.length ∧ Within cfg.containerLimit a.2.2.toNat ∧ Elt s5 s' := by
    intro ty s4 b4 hs4 hb4
    subst hs4
    refine Out.bind (getTType_out hE _ _ _) fun vt s6 b6 _ h6 => ?_
    obtain ⟨rfl, rfl, -⟩ := h6
    refine Out.bind (getTType_out hE _ _ _) fun kt s6 b6 _ h6 => ?_
    obtain ⟨rfl, rfl, -⟩ := h6
    refine Out.bind (Out.modify (Q := fun _ s' b' => s' = _ ∧ b' = b6) ⟨rfl, rfl⟩) fun _ s7 b7 _ h7 => ?_
    obtain ⟨rfl, rfl⟩ := h7
    exact Out.pure ⟨hb4, h5, rfl, rfl, rfl, rfl, rfl⟩
  refine Out.ite (fun _ => ?_) fun _ => ?_
  · refine Out.bind (readUByte_out he s5 b5) fun ty s6 b6 _ h6 => ?_
    exact rest ty s6 b6 h6.1 (by have := h6.2.1; omega)
  · exact Out.bind (Out.pure (Q := fun _ s' b' => s' = s5 ∧ b' = b5) ⟨rfl, rfl⟩) fun ty s6 b6 _ h6 =>
      rest ty s6 b6 h6.1 (by rw [h6.2]; omega)

theorem readCollectionEnd_out (s0 s : St) (b : Bytes) (h : Elt s0 s) :
    Out .two E readCollectionEnd s b fun _ s' _ => Same s0 s' := by
  obtain ⟨h1, h2, h3, h4, h5⟩ := h
  refine Out.bind (Out.get (Q := fun x s' b' => x = s ∧ s' = s ∧ b' = b) ⟨rfl, rfl, rfl⟩)
    fun x s1 b1 _ hx => ?_
  obtain ⟨rfl, rfl, rfl⟩ := hx
  refine Out.bind (Out.assert (Q := fun _ s' b' => s' = s1 ∧ b' = b1) (by simp [h1]) ⟨rfl, rfl⟩)
    fun _ s2 b2 _ h2 => ?_
  obtain ⟨rfl, rfl⟩ := h2
  rw [h2]
  exact Out.set ⟨h3, rfl, h5, h4, rfl⟩

/-- Which integers the compact reader can return: a byte is a byte, but the other widths are not
checked against the declared one. -/
def anyInt (bits : Nat) (i : Int) : Prop := if bits = 8 then InRange 8 i else InRange 70 i

/-- The calling discipline of `TCompactProtocol`. -/
def safeOps (cfg : Cfg) (E : Exc → Prop) (hE : ∀ e ∈ catalogue, E e) :
    SafeOps (rd cfg) .two E anyInt cfg.stringLimit cfg.containerLimit where
  Can := Can
  Same := Same
  Fld := Fld
  Fval := Fval
  Fin := Fld
  Elt := Elt
  Pr := Elt
  same_refl := Same.refl
  same_fval := by
    rintro s0 tt s s' ⟨h1, h2, h3, h4⟩ ⟨g1, g2, g3, g4, g5⟩
    exact ⟨by rw [g2]; exact h1, g1.trans h2, g4.trans h3, g5.trans h4⟩
  same_elt := by
    rintro s0 s s' ⟨h1, h2, h3, h4, h5⟩ ⟨g1, g2, g3, g4, g5⟩
    exact ⟨g2.trans h1, g5.trans h2, g1.trans h3, g4.trans h4, g3.trans h5⟩
  same_pr := by
    rintro s0 s s' ⟨h1, h2, h3, h4, h5⟩ ⟨g1, g2, g3, g4, g5⟩
    exact ⟨g2.trans h1, g5.trans h2, g1.trans h3, g4.trans h4, g3.trans h5⟩
  fval_can := by
    rintro s0 tt s ⟨h | h, -⟩
    · exact .inr (.inr (.inl h))
    · exact .inr (.inl h)
  elt_can _ _ _ h := .inl h.1
  pr_can _ _ _ h := .inl h.1
  can_depth _ _ _ h := h
  same_depth := by
    rintro s s' ⟨g1, g2, g3, g4, g5⟩
    refine ⟨?_, g2, g3, g4, g5⟩
    show s'.depth - 1 = s.depth
    have : s'.depth = s.depth + 1 := g1
    omega
  depthLimit := hE _ (by decide)
  invalidData := hE _ (by decide)
  structBegin := by
    intro s b hc
    refine Out.bind (Out.get (Q := fun x s' b' => x = s ∧ s' = s ∧ b' = b) ⟨rfl, rfl, rfl⟩)
      fun x s1 b1 _ hx => ?_
    obtain ⟨rfl, rfl, rfl⟩ := hx
    refine Out.bind (Out.assert (Q := fun _ s' b' => s' = s1 ∧ b' = b1) ?_ ⟨rfl, rfl⟩)
      fun _ s2 b2 _ h2 => ?_
    · rcases hc with h | h | h | h
      · simp [h]
      · simp [h.1]
      · exact absurd h.2 (by decide)
      · simp [h.1]
    · obtain ⟨rfl, rfl⟩ := h2
      exact Out.modify ⟨rfl, rfl, rfl, rfl⟩
  structEnd := by
    rintro s0 s b ⟨h1, h2, h3, h4⟩
    refine Out.bind (Out.get (Q := fun x s' b' => x = s ∧ s' = s ∧ b' = b) ⟨rfl, rfl, rfl⟩)
      fun x s1 b1 _ hx => ?_
    obtain ⟨rfl, rfl, rfl⟩ := hx
    refine Out.bind (Out.assert (Q := fun _ s' b' => s' = s1 ∧ b' = b1) (by simp [h1]) ⟨rfl, rfl⟩)
      fun _ s2 b2 _ h2 => ?_
    obtain ⟨rfl, rfl⟩ := h2
    rw [h3]
    exact Out.set ⟨h2, rfl, rfl, rfl, h4⟩
  fieldBegin := readFieldBegin_out hE
  fieldEnd := by
    rintro s0 tt s b ⟨h1, h2⟩
    refine Out.bind (Out.get (Q := fun x s' b' => x = s ∧ s' = s ∧ b' = b) ⟨rfl, rfl, rfl⟩)
      fun x s1 b1 _ hx => ?_
    obtain ⟨rfl, rfl, rfl⟩ := hx
    refine Out.bind (Out.assert (Q := fun _ s' b' => s' = s1 ∧ b' = b1) ?_ ⟨rfl, rfl⟩)
      fun _ s2 b2 _ h2 => ?_
    · rcases h1 with h | h <;> simp [h.1]
    · obtain ⟨rfl, rfl⟩ := h2
      exact Out.modify ⟨rfl, h2⟩
  mapBegin s b hc := readMapBegin_out cfg hE s b hc (by decide) (by decide)
  mapEnd := readCollectionEnd_out
  listBegin s b hc := readCollectionBegin_out cfg hE s b hc (by decide) (by decide)
  listEnd := readCollectionEnd_out
  setBegin s b hc := readCollectionBegin_out cfg hE s b hc (by decide) (by decide)
  setEnd := readCollectionEnd_out
  bool := by
    intro s b hc
    refine Out.bind (Out.get (Q := fun x s' b' => x = s ∧ s' = s ∧ b' = b) ⟨rfl, rfl, rfl⟩)
      fun x s1 b1 _ hx => ?_
    obtain ⟨rfl, rfl, rfl⟩ := hx
    refine Out.ite (fun _ => Out.pure (Same.refl _)) fun h1 => Out.ite (fun _ => ?_) fun h2 => ?_
    · exact Out.bind (readByteRaw_out (hE _ (by decide)) s1 b1) fun x s2 _ _ h =>
        Out.pure (by rw [h.1]; exact Same.refl _)
    · rcases hc with h | h | h | h
      · exact absurd h h2
      · exact absurd rfl h.2
      · exact absurd h.1 h1
      · exact absurd h.2 (by decide)
  byte s b hc := reader_out hc (by decide) (by decide)
    ((readByteRaw_out (hE _ (by decide)) s b).mono fun _ s' _ _ h =>
      ⟨by rw [h.1]; exact Same.refl _, h.2.2⟩)
  i16 s b hc := reader_out hc (by decide) (by decide)
    ((readZigZag_out (hE _ (by decide)) (hE _ (by decide)) s b).mono fun _ s' _ _ h =>
      ⟨by rw [h.1]; exact Same.refl _, h.2.2⟩)
  i32 s b hc := reader_out hc (by decide) (by decide)
    ((readZigZag_out (hE _ (by decide)) (hE _ (by decide)) s b).mono fun _ s' _ _ h =>
      ⟨by rw [h.1]; exact Same.refl _, h.2.2⟩)
  i64 s b hc := reader_out hc (by decide) (by decide)
    ((readZigZag_out (hE _ (by decide)) (hE _ (by decide)) s b).mono fun _ s' _ _ h =>
      ⟨by rw [h.1]; exact Same.refl _, h.2.2⟩)
  double s b hc := reader_out hc (by decide) (by decide)
    (Out.bind (Out.readAll (Q := fun _ s' _ => s' = s) (hE _ (by decide)) fun _ => rfl)
      fun _ _ _ _ h => Out.pure (by rw [h]; exact Same.refl _))
  string := by
    intro s b hc
    refine Out.bind (reader_out hc (by decide) (by decide) (readBinaryRaw_out cfg (hE _ (by decide)) (hE _ (by decide)) (hE _ (by decide)) s b))
      fun x s1 b1 _ h1 => Out.lift (fun y hy => ⟨by rw [h1.1]; exact Same.refl _, text_of_decode h1.2 hy⟩)
        fun e hy => ?_
    rw [utf8Decode_error_kind _ _ hy]; exact hE _ (by decide)
  binary s b hc := reader_out hc (by decide) (by decide)
    ((readBinaryRaw_out cfg (hE _ (by decide)) (hE _ (by decide)) (hE _ (by decide)) s b).mono fun _ s' _ _ h => ⟨by rw [h.1]; exact Same.refl _, h.2⟩)
  uuid s b hc := reader_out hc (by decide) (by decide)
    (Out.readAll (hE _ (by decide)) fun h => ⟨Same.refl _, take_length h⟩)

/-- What `readMessageBegin` can raise. -/
theorem readMessageBegin_out (cfg : Cfg) (he : E .eof) (hl : E TTransportException.SIZE_LIMIT)
    (hu : E .unicodeError) (hi : E TProtocolException.INVALID_DATA) (hv : E TProtocolException.BAD_VERSION)
    (s : St) (b : Bytes) (hs : s.state = .CLEAR) : Out .two E (readMessageBegin cfg) s b fun r s' _ =>
      s' = s ∧ (∀ c ∈ r.1, Scalar c) ∧ Within cfg.stringLimit (utf8Len r.1) := by
  refine Out.bind (Out.get (Q := fun x s' b' => x = s ∧ s' = s ∧ b' = b) ⟨rfl, rfl, rfl⟩)
    fun x s1 b1 _ hx => ?_
  obtain ⟨rfl, rfl, rfl⟩ := hx
  refine Out.bind (Out.assert (Q := fun _ s' b' => s' = s1 ∧ b' = b1) (by simp [hs]) ⟨rfl, rfl⟩)
    fun _ s2 b2 _ h2 => ?_
  obtain ⟨rfl, rfl⟩ := h2
  refine Out.bind (readUByte_out he s2 b2) fun p s3 b3 _ h3 => Out.ite (fun _ => Out.raise hv) fun _ => ?_
  refine Out.bind (readUByte_out he s3 b3) fun v s4 b4 _ h4 => Out.ite (fun _ => Out.raise hv) fun _ => ?_
  refine Out.bind (readVarint_out he hi s4 b4) fun q s5 b5 _ h5 =>
    Out.bind (readBinaryRaw_out cfg he hl hi s5 b5) fun x s6 b6 _ h6 =>
    Out.bind (Q := fun y s' _ => s' = s6 ∧ (∀ c ∈ y, Scalar c) ∧ Within cfg.stringLimit (utf8Len y))
      (Out.lift (fun y hy => ⟨rfl, text_of_decode h6.2 hy⟩) fun e hy => ?_) fun y s7 b7 _ h7 =>
      Out.pure ⟨by rw [h7.1, h6.1, h5.1, h4.1, h3.1], h7.2⟩
  rw [utf8Decode_error_kind _ _ hy]; exact hu

theorem can_of_canRead {t : Ty} {s : St} (h : CanRead t s) : Can t.ttype s := by
  rcases h with h | ⟨h, ht⟩ | ⟨h, sid, rfl⟩
  · exact .inl h
  · refine .inr (.inl ⟨h, fun hb => ht ?_⟩)
    cases t <;> first | rfl | (simp [Ty.ttype, TType.BYTE, TType.I16, TType.I32, TType.I64, TType.DOUBLE, TType.STRING, TType.UUID,
      TType.LIST, TType.SET, TType.MAP, TType.STRUCT, TType.BOOL] at hb)
  · exact .inr (.inr (.inr ⟨h, rfl⟩))

end Compact
end Thrift
