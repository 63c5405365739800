import Verif.Proofs.FastRead
import Verif.Proofs.FastWrite
/-
The reading methods of the C extension, token by token.
-/

namespace Thrift.Fast
open Spec

/-- `m` consumes exactly `b`, whatever follows, and returns `a`. -/
def okRel (σ : Type) [HasDepth σ] : DecRel σ where
  holds := fun m s b a s' => ∀ rest, exec m s (b ++ rest) = some ((.ok a, s'), rest)
  pure := fun _ _ _ => rfl
  bind := by
    intro α β m k s s1 s2 b1 b2 a c h1 h2 rest
    rw [exec_bind, List.append_assoc, h1, Res.andThen_ok, h2]
  incDepth := fun s h => ((decRel σ).incDepth s h).1
  tryDec := by
    intro α m s s' b a h rest
    rw [exec_tryFinally, h]
    rfl

theorem readBytes_ok {σ : Type} {n : Int} {x : Bytes} (s : σ) (h : (x.length : Int) = n) :
    Decodes (readBytes n : P σ Bytes) s x x s := by
  unfold readBytes
  rw [if_neg (by omega)]
  exact Decodes.readAll s (by omega)

theorem checkLengthLimit_ok {l : Option Int} {n : Nat} (h31 : n < 2 ^ 31) (h : Within l n) :
    checkLengthLimit n (limitOf l) = .ok () := by
  unfold checkLengthLimit limitOf
  rw [if_neg (by omega)]
  cases l with
  | none => dsimp only; rw [if_neg (by omega)]
  | some l =>
    have := h l rfl
    dsimp only
    rw [if_neg (by omega)]

theorem readByte_ok {σ : Type} {n : Nat} (h : n < 256) (s : σ) :
    Decodes (readByte : P σ Int) s [UInt8.ofNat n] (n : Int) s := by
  unfold readByte
  refine Decodes.map (readBytes_ok s (by simp)) ?_
  unfold unpackU
  rw [Compact.beNat_single]
  have : (UInt8.ofNat n).toNat = n := by simp; omega
  rw [this]

theorem readByte_ttype {σ : Type} {t : Int} (h : IsTType t) (s : σ) :
    Decodes (readByte : P σ Int) s (beInt 1 t) t s := by
  obtain ⟨n, rfl⟩ : ∃ n : Nat, t = n := ⟨t.toNat, by have := h.cases; omega⟩
  rw [Compact.beInt_small]
  exact readByte_ok (by have := h.cases; omega) s

theorem orTypeError_ok {σ α : Type} [HasDepth σ] {m : P σ α} {s s' : σ} {b rest : Bytes} {a : α}
    (h : exec m s b = some ((.ok a, s'), rest)) :
    exec (orTypeError m) s b = some ((.ok a, s'), rest) := by
  unfold orTypeError exec
  rw [Prog.run_bind]
  unfold exec at h
  rw [h]
  rfl

/-! ### Binary -/

section
variable {env : Env} {cfg : Binary.Cfg}

theorem readInt_ok {n : Nat} {i : Int} (hn : 0 < n) (h : InRange (8 * n) i) (s : Binary.St) :
    Decodes (readInt n) s (beInt n i) i s := by
  unfold readInt
  refine Decodes.map (readBytes_ok s (by simp)) ?_
  rw [unpackS_beInt hn h]

theorem binaryReadBool_ok (b : Bool) (s : Binary.St) :
    Decodes (binaryRd env cfg).readBool s (beInt 1 (if b then 1 else 0)) b s := by
  refine Decodes.map (readBytes_ok s (by simp)) ?_
  cases b <;> rfl

theorem binaryReadString_ok {b : Bytes} (h : b.length < 2 ^ 31) (hl : Within cfg.stringLimit b.length)
    (s : Binary.St) : Decodes (binaryReadString cfg) s (Spec.Binary.blob b) b s := by
  unfold binaryReadString Spec.Binary.blob
  refine Decodes.seq (readInt_ok (n := 4) (by omega) (inRange32_of_lt h) s) ?_
  rw [checkLengthLimit_ok h hl]
  exact Decodes.pre (Decodes.lift_ok () s) (readBytes_ok s rfl)

theorem binarySkipString_ok {b : Bytes} (h : b.length < 2 ^ 31) (s : Binary.St) :
    Decodes (binaryRd env cfg).skipString s (Spec.Binary.blob b) () s := by
  unfold Spec.Binary.blob
  refine Decodes.seq (readInt_ok (n := 4) (by omega) (inRange32_of_lt h) s) ?_
  exact Decodes.map (readBytes_ok s rfl) rfl

theorem binaryReadListBegin_ok {e : Int} {n : Nat} (he : IsTType e) (h : n < 2 ^ 31)
    (hl : Within cfg.containerLimit n) (s : Binary.St) :
    Decodes (binaryReadListBegin cfg) s (beInt 1 e ++ beInt 4 n) (e, (n : Int)) s := by
  unfold binaryReadListBegin
  refine Decodes.seq (readByte_ttype he s) ?_
  refine Decodes.map (readInt_ok (n := 4) (by omega) (inRange32_of_lt h) s) ?_
  rw [checkLengthLimit_ok h hl]
  rfl

theorem binaryReadMapBegin_ok {k v : Int} {n : Nat} (hk : IsTType k) (hv : IsTType v)
    (h : n < 2 ^ 31) (hl : Within cfg.containerLimit n) (s : Binary.St) :
    Decodes (binaryReadMapBegin cfg) s (beInt 1 k ++ (beInt 1 v ++ beInt 4 n)) (k, v, (n : Int)) s := by
  unfold binaryReadMapBegin
  refine Decodes.seq (readByte_ttype hk s) ?_
  refine Decodes.seq (readByte_ttype hv s) ?_
  refine Decodes.map (readInt_ok (n := 4) (by omega) (inRange32_of_lt h) s) ?_
  rw [checkLengthLimit_ok h hl]
  rfl

theorem binaryReadFieldBegin_ok {tt fid : Int} (ht : IsTType tt) (hf : InRange 16 fid) (s : Binary.St) :
    Decodes binaryReadFieldBegin s (beInt 1 tt ++ beInt 2 fid) (tt, fid) s := by
  unfold binaryReadFieldBegin
  refine Decodes.seq (readByte_ttype ht s) ?_
  rw [if_neg (by have := ht.cases; unfold TType.STOP; omega)]
  exact Decodes.map (readInt_ok (n := 2) (by omega) hf s) rfl

theorem binaryReadFieldStop_ok (s : Binary.St) :
    Decodes binaryReadFieldBegin s (beInt 1 0) (TType.STOP, 0) s := by
  unfold binaryReadFieldBegin
  exact Decodes.map (readByte_ok (n := 0) (by omega) s) rfl

theorem binaryReadDouble_ok (x : UInt64) (s : Binary.St) :
    Decodes (binaryRd env cfg).readDouble s (beInt 8 x.toNat) x s := by
  refine Decodes.map (readBytes_ok s (by simp)) ?_
  rw [← beBytes8_eq, beNat_beBytes_of_lt (by have := x.toNat_lt; omega)]
  simp

theorem binaryReadUuid_ok {u : Bytes} (h : u.length = 16) (s : Binary.St) (rest : Bytes) :
    exec (binaryReadUuid env) s (u ++ rest) = some ((.ok u, s), rest) := by
  have h1 := (Decodes.readAll (σ := Binary.St) (n := 16) (x := u) s (by omega)).1 rest
  unfold binaryReadUuid exec
  rw [Prog.run_bind]
  unfold exec at h1
  rw [h1]
  rfl

theorem binary_of {sl cl : Option Int} {α : Type} {m : P Binary.St α} {s : Binary.St}
    {q : (Binary.lang sl cl).Q} {T : Tok} {a : α}
    (h : ∀ rest, exec m s (Binary.tokBytes T ++ rest) = some ((.ok a, s), rest)) :
    ReadsTo (okRel Binary.St) (Binary.lang sl cl) (Binary.Rel sl cl) m s q [T] a := by
  refine ⟨s, ?_, trivial, rfl⟩
  intro rest
  show exec m s ((Binary.tokBytes T ++ []) ++ rest) = _
  rw [List.append_nil]
  exact h rest

theorem binaryRdLaws :
    RdLaws (okRel Binary.St) (Binary.lang cfg.stringLimit cfg.containerLimit) (binaryRd env cfg)
      (Binary.Rel cfg.stringLimit cfg.containerLimit) where
  depth := fun _ _ _ _ => trivial
  structBegin s q _ _ := binary_of fun _ => rfl
  structEnd s q _ _ := binary_of fun _ => rfl
  fieldBegin s q tt fid _ ho := binary_of (binaryReadFieldBegin_ok ho.1 ho.2.1 s).1
  boolField s q fid b _ ho :=
    ⟨beInt 1 TType.BOOL ++ beInt 2 fid, beInt 1 (if b then 1 else 0), s, s, rfl,
      (binaryReadFieldBegin_ok (isTType_ttype .bool) ho s).1, rfl,
      fun d => (binaryReadBool_ok b (HasDepth.setDepth d s)).1, trivial, rfl⟩
  fieldStop s q _ _ := ⟨0, binary_of (binaryReadFieldStop_ok s).1⟩
  mapBegin s q k v n _ ho := by
    have h := (binaryReadMapBegin_ok (cfg := cfg) ho.1 ho.2.1 ho.2.2.1 ho.2.2.2 s).1
    exact ⟨k, v, binary_of h, binary_of fun rest => orTypeError_ok (h rest), fun _ => ⟨rfl, rfl⟩⟩
  listBegin s q e n _ ho := binary_of (binaryReadListBegin_ok ho.1 ho.2.1 ho.2.2 s).1
  setBegin s q e n _ ho := binary_of (binaryReadListBegin_ok ho.1 ho.2.1 ho.2.2 s).1
  ends s q T _ _ hT := by
    rcases hT with h | h | h | h <;> subst h <;> exact ⟨rfl, trivial⟩
  bool s q b _ _ := binary_of (binaryReadBool_ok b s).1
  byte s q i _ ho := binary_of (readInt_ok (n := 1) (by omega) ho s).1
  i16 s q i _ ho := binary_of (readInt_ok (n := 2) (by omega) ho s).1
  i32 s q i _ ho := binary_of (readInt_ok (n := 4) (by omega) ho s).1
  i64 s q i _ ho := binary_of (readInt_ok (n := 8) (by omega) ho s).1
  double s q x _ _ := binary_of (binaryReadDouble_ok x s).1
  str s q x _ ho := by
    have hl := utf8_length ho.1.1
    exact binary_of (binaryReadString_ok (by rw [hl]; exact ho.1.2) (by rw [hl]; exact ho.2) s).1
  bin s q b _ ho := binary_of (binaryReadString_ok ho.1 ho.2 s).1
  uuid s q u _ ho := binary_of (binaryReadUuid_ok ho s)
  skipStr s q x _ ho := by
    have hl := utf8_length ho.1.1
    exact binary_of (binarySkipString_ok (by rw [hl]; exact ho.1.2) s).1
  skipBin s q b _ ho := binary_of (binarySkipString_ok ho.1 s).1
  skipUuid s q u _ ho := binary_of
    (Decodes.map (c := ()) (readBytes_ok (n := 16) (x := u) s (by have : u.length = 16 := ho; omega)) rfl).1

end

/-! ### Compact -/

theorem bit7 (x : UInt8) : (x.toNat &&& 0x80 ≠ 0) ↔ 128 ≤ x.toNat := by
  have h : ∀ m : Fin 256, (m.val &&& 0x80 ≠ 0) ↔ 128 ≤ m.val := by decide +kernel
  exact h ⟨x.toNat, x.toNat_lt⟩

theorem readVarintLoop_ok (bits k n r sh : Nat) (s : CSt) (h : r < 2 ^ sh) (hb : r + n * 2 ^ sh < 2 ^ bits)
    (hk : (Spec.Compact.varint n).length ≤ k) :
    Decodes (readVarintLoop bits k r sh) s (Spec.Compact.varint n) (r + n * 2 ^ sh) s := by
  induction k generalizing n r sh with
  | zero =>
    unfold Spec.Compact.varint at hk
    split at hk <;> simp at hk
  | succ k ih =>
    unfold readVarintLoop
    unfold Spec.Compact.varint
    unfold Spec.Compact.varint at hk
    split
    · next hn =>
      refine Decodes.map (readBytes_ok s (by simp)) ?_
      have e : (UInt8.ofNat n).toNat = n := by simp; omega
      dsimp only
      rw [Compact.beNat_single, if_neg (by rw [bit7, e]; omega), e, Compact.or_shift h, Nat.mod_eq_of_lt hb]
    · next hn =>
      rw [if_neg hn] at hk
      simp only [List.length_cons] at hk
      refine Decodes.seq (b1 := [UInt8.ofNat (n % 128 + 128)]) (readBytes_ok s (by simp)) ?_
      have e : (UInt8.ofNat (n % 128 + 128)).toNat = n % 128 + 128 := by simp; omega
      dsimp only
      rw [Compact.beNat_single, if_pos (by rw [bit7, e]; omega), e, Compact.byte_and, Compact.or_shift h,
        show (n % 128 + 128) % 128 = n % 128 by omega]
      have hs := Compact.shift_lt (a := n) h
      have en : n % 128 * 2 ^ sh + n / 128 * 2 ^ (sh + 7) = n * 2 ^ sh := by
        have : n = n % 128 + n / 128 * 128 := by omega
        rw [Nat.pow_add]
        conv => rhs; rw [this, Nat.add_mul, Nat.mul_assoc]
        rw [Nat.mul_comm 128]
      have hlt : r + n % 128 * 2 ^ sh < 2 ^ bits := by omega
      rw [Nat.mod_eq_of_lt hlt]
      have := ih (n / 128) (r + n % 128 * 2 ^ sh) (sh + 7) hs (by omega) (by omega)
      rw [Nat.add_assoc, en] at this
      exact this

theorem readVarint_ok' {bits k n : Nat} (hn : n < 2 ^ bits) (hk : 2 ^ bits ≤ 128 ^ (k + 1)) (s : CSt) :
    Decodes (readVarintLoop bits (k + 1) 0 0) s (Spec.Compact.varint n) n s := by
  have := readVarintLoop_ok bits (k + 1) n 0 0 s (by simp) (by simpa using hn)
    (Compact.varint_length_le n k (by omega))
  simpa using this

theorem readVarint16_ok {n : Nat} (hn : n < 2 ^ 16) (s : CSt) :
    Decodes readVarint16 s (Spec.Compact.varint n) n s := readVarint_ok' hn (by omega) s
theorem readVarint32_ok {n : Nat} (hn : n < 2 ^ 32) (s : CSt) :
    Decodes readVarint32 s (Spec.Compact.varint n) n s := readVarint_ok' hn (by omega) s
theorem readVarint64_ok {n : Nat} (hn : n < 2 ^ 64) (s : CSt) :
    Decodes readVarint64 s (Spec.Compact.varint n) n s := readVarint_ok' hn (by omega) s

theorem xor_ones {n bits : Nat} (h : n < 2 ^ bits) : n ^^^ (2 ^ bits - 1) = 2 ^ bits - (n + 1) := by
  apply Nat.eq_of_testBit_eq
  intro i
  rw [Nat.testBit_xor, Nat.testBit_two_pow_sub_one, Nat.testBit_two_pow_sub_succ h]
  by_cases hi : i < bits
  · simp [hi]
  · have : n.testBit i = false := Nat.testBit_lt_two_pow (Nat.lt_of_lt_of_le h (Nat.pow_le_pow_right (by omega) (by omega)))
    simp [hi, this]

theorem fromZigZag_eq {bits : Nat} {i : Int} (hb : 0 < bits) (h : InRange bits i) :
    fromZigZag bits (Spec.Compact.zigzag i) = i := by
  obtain ⟨k, rfl⟩ : ∃ k, bits = k + 1 := ⟨bits - 1, by omega⟩
  have hc : ((2 : Int) ^ k) = ((2 ^ k : Nat) : Int) := by simp
  have hc1 : ((2 : Int) ^ (k + 1)) = ((2 ^ (k + 1) : Nat) : Int) := by simp
  have hp : 2 ^ (k + 1) = 2 * 2 ^ k := by rw [Nat.pow_succ]; omega
  unfold InRange at h
  simp only [Nat.add_sub_cancel, hc] at h
  unfold fromZigZag signed
  simp only [Nat.add_sub_cancel]
  rw [show ∀ n : Nat, n >>> 1 = n / 2 from fun n => Nat.shiftRight_eq_div_pow n 1, Nat.and_one_is_mod]
  by_cases hi : 0 ≤ i
  · have hz : Spec.Compact.zigzag i = 2 * i.toNat := by
      unfold Spec.Compact.zigzag; rw [if_pos hi]
    rw [hz, show 2 * i.toNat % 2 = 0 by omega, show 2 * i.toNat / 2 = i.toNat by omega]
    have hw : wrap (k + 1) (-((0 : Nat) : Int)) = 0 := by unfold wrap; simp
    rw [hw, Nat.xor_zero, if_pos (by omega)]
    omega
  · have hz : Spec.Compact.zigzag i = 2 * (-i - 1).toNat + 1 := by
      unfold Spec.Compact.zigzag; rw [if_neg hi]; omega
    rw [hz, show (2 * (-i - 1).toNat + 1) % 2 = 1 by omega,
      show (2 * (-i - 1).toNat + 1) / 2 = (-i - 1).toNat by omega]
    have hw : wrap (k + 1) (-((1 : Nat) : Int)) = 2 ^ (k + 1) - 1 := by
      unfold wrap
      rw [hc1]
      have : (-((1 : Nat) : Int)) % ((2 ^ (k + 1) : Nat) : Int) = ((2 ^ (k + 1) : Nat) : Int) - 1 := by
        rw [← Int.add_emod_right, Int.emod_eq_of_lt] <;> omega
      rw [this]
      omega
    rw [hw, xor_ones (by omega), if_neg (by omega), hc1]
    omega

theorem signed_wrap {i : Int} (h : InRange 16 i) : signed 16 (wrap 16 i) = i := by
  unfold InRange at h
  unfold signed wrap
  simp only [Nat.add_one_sub_one] at h ⊢
  split <;> omega

theorem checkLen_ok {l : Option Int} {n : Nat} (h31 : n < 2 ^ 31) (h : Within l n) :
    checkLen n l = .ok () := by
  unfold checkLen signed
  rw [if_pos (by omega)]
  exact checkLengthLimit_ok h31 h

theorem getTType_codeOf {t : Int} (h : IsTType t) : getTType (Compact.codeOf t : Nat) = .ok t := by
  rcases h.cases with h | h | h | h | h | h | h | h | h | h | h | h <;> subst h <;> rfl

theorem compactReadI16_ok {i : Int} (h : InRange 16 i) (s : CSt) :
    Decodes compactReadI16 s (Spec.Compact.int i) i s := by
  unfold compactReadI16
  refine Decodes.map (readVarint16_ok (Compact.zigzag_lt (by omega) h) s) ?_
  rw [fromZigZag_eq (by omega) h]

theorem compactReadI32_ok {cfg : Compact.Cfg} {i : Int} (h : InRange 32 i) (s : CSt) :
    Decodes (compactRd cfg).readI32 s (Spec.Compact.int i) i s := by
  refine Decodes.map (readVarint32_ok (Compact.zigzag_lt (by omega) h) s) ?_
  rw [fromZigZag_eq (by omega) h]

theorem compactReadI64_ok {cfg : Compact.Cfg} {i : Int} (h : InRange 64 i) (s : CSt) :
    Decodes (compactRd cfg).readI64 s (Spec.Compact.int i) i s := by
  refine Decodes.map (readVarint64_ok (Compact.zigzag_lt (by omega) h) s) ?_
  rw [fromZigZag_eq (by omega) h]

section
variable {cfg : Compact.Cfg}

theorem compactReadString_ok {b : Bytes} (h : b.length < 2 ^ 31) (hl : Within cfg.stringLimit b.length)
    (s : CSt) : Decodes (compactReadString cfg) s (Spec.Compact.blob b) b s := by
  unfold compactReadString Spec.Compact.blob
  refine Decodes.seq (readVarint32_ok (by omega) s) ?_
  rw [checkLen_ok h hl]
  refine Decodes.pre (Decodes.lift_ok () s) ?_
  split
  · next h0 =>
    have : b = [] := List.length_eq_zero_iff.mp h0
    subst this
    exact Decodes.pure _ _
  · exact readBytes_ok s rfl

theorem compactSkipString_ok {b : Bytes} (h : b.length < 2 ^ 31) (s : CSt) :
    Decodes (compactRd cfg).skipString s (Spec.Compact.blob b) () s := by
  unfold Spec.Compact.blob
  refine Decodes.seq (readVarint32_ok (by omega) s) ?_
  refine Decodes.map (readBytes_ok s ?_) rfl
  unfold signed
  rw [if_pos (by omega)]

theorem nib_len {n : Nat} (h : n < 256) : pyAnd (pyShr (n : Int) 4) 0xf = ((n / 16 : Nat) : Int) := by
  rw [Compact.nib_hi, show (0xf : Int) = 0x0f from rfl, Compact.nib_lo, Nat.mod_eq_of_lt (by omega)]

theorem compactReadListBegin_ok {e : Int} {n : Nat} (he : IsTType e) (hn : n < 2 ^ 31)
    (hl : Within cfg.containerLimit n) (s : CSt) :
    Decodes (compactReadListBegin cfg) s (Spec.Compact.listHeader (Compact.codeOf e) n) (e, (n : Int)) s := by
  have hc := Compact.codeOf_lt e
  have tail : Decodes (do
        P.lift (checkLen n cfg.containerLimit)
        pure (e, (n : Int)) : P CSt (Int × Int)) s [] (e, (n : Int)) s := by
    rw [checkLen_ok hn hl]
    exact Decodes.pre (Decodes.lift_ok () _) (Decodes.pure _ _)
  unfold compactReadListBegin Spec.Compact.listHeader
  by_cases h14 : n ≤ 14
  · rw [if_pos h14, ← List.append_nil [_]]
    refine Decodes.seq (readByte_ok (by omega) s) ?_
    rw [Compact.nib_lo, show (16 * n + Compact.codeOf e) % 16 = Compact.codeOf e by omega, getTType_codeOf he]
    refine Decodes.pre (Decodes.lift_ok e s) ?_
    dsimp only
    rw [nib_len (by omega), show (16 * n + Compact.codeOf e) / 16 = n by omega, if_neg (by omega)]
    exact Decodes.pre (Decodes.pure _ _) tail
  · rw [if_neg h14]
    refine Decodes.seq (b1 := [UInt8.ofNat (0xF0 + Compact.codeOf e)]) (readByte_ok (by omega) s) ?_
    rw [Compact.nib_lo, show (0xF0 + Compact.codeOf e) % 16 = Compact.codeOf e by omega, getTType_codeOf he]
    refine Decodes.pre (Decodes.lift_ok e s) ?_
    dsimp only
    rw [nib_len (by omega), show (0xF0 + Compact.codeOf e) / 16 = 15 by omega, if_pos (by rfl),
      ← List.append_nil (Spec.Compact.varint n)]
    exact Decodes.seq (readVarint32_ok (by omega) s) tail

theorem compactReadMapBegin_ok {k v : Int} {n : Nat} (hk : IsTType k) (hv : IsTType v) (hn : n < 2 ^ 31)
    (hl : Within cfg.containerLimit n) (s : CSt) :
    ∃ k' v', Decodes (compactReadMapBegin cfg) s
      (Spec.Compact.mapHeader (Compact.codeOf k) (Compact.codeOf v) n) (k', v', (n : Int)) s ∧
      (0 < n → k' = k ∧ v' = v) := by
  have hck := Compact.codeOf_lt k
  have hcv := Compact.codeOf_lt v
  unfold compactReadMapBegin Spec.Compact.mapHeader
  by_cases h0 : n = 0
  · subst h0
    refine ⟨0, 0, ?_, by omega⟩
    rw [if_pos rfl, ← List.append_nil [_]]
    have hz : Spec.Compact.varint 0 = [0] := by unfold Spec.Compact.varint; rfl
    refine Decodes.seq (a := 0) (s1 := s) (by rw [← hz]; exact readVarint32_ok (by omega) s) ?_
    rw [checkLen_ok hn hl]
    refine Decodes.pre (Decodes.lift_ok () _) ?_
    exact Decodes.pure _ _
  · refine ⟨k, v, ?_, fun _ => ⟨rfl, rfl⟩⟩
    rw [if_neg h0]
    refine Decodes.seq (readVarint32_ok (by omega) s) ?_
    rw [checkLen_ok hn hl]
    refine Decodes.pre (Decodes.lift_ok () _) ?_
    rw [if_pos h0, ← List.append_nil [_]]
    refine Decodes.seq (readByte_ok (by omega) s) ?_
    rw [Compact.nib_hi, Compact.nib_lo,
      show (16 * Compact.codeOf k + Compact.codeOf v) / 16 = Compact.codeOf k by omega,
      show (16 * Compact.codeOf k + Compact.codeOf v) % 16 = Compact.codeOf v by omega,
      getTType_codeOf hk, getTType_codeOf hv]
    refine Decodes.pre (Decodes.lift_ok _ _) ?_
    refine Decodes.pre (Decodes.lift_ok _ _) ?_
    exact Decodes.pure _ _

/-- What reading a field header does to the protocol object. -/
def cAfter (s : CSt) (code : Nat) (fid : Int) : CSt :=
  if code = 1 then { s with readTags := fid :: s.readTags.tail, readBool := some true }
  else if code = 2 then { s with readTags := fid :: s.readTags.tail, readBool := some false }
  else { s with readTags := fid :: s.readTags.tail }

theorem compactReadFieldBegin_ok {s : CSt} {code : Nat} {last fid tt : Int} {tags : List Int}
    (hs : s.readTags = last :: tags) (hc : 1 ≤ code ∧ code < 16) (hf : InRange 16 fid)
    (ht : getTType (code : Int) = .ok tt) (htt : tt ≠ TType.STOP) :
    Decodes compactReadFieldBegin s (Spec.Compact.fieldHeader last code fid) (tt, fid)
      (cAfter s code fid) := by
  have tail : Decodes (do
        if (code : Int) = 1 ∨ (code : Int) = 2 then
          P.modify fun s => { s with readBool := some ((code : Int) == 1) }
        else pure ()
        P.modify fun s => { s with readTags := fid :: s.readTags.tail }
        pure (tt, fid) : P CSt (Int × Int)) s [] (tt, fid) (cAfter s code fid) := by
    unfold cAfter
    by_cases h1 : code = 1
    · subst h1
      exact Decodes.nil fun _ => rfl
    · by_cases h2 : code = 2
      · subst h2
        exact Decodes.nil fun _ => rfl
      · rw [if_neg (by omega), if_neg h1, if_neg h2]
        exact Decodes.nil fun _ => rfl
  unfold compactReadFieldBegin Spec.Compact.fieldHeader
  by_cases hd : 1 ≤ fid - last ∧ fid - last ≤ 15
  · rw [if_pos hd]
    obtain ⟨d, hn⟩ : ∃ d : Nat, fid - last = d := ⟨(fid - last).toNat, by omega⟩
    rw [hn] at hd ⊢
    rw [Int.toNat_natCast, ← List.append_nil [_]]
    refine Decodes.seq (readByte_ok (by omega) s) ?_
    dsimp only
    rw [Compact.nib_lo, show (16 * d + code) % 16 = code by omega, ht]
    refine Decodes.pre (Decodes.lift_ok _ _) ?_
    rw [if_neg htt]
    refine Decodes.pre (a := s) (s1 := s) (Decodes.nil fun _ => rfl) ?_
    rw [Compact.nib_hi, show (16 * d + code) / 16 = d by omega, if_pos (by omega), hs]
    have e : signed 16 (wrap 16 ((last :: tags).headD 0 + (d : Int))) = fid := by
      show signed 16 (wrap 16 (last + (d : Int))) = fid
      rw [show last + (d : Int) = fid by omega]
      exact signed_wrap hf
    rw [e]
    exact Decodes.pre (Decodes.pure _ _) tail
  · rw [if_neg hd]
    refine Decodes.seq (b1 := [UInt8.ofNat code]) (readByte_ok (by omega) s) ?_
    dsimp only
    rw [Compact.nib_lo, show code % 16 = code by omega, ht]
    refine Decodes.pre (Decodes.lift_ok _ _) ?_
    rw [if_neg htt]
    refine Decodes.pre (a := s) (s1 := s) (Decodes.nil fun _ => rfl) ?_
    rw [Compact.nib_hi, show code / 16 = 0 by omega, if_neg (by omega)]
    rw [← List.append_nil (Spec.Compact.varint _)]
    exact Decodes.seq (compactReadI16_ok hf s) tail

theorem compactReadFieldStop_ok (s : CSt) : Decodes compactReadFieldBegin s [0] (TType.STOP, 0) s := by
  unfold compactReadFieldBegin
  exact Decodes.map (readByte_ok (n := 0) (by omega) s) rfl

/-- The stack of the reader. -/
def RRel (s : CSt) (q : Compact.Q) : Prop := CRel { s with writeTags := s.readTags } q ∧ s.readBool = none

theorem compact_of {sl cl : Option Int} {α : Type} {m : P CSt α} {s s' : CSt} {q : (Compact.lang sl cl).Q}
    {T : Tok} {a : α} (h : ∀ rest, exec m s (Compact.tokBytes q T ++ rest) = some ((.ok a, s'), rest))
    (hr : RRel s' (Compact.stepQ q T)) (hd : s'.depth = s.depth) :
    ReadsTo (okRel CSt) (Compact.lang sl cl) RRel m s q [T] a := by
  refine ⟨s', ?_, hr, hd⟩
  intro rest
  show exec m s ((Compact.tokBytes q T ++ []) ++ rest) = _
  rw [List.append_nil]
  exact h rest

theorem compactRdLaws :
    RdLaws (okRel CSt) (Compact.lang cfg.stringLimit cfg.containerLimit) (compactRd cfg) RRel where
  depth := fun _ _ _ h => h
  structBegin s q h ho := by
    refine compact_of (s' := { s with readTags := 0 :: s.readTags }) (fun _ => rfl) ⟨⟨?_, ?_⟩, h.2⟩ rfl
    · have := h.1.1
      simp only [Compact.stepQ] at this ⊢
      rw [this]
      rfl
    · simp only [Compact.stepQ, List.map_cons, List.getLast?_cons_cons]
      exact h.1.2
  structEnd s q h ho := by
    obtain ⟨x, xs, e1, e2, e3⟩ := h.1.inside (by rw [ho.2.1]; decide)
    refine compact_of (s' := { s with readTags := s.readTags.tail }) (fun _ => rfl) ⟨⟨?_, ?_⟩, h.2⟩ rfl
    · simp only [Compact.stepQ, e1] at e2 ⊢
      rw [e2]
      rfl
    · simp only [Compact.stepQ, e1]
      exact e3
  fieldBegin s q tt fid h ho := by
    obtain ⟨x, xs, e1, e2, e3⟩ := h.1.inside (by rw [ho.2]; decide)
    have hne1 : Compact.codeOf tt ≠ 1 ∧ Compact.codeOf tt ≠ 2 := by
      obtain ⟨⟨h1, -, h3⟩, -⟩ := ho
      rcases h1.cases with h | h | h | h | h | h | h | h | h | h | h | h <;> subst h <;>
        first | exact absurd rfl h3 | decide
    have hd := compactReadFieldBegin_ok (s := s) e2 (Compact.codeOf_lt tt) ho.1.2.1 (getTType_codeOf ho.1.1)
      (by have := ho.1.1.cases; unfold TType.STOP; omega)
    unfold cAfter at hd
    rw [if_neg hne1.1, if_neg hne1.2] at hd
    refine compact_of hd.1 ⟨⟨?_, ?_⟩, h.2⟩ rfl
    · simp only at e2
      simp only [Compact.stepQ, e1, e2]
      rfl
    · simp only [Compact.stepQ, e1, List.map_cons, List.getLast?_cons_cons]
      exact e3
  boolField s q fid b h ho := by
    obtain ⟨x, xs, e1, e2, e3⟩ := h.1.inside (by rw [ho.2]; decide)
    have hd := compactReadFieldBegin_ok (tt := TType.BOOL) (code := Spec.Compact.boolCode b) (s := s) e2
      (by cases b <;> decide) ho.1 (by cases b <;> rfl) (by decide)
    have ha : cAfter s (Spec.Compact.boolCode b) fid =
        { s with readTags := fid :: s.readTags.tail, readBool := some b } := by
      cases b <;> rfl
    rw [ha] at hd
    refine ⟨_, [], _, { s with readTags := fid :: s.readTags.tail, readBool := none },
      (List.append_nil _).symm, hd.1, rfl, fun d => ?_, ⟨⟨?_, ?_⟩, rfl⟩, rfl⟩
    · intro rest
      rfl
    · simp only at e2
      show fid :: s.readTags.tail = _
      simp only [Compact.lang, Compact.stepQ, e1, e2]
      rfl
    · simp only [Compact.lang, Compact.stepQ, e1, List.map_cons, List.getLast?_cons_cons]
      exact e3
  fieldStop s q h ho := ⟨0, compact_of (compactReadFieldStop_ok s).1 h rfl⟩
  mapBegin s q k v n h ho := by
    obtain ⟨k', v', hd, hkv⟩ := compactReadMapBegin_ok (cfg := cfg) ho.1.1 ho.1.2.1 ho.1.2.2.1 ho.1.2.2.2 s
    exact ⟨k', v', compact_of hd.1 ⟨h.1.push ho.2, h.2⟩ rfl,
      compact_of (fun rest => orTypeError_ok (hd.1 rest)) ⟨h.1.push ho.2, h.2⟩ rfl, hkv⟩
  listBegin s q e n h ho :=
    compact_of (compactReadListBegin_ok ho.1.1 ho.1.2.1 ho.1.2.2 s).1 ⟨h.1.push ho.2, h.2⟩ rfl
  setBegin s q e n h ho :=
    compact_of (compactReadListBegin_ok ho.1.1 ho.1.2.1 ho.1.2.2 s).1 ⟨h.1.push ho.2, h.2⟩ rfl
  ends s q T h ho hT := by
    rcases hT with e | e | e | e <;> subst e
    · refine ⟨rfl, ⟨⟨h.1.1, ?_⟩, h.2⟩⟩
      have hne : q.pos ≠ .clear := by rcases ho.2 with hp | hp <;> rw [hp] <;> decide
      obtain ⟨x, xs, e1, e2, e3⟩ := h.1.inside hne
      simp only [Compact.lang, Compact.stepQ, e1, List.map_cons, List.getLast?_cons_cons]
      exact e3
    all_goals
      refine ⟨rfl, ?_, h.2⟩
      obtain ⟨-, hp, hne⟩ := ho
      cases hc : q.containers with
      | nil => exact absurd hc hne
      | cons p rest =>
        simp only [Compact.lang, Compact.stepQ, hc]
        exact h.1.pop hp p rest
  bool s q b h ho := by
    refine compact_of (s' := s) ?_ h rfl
    have : Decodes compactReadBool s (Compact.tokBytes q (.bool b)) b s := by
      unfold compactReadBool
      refine Decodes.pre (a := s) (s1 := s) (Decodes.nil fun _ => rfl) ?_
      rw [h.2]
      refine Decodes.map (readBytes_ok s (by simp [Compact.tokBytes])) ?_
      cases b <;> rfl
    exact this.1
  byte s q i h ho := by
    refine compact_of (s' := s) ?_ h rfl
    have : Decodes (compactRd cfg).readI8 s (Compact.tokBytes q (.byte i)) i s := by
      refine Decodes.map (readBytes_ok s (by simp [Compact.tokBytes])) ?_
      simp only [Compact.tokBytes]
      rw [unpackS_beInt (n := 1) (by omega) ho.1]
    exact this.1
  i16 s q i h ho := compact_of (compactReadI16_ok ho.1 s).1 h rfl
  i32 s q i h ho := compact_of (compactReadI32_ok ho.1 s).1 h rfl
  i64 s q i h ho := compact_of (compactReadI64_ok ho.1 s).1 h rfl
  double s q x h ho := by
    refine compact_of (s' := s) ?_ h rfl
    have : Decodes (compactRd cfg).readDouble s (leInt 8 x.toNat) x s := by
      refine Decodes.map (readBytes_ok s (by simp)) ?_
      rw [leInt_eq_reverse, List.reverse_reverse, ← beBytes8_eq,
        beNat_beBytes_of_lt (by have := x.toNat_lt; omega)]
      simp
    exact this.1
  str s q x h ho := by
    have hl := utf8_length ho.1.1.1
    exact compact_of (compactReadString_ok (by rw [hl]; exact ho.1.1.2) (by rw [hl]; exact ho.1.2) s).1 h rfl
  bin s q b h ho := compact_of (compactReadString_ok ho.1.1 ho.1.2 s).1 h rfl
  uuid s q u h ho := compact_of
    (readBytes_ok (n := 16) (x := u) s (by have : u.length = 16 := ho.1; omega)).1 h rfl
  skipStr s q x h ho := by
    have hl := utf8_length ho.1.1.1
    exact compact_of (compactSkipString_ok (by rw [hl]; exact ho.1.1.2) s).1 h rfl
  skipBin s q b h ho := compact_of (compactSkipString_ok ho.1.1 s).1 h rfl
  skipUuid s q u h ho := compact_of
    (Decodes.map (c := ()) (readBytes_ok (n := 16) (x := u) s (by have : u.length = 16 := ho.1; omega)) rfl).1 h rfl

end

end Thrift.Fast
