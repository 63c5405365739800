import Verif.Proofs.CompactWrite
import Verif.Proofs.BinaryLang
/-
The reading methods of the compact protocol.
-/

namespace Thrift.Compact
open Spec

def rState : Pos → State
  | .clear => .CLEAR
  | .field => .FIELD_READ
  | .value => .VALUE_READ
  | .container => .CONTAINER_READ
  | .boolDone => .BOOL_READ

/-- The protocol object is at the position `q`; the caches `boolFid` and `boolValue` do not
matter. -/
def RelR (bs : List (State × Int)) (bc : List State) (s : St) (q : Q) : Prop :=
  s.state = rState q.pos ∧ s.lastFid = q.lastFid ∧
  s.structs = q.structs.map (fun x => (rState x.1, x.2)) ++ bs ∧
  s.containers = q.containers.map rState ++ bc

variable {bs : List (State × Int)} {bc : List State}

/-! ### Small reads -/

theorem Decodes.get (s : St) : Decodes P.get s [] s s := Decodes.nil fun _ => rfl
theorem Decodes.modify (f : St → St) (s : St) : Decodes (P.modify f) s [] () (f s) :=
  Decodes.nil fun _ => rfl
theorem Decodes.set (s' s : St) : Decodes (P.set s') s [] () s' := Decodes.nil fun _ => rfl
theorem Decodes.assert {c : Bool} (h : c = true) (s : St) : Decodes (P.assert c) s [] () s := by
  subst h; exact Decodes.nil fun _ => rfl

theorem readUByte_ok {n : Nat} (h : n < 256) (s : St) :
    Decodes readUByte s [UInt8.ofNat n] (n : Int) s := by
  unfold readUByte
  refine Decodes.map (Decodes.readAll s (by simp)) ?_
  unfold unpackU
  rw [beNat_single]
  have : (UInt8.ofNat n).toNat = n := by simp; omega
  rw [this]

theorem readByteRaw_ok {i : Int} (h : InRange 8 i) (s : St) : Decodes readByteRaw s (beInt 1 i) i s := by
  unfold readByteRaw
  refine Decodes.map (Decodes.readAll s (by simp)) ?_
  rw [unpackS_beInt (n := 1) (by omega) h]

theorem readSize_ok {n : Nat} (h : n < 2 ^ 31) (s : St) :
    Decodes readSize s (Spec.Compact.varint n) (n : Int) s := by
  unfold readSize
  refine Decodes.map (readVarint_ok (by omega) s) ?_
  rw [if_neg (by omega)]

theorem readBinaryRaw_ok {cfg : Cfg} {b : Bytes} (h : b.length < 2 ^ 31)
    (hl : Within cfg.stringLimit b.length) (s : St) :
    Decodes (readBinaryRaw cfg) s (Spec.Compact.blob b) b s := by
  unfold readBinaryRaw Spec.Compact.blob
  refine Decodes.seq (readSize_ok h s) ?_
  rw [Binary.checkLength_ok hl]
  exact Decodes.pre (Decodes.lift_ok () s) (Decodes.readAll s (by simp))

theorem nib_lo (n : Nat) : pyAnd (n : Int) 0x0f = ((n % 16 : Nat) : Int) := by
  have := pyAnd_mask (n : Int) 4
  rw [show ((2 ^ 4 - 1 : Nat) : Int) = 0x0f by decide] at this
  rw [this]; omega

theorem nib_hi (n : Nat) : pyShr (n : Int) 4 = ((n / 16 : Nat) : Int) := by
  unfold pyShr; omega

/-- What reading a field header does to the protocol object. -/
def afterHeader (s : St) (code : Nat) (fid : Int) : St :=
  if code = 1 then { s with lastFid := fid, state := .BOOL_READ, boolValue := true }
  else if code = 2 then { s with lastFid := fid, state := .BOOL_READ, boolValue := false }
  else { s with lastFid := fid, state := .VALUE_READ }

theorem readFieldBegin_ok {s : St} {code : Nat} {fid tt : Int} (hs : s.state = .FIELD_READ)
    (hc : 1 ≤ code ∧ code < 16) (hf : InRange 16 fid) (ht : ttypes (code : Int) = .ok tt) :
    Decodes readFieldBegin s (Spec.Compact.fieldHeader s.lastFid code fid) (tt, fid)
      (afterHeader s code fid) := by
  -- what follows the field id
  have tail : ∀ n : Nat, n % 16 = code →
      Decodes (do
        P.modify fun s => { s with lastFid := fid }
        let type := pyAnd (n : Int) 0x0f
        if type = CompactType.TRUE then
          P.modify fun s => { s with state := .BOOL_READ, boolValue := true }
        else if type = CompactType.FALSE then
          P.modify fun s => { s with state := .BOOL_READ, boolValue := false }
        else
          P.modify fun s => { s with state := .VALUE_READ }
        let t ← getTType type
        pure (t, fid)) s [] (tt, fid) (afterHeader s code fid) := by
    intro n hn
    refine Decodes.pre (Decodes.modify _ _) ?_
    simp only [nib_lo, hn]
    have hg : getTType (code : Int) = P.lift (.ok tt) := by
      unfold getTType
      rw [nib_lo, Nat.mod_eq_of_lt hc.2, ht]
    rw [hg]
    unfold afterHeader
    by_cases h1 : code = 1
    · rw [if_pos (by subst h1; rfl), if_pos h1]
      refine Decodes.pre (Decodes.modify _ _) ?_
      exact Decodes.pre (Decodes.lift_ok tt _) (Decodes.pure _ _)
    · have : ¬ ((code : Int) = CompactType.TRUE) := by
        unfold CompactType.TRUE; omega
      rw [if_neg this, if_neg h1]
      by_cases h2 : code = 2
      · rw [if_pos (by subst h2; rfl), if_pos h2]
        refine Decodes.pre (Decodes.modify _ _) ?_
        exact Decodes.pre (Decodes.lift_ok tt _) (Decodes.pure _ _)
      · have : ¬ ((code : Int) = CompactType.FALSE) := by
          unfold CompactType.FALSE; omega
        rw [if_neg this, if_neg h2]
        refine Decodes.pre (Decodes.modify _ _) ?_
        exact Decodes.pre (Decodes.lift_ok tt _) (Decodes.pure _ _)
  unfold readFieldBegin Spec.Compact.fieldHeader
  refine Decodes.pre (Decodes.get s) ?_
  refine Decodes.pre (Decodes.assert (by rw [hs]; rfl) s) ?_
  by_cases hd : 1 ≤ fid - s.lastFid ∧ fid - s.lastFid ≤ 15
  · rw [if_pos hd]
    obtain ⟨d, hn⟩ : ∃ d : Nat, fid - s.lastFid = d := ⟨(fid - s.lastFid).toNat, by omega⟩
    rw [hn] at hd ⊢
    rw [Int.toNat_natCast, ← List.append_nil [_]]
    refine Decodes.seq (readUByte_ok (by omega) s) ?_
    rw [if_neg (by rw [nib_lo]; unfold TType.STOP; omega)]
    have hdelta : ¬ (pyShr ((16 * d + code : Nat) : Int) 4 = 0) := by rw [nib_hi]; omega
    simp only []
    rw [if_neg hdelta]
    refine Decodes.pre (a := fid) (s1 := s) ?_ (tail _ (by omega))
    have e : s.lastFid + pyShr ((16 * d + code : Nat) : Int) 4 = fid := by rw [nib_hi]; omega
    refine Decodes.nil fun rest => ?_
    show some ((Except.ok (s.lastFid + pyShr ((16 * d + code : Nat) : Int) 4), s), rest) = _
    rw [e]
  · rw [if_neg hd]
    refine Decodes.seq (b1 := [UInt8.ofNat code]) (readUByte_ok (by omega) s) ?_
    rw [if_neg (by rw [nib_lo]; unfold TType.STOP; omega)]
    have hdelta : pyShr (code : Int) 4 = 0 := by rw [nib_hi]; omega
    simp only []
    rw [if_pos hdelta]
    rw [← List.append_nil (Spec.Compact.varint _)]
    exact Decodes.seq (readZigZag_ok (by omega) hf s) (tail _ (by omega))

theorem readFieldStop_ok {s : St} (hs : s.state = .FIELD_READ) :
    Decodes readFieldBegin s [0] (TType.STOP, 0) s := by
  unfold readFieldBegin
  refine Decodes.pre (Decodes.get s) ?_
  refine Decodes.pre (Decodes.assert (by rw [hs]; rfl) s) ?_
  refine Decodes.map (readUByte_ok (n := 0) (by omega) s) ?_
  rw [if_pos (by decide)]
  rfl

theorem pos_state {s : St} {q : Q} (h : RelR bs bc s q) (hp : q.pos = .value ∨ q.pos = .container) :
    (s.state == .VALUE_READ || s.state == .CONTAINER_READ) = true := by
  rw [h.1]; rcases hp with hp | hp <;> rw [hp] <;> rfl

theorem readCollectionBegin_ok {cfg : Cfg} {e : Int} {n : Nat} {s : St} {q : Q} (h : RelR bs bc s q)
    (hp : q.pos = .value ∨ q.pos = .container) (he : IsTType e) (hn : n < 2 ^ 31)
    (hl : Within cfg.containerLimit n) :
    Decodes (readCollectionBegin cfg) s (Spec.Compact.listHeader (codeOf e) n) (e, (n : Int))
      { s with containers := s.state :: s.containers, state := .CONTAINER_READ } := by
  have hc := codeOf_lt e
  have tail : Decodes (do
        P.lift (checkLength cfg.containerLimit n)
        P.modify fun s => { s with containers := s.state :: s.containers, state := .CONTAINER_READ }
        pure (e, (n : Int))) s [] (e, (n : Int))
      { s with containers := s.state :: s.containers, state := .CONTAINER_READ } := by
    rw [Binary.checkLength_ok hl]
    exact Decodes.pre (Decodes.lift_ok () _) (Decodes.pre (Decodes.modify _ _) (Decodes.pure _ _))
  have hg : ∀ m : Nat, m % 16 = codeOf e → getTType (m : Int) = P.lift (.ok e) := by
    intro m hm
    unfold getTType
    rw [nib_lo, hm, ttypes_codeOf he]
  unfold readCollectionBegin Spec.Compact.listHeader
  refine Decodes.pre (Decodes.get s) ?_
  refine Decodes.pre (Decodes.assert (pos_state h hp) s) ?_
  by_cases h14 : n ≤ 14
  · rw [if_pos h14, ← List.append_nil [_]]
    refine Decodes.seq (readUByte_ok (by omega) s) ?_
    rw [hg _ (by omega)]
    refine Decodes.pre (Decodes.lift_ok e s) ?_
    have e2 : pyShr ((16 * n + codeOf e : Nat) : Int) 4 = (n : Int) := by rw [nib_hi]; omega
    rw [e2, if_neg (by omega)]
    exact Decodes.pre (Decodes.pure _ _) tail
  · rw [if_neg h14]
    refine Decodes.seq (b1 := [UInt8.ofNat (0xF0 + codeOf e)]) (readUByte_ok (by omega) s) ?_
    rw [hg _ (by omega)]
    refine Decodes.pre (Decodes.lift_ok e s) ?_
    have e2 : pyShr ((0xF0 + codeOf e : Nat) : Int) 4 = 15 := by rw [nib_hi]; omega
    rw [e2, if_pos rfl, ← List.append_nil (Spec.Compact.varint n)]
    exact Decodes.seq (readSize_ok hn s) tail

theorem readMapBegin_ok {cfg : Cfg} {k v : Int} {n : Nat} {s : St} {q : Q} (h : RelR bs bc s q)
    (hp : q.pos = .value ∨ q.pos = .container) (hk : IsTType k) (hv : IsTType v) (hn : n < 2 ^ 31)
    (hl : Within cfg.containerLimit n) :
    ∃ k' v', Decodes (readMapBegin cfg) s (Spec.Compact.mapHeader (codeOf k) (codeOf v) n)
      (k', v', (n : Int)) { s with containers := s.state :: s.containers, state := .CONTAINER_READ } ∧
      (0 < n → k' = k ∧ v' = v) := by
  have hck := codeOf_lt k
  have hcv := codeOf_lt v
  unfold readMapBegin Spec.Compact.mapHeader
  by_cases h0 : n = 0
  · subst h0
    refine ⟨0, 0, ?_, by omega⟩
    rw [if_pos rfl]
    refine Decodes.pre (Decodes.get s) ?_
    refine Decodes.pre (Decodes.assert (pos_state h hp) s) ?_
    rw [← List.append_nil [_]]
    have hz : Spec.Compact.varint 0 = [0] := by unfold Spec.Compact.varint; rfl
    refine Decodes.seq (a := ((0 : Nat) : Int)) (s1 := s) (by rw [← hz]; exact readSize_ok hn s) ?_
    rw [Binary.checkLength_ok hl]
    refine Decodes.pre (Decodes.lift_ok () _) ?_
    rw [if_neg (by omega)]
    refine Decodes.pre (Decodes.pure _ _) ?_
    show Decodes (getTType 0 >>= fun vtype => getTType (pyShr 0 4) >>= fun ktype => _ >>= fun _ => _) _ _ _ _
    rw [show getTType 0 = P.lift (.ok 0) from rfl, show getTType (pyShr 0 4) = P.lift (.ok 0) from rfl]
    refine Decodes.pre (Decodes.lift_ok _ _) ?_
    refine Decodes.pre (Decodes.lift_ok _ _) ?_
    exact Decodes.pre (Decodes.modify _ _) (Decodes.pure _ _)
  · refine ⟨k, v, ?_, fun _ => ⟨rfl, rfl⟩⟩
    rw [if_neg h0]
    refine Decodes.pre (Decodes.get s) ?_
    refine Decodes.pre (Decodes.assert (pos_state h hp) s) ?_
    refine Decodes.seq (readSize_ok hn s) ?_
    rw [Binary.checkLength_ok hl]
    refine Decodes.pre (Decodes.lift_ok () _) ?_
    rw [if_pos (by omega), ← List.append_nil [_]]
    refine Decodes.seq (readUByte_ok (by omega) s) ?_
    have e1 : getTType ((16 * codeOf k + codeOf v : Nat) : Int) = P.lift (.ok v) := by
      unfold getTType
      rw [nib_lo, show (16 * codeOf k + codeOf v) % 16 = codeOf v by omega, ttypes_codeOf hv]
    have e2 : getTType (pyShr ((16 * codeOf k + codeOf v : Nat) : Int) 4) = P.lift (.ok k) := by
      unfold getTType
      rw [nib_hi, nib_lo, show (16 * codeOf k + codeOf v) / 16 % 16 = codeOf k by omega,
        ttypes_codeOf hk]
    show Decodes (getTType _ >>= fun vtype => getTType (pyShr _ 4) >>= fun ktype => _ >>= fun _ => _) _ _ _ _
    rw [e1, e2]
    refine Decodes.pre (Decodes.lift_ok _ _) ?_
    refine Decodes.pre (Decodes.lift_ok _ _) ?_
    exact Decodes.pre (Decodes.modify _ _) (Decodes.pure _ _)

theorem reader_ok {α : Type} {m : P St α} {s : St} {q : Q} (h : RelR bs bc s q)
    (hp : q.pos = .value ∨ q.pos = .container) {b : Bytes} {a : α} {s' : St}
    (hm : Decodes m s b a s') : Decodes (reader m) s b a s' := by
  unfold reader
  refine Decodes.pre (Decodes.get s) ?_
  exact Decodes.pre (Decodes.assert (pos_state h hp) s) hm

theorem relR_push {s : St} {q : Q} (h : RelR bs bc s q) :
    RelR bs bc { s with containers := s.state :: s.containers, state := .CONTAINER_READ }
      { q with pos := .container, containers := q.pos :: q.containers } :=
  ⟨rfl, h.2.1, h.2.2.1, by simp [h.1, h.2.2.2]⟩

theorem readEnd_ok {s : St} {q : Q} (h : RelR bs bc s q) (hp : q.pos = .container)
    (hne : q.containers ≠ []) :
    ∃ s', Decodes readCollectionEnd s [] () s' ∧ RelR bs bc s' (stepQ q .listEnd) ∧ s'.depth = s.depth := by
  cases hc : q.containers with
  | nil => exact absurd hc hne
  | cons p rest =>
    have h4 := h.2.2.2
    rw [hc] at h4
    refine ⟨{ s with state := rState p, containers := rest.map rState ++ bc }, ?_, ?_, rfl⟩
    · unfold readCollectionEnd
      refine Decodes.pre (Decodes.get s) ?_
      refine Decodes.pre (Decodes.assert (by rw [h.1, hp]; rfl) s) ?_
      rw [h4]
      exact Decodes.set _ _
    · simp only [stepQ, hc]
      exact ⟨rfl, h.2.1, h.2.2.1, rfl⟩

theorem readStructEnd_ok {s : St} {q : Q} (h : RelR bs bc s q) (hp : q.pos = .field)
    (hne : q.structs ≠ []) :
    ∃ s', Decodes readStructEnd s [] () s' ∧ RelR bs bc s' (stepQ q .structEnd) ∧ s'.depth = s.depth := by
  cases hc : q.structs with
  | nil => exact absurd hc hne
  | cons x rest =>
    obtain ⟨p, f⟩ := x
    have h3 := h.2.2.1
    rw [hc] at h3
    refine ⟨{ s with state := rState p, lastFid := f, structs := rest.map (fun x => (rState x.1, x.2)) ++ bs },
      ?_, ?_, rfl⟩
    · unfold readStructEnd
      refine Decodes.pre (Decodes.get s) ?_
      refine Decodes.pre (Decodes.assert (by rw [h.1, hp]; rfl) s) ?_
      rw [h3]
      exact Decodes.set _ _
    · simp only [stepQ, hc]
      exact ⟨rfl, rfl, rfl, h.2.2.2⟩

section
variable {sl cl : Option Int}

theorem of_dec {α : Type} {m : P St α} {s s' : St} {q : (lang sl cl).Q} {T : Tok} {a : α}
    (h : Decodes m s (tokBytes q T) a s') (hr : RelR bs bc s' (stepQ q T)) (hd : s'.depth = s.depth) :
    ReadsTo (decRel St) (lang sl cl) (RelR bs bc) m s q [T] a := by
  refine ⟨s', ?_, hr, hd⟩
  show Decodes m s (tokBytes q T ++ []) a s'
  rw [List.append_nil]
  exact h
end

theorem readerLaws (cfg : Cfg) :
    ReaderLaws (decRel St) (lang cfg.stringLimit cfg.containerLimit) (rd cfg) (RelR bs bc) IsUtf8 where
  depth := fun s q d h => h
  structBegin s q h ho := by
    refine of_dec (s' := { s with structs := (s.state, s.lastFid) :: s.structs, state := .FIELD_READ, lastFid := 0 })
      ?_ ⟨rfl, rfl, by simp [stepQ, h.1, h.2.1, h.2.2.1], h.2.2.2⟩ rfl
    show Decodes readStructBegin s [] () _
    unfold readStructBegin
    refine Decodes.pre (Decodes.get s) ?_
    refine Decodes.pre (Decodes.assert ?_ s) (Decodes.modify _ _)
    rw [h.1]
    rcases ho.2 with hp | hp | hp <;> rw [hp] <;> rfl
  structEnd s q h ho := by
    obtain ⟨s', h1, h2, h3⟩ := readStructEnd_ok h ho.2.1 ho.2.2
    exact of_dec h1 h2 h3
  fieldBegin s q tt fid h ho := by
    have hne1 : codeOf tt ≠ 1 ∧ codeOf tt ≠ 2 := by
      obtain ⟨⟨h1, -, h3⟩, -⟩ := ho
      rcases h1.cases with h | h | h | h | h | h | h | h | h | h | h | h <;> subst h <;>
        first | exact absurd rfl h3 | decide
    have hs : s.state = .FIELD_READ := by rw [h.1, ho.2]; rfl
    have hd := readFieldBegin_ok hs (codeOf_lt tt) ho.1.2.1 (ttypes_codeOf ho.1.1)
    unfold afterHeader at hd
    rw [if_neg hne1.1, if_neg hne1.2, h.2.1] at hd
    exact of_dec hd ⟨rfl, rfl, h.2.2.1, h.2.2.2⟩ rfl
  boolField s q fid b h ho := by
    have hs : s.state = .FIELD_READ := by rw [h.1, ho.2]; rfl
    have hd := readFieldBegin_ok (tt := TType.BOOL) (code := Spec.Compact.boolCode b) hs
      (by cases b <;> decide) ho.1 (by cases b <;> rfl)
    rw [h.2.1] at hd
    refine ⟨_, [], _, afterHeader s (Spec.Compact.boolCode b) fid, (List.append_nil _).symm, hd, ?_, ?_, ?_⟩
    · show Decodes readBool _ [] b _
      refine Decodes.nil fun rest => ?_
      cases b <;> rfl
    · cases b
      · exact ⟨rfl, rfl, h.2.2.1, h.2.2.2⟩
      · exact ⟨rfl, rfl, h.2.2.1, h.2.2.2⟩
    · cases b <;> rfl
  fieldEnd s q h ho := by
    refine of_dec (s' := { s with state := .FIELD_READ }) ?_ ⟨rfl, h.2.1, h.2.2.1, h.2.2.2⟩ rfl
    show Decodes readFieldEnd s [] () _
    unfold readFieldEnd
    refine Decodes.pre (Decodes.get s) ?_
    refine Decodes.pre (Decodes.assert ?_ s) (Decodes.modify _ _)
    rw [h.1]
    rcases ho.2 with hp | hp <;> rw [hp] <;> rfl
  fieldStop s q h ho :=
    ⟨0, of_dec (readFieldStop_ok (by rw [h.1, ho.2]; rfl)) h rfl⟩
  mapBegin s q k v n h ho := by
    obtain ⟨k', v', hd, hkv⟩ := readMapBegin_ok h ho.2 ho.1.1 ho.1.2.1 ho.1.2.2.1 ho.1.2.2.2
    exact ⟨k', v', of_dec hd (relR_push h) rfl, hkv⟩
  mapEnd s q h ho := by
    obtain ⟨s', h1, h2, h3⟩ := readEnd_ok h ho.2.1 ho.2.2
    exact of_dec h1 h2 h3
  listBegin s q e n h ho :=
    of_dec (readCollectionBegin_ok h ho.2 ho.1.1 ho.1.2.1 ho.1.2.2) (relR_push h) rfl
  listEnd s q h ho := by
    obtain ⟨s', h1, h2, h3⟩ := readEnd_ok h ho.2.1 ho.2.2
    exact of_dec h1 h2 h3
  setBegin s q e n h ho :=
    of_dec (readCollectionBegin_ok h ho.2 ho.1.1 ho.1.2.1 ho.1.2.2) (relR_push h) rfl
  setEnd s q h ho := by
    obtain ⟨s', h1, h2, h3⟩ := readEnd_ok h ho.2.1 ho.2.2
    exact of_dec h1 h2 h3
  bool s q b h ho := by
    refine of_dec (s' := s) ?_ h rfl
    show Decodes readBool s _ b s
    unfold readBool
    refine Decodes.pre (Decodes.get s) ?_
    have hp : q.pos = .container := ho.2
    rw [if_neg (by rw [h.1, hp]; decide), if_pos (by rw [h.1, hp]; rfl)]
    cases b
    · exact Decodes.map (readByteRaw_ok (i := 2) (by decide) s) rfl
    · exact Decodes.map (readByteRaw_ok (i := 1) (by decide) s) rfl
  byte s q i h ho := of_dec (reader_ok h ho.2 (readByteRaw_ok ho.1 s)) h rfl
  i16 s q i h ho := of_dec (reader_ok h ho.2 (readZigZag_ok (by omega) ho.1 s)) h rfl
  i32 s q i h ho := of_dec (reader_ok h ho.2 (readZigZag_ok (by omega) ho.1 s)) h rfl
  i64 s q i h ho := of_dec (reader_ok h ho.2 (readZigZag_ok (by omega) ho.1 s)) h rfl
  double s q x h ho := by
    refine of_dec (reader_ok h ho.2 (s' := s) ?_) h rfl
    show Decodes _ s (leInt 8 x.toNat) x s
    refine Decodes.map (Decodes.readAll s (by simp)) ?_
    rw [leInt_eq_reverse, List.reverse_reverse, ← beBytes8_eq,
      beNat_beBytes_of_lt (by have := x.toNat_lt; omega)]
    simp
  str s q x h ho := by
    refine of_dec (s' := s) ?_ h rfl
    show Decodes (readString cfg) s (Spec.Compact.blob (utf8 x)) x s
    unfold readString
    have hl := utf8_length ho.1.1.1
    refine Decodes.map (reader_ok h ho.2 (readBinaryRaw_ok (by rw [hl]; exact ho.1.1.2)
      (by rw [hl]; exact ho.1.2) s)) ?_
    rw [utf8Decode_utf8 ho.1.1.1]
    rfl
  bin s q b h ho := of_dec (reader_ok h ho.2 (readBinaryRaw_ok ho.1.1 ho.1.2 s)) h rfl
  binText s q b h ho ht := by
    obtain ⟨y, hy⟩ := (isUtf8_iff b).mp ht
    refine ⟨y, of_dec (s' := s) ?_ h rfl⟩
    show Decodes (readString cfg) s (Spec.Compact.blob b) y s
    unfold readString
    refine Decodes.map (reader_ok h ho.2 (readBinaryRaw_ok ho.1.1 ho.1.2 s)) ?_
    rw [hy]
    rfl
  uuid s q u h ho := of_dec (reader_ok h ho.2 (Decodes.readAll s ho.1)) h rfl

end Thrift.Compact
