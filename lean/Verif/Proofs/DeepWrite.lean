import Verif.Proofs.Tokens
import Verif.Proofs.Deep
import Verif.Model.Binary
import Verif.Model.Compact
import Verif.Proofs.Always
/-
The recursion counter: writing too deep a value, and every method leaves the counter as it was.
-/

namespace Thrift
open Spec

/-- `m` raises `e`. -/
def FailsW {σ : Type} (m : W σ Unit) (s : σ) (e : Exc) : Prop :=
  ∀ out, ∃ s' out', m s out = (.error e, s', out')

section
variable {σ : Type} [HasDepth σ] {L : Lang} {wr : WrOps σ} {R : σ → L.Q → Prop}

omit [HasDepth σ] in
theorem FailsW.first {m : W σ Unit} {k : Unit → W σ Unit} {s : σ} {e : Exc} (h : FailsW m s e) :
    FailsW (m >>= k) s e := by
  intro out
  obtain ⟨s', out', h⟩ := h out
  exact ⟨s', out', W.bind_error h⟩

theorem FailsW.after {m k : W σ Unit} {s : σ} {q : L.Q} {xs : List Tok} {e : Exc}
    (hm : Writes L R m s q xs)
    (hk : ∀ s', R s' (L.steps q xs) → HasDepth.depth s' = HasDepth.depth s → FailsW k s' e) :
    FailsW (m >>= fun _ => k) s e := by
  intro out
  obtain ⟨s1, e1, r1, d1⟩ := hm out
  obtain ⟨s', out', h⟩ := hk s1 r1 d1 (out ++ L.enc q xs)
  exact ⟨s', out', (W.bind_ok e1).trans h⟩

theorem incDepthW_full {s : σ} (h : 64 ≤ HasDepth.depth s) :
    FailsW (incDepthW : W σ Unit) s TProtocolException.DEPTH_LIMIT := by
  intro out
  unfold incDepthW
  simp only [W.bind_eq, W.modify_eq, W.get_eq, HasDepth.depth_set]
  rw [if_pos (by unfold recursionLimit; omega)]
  exact ⟨_, _, rfl⟩

theorem FailsW.bracket (H : WriterLaws L wr R) {m : W σ Unit} {s : σ} {q : L.Q} {e : Exc}
    (hd : HasDepth.depth s < 64) (hR : R s q)
    (hm : ∀ s', R s' q → HasDepth.depth s' = HasDepth.depth s + 1 → FailsW m s' e) :
    FailsW (do incDepthW; W.tryFinally m decDepth) s e := by
  intro out
  obtain ⟨s', out', h⟩ := hm (HasDepth.setDepth (HasDepth.depth s + 1) s) (H.depth _ _ _ hR)
    (HasDepth.depth_set _ _) out
  refine ⟨decDepth s', out', (W.bind_ok (incDepthW_ok hd out)).trans ?_⟩
  unfold W.tryFinally
  rw [h]

variable (sch : Schema) (hs : SchemaOK .gen sch)

include hs in
set_option linter.unusedSectionVars false in
mutual
theorem write_deep (H : WriterLaws L wr R) : (v : Val) → (t : Ty) → (s : σ) → (q : L.Q) → WT sch t v →
    L.Ok q (toks sch t v) → R s q → HasDepth.depth s ≤ 64 → 64 < HasDepth.depth s + structDepth v →
    FailsW (writeVal wr sch .gen t v) s TProtocolException.DEPTH_LIMIT := by
  intro v t s q hwt hok hR h64 hd
  cases v with
  | list vs =>
    cases t <;> simp only [WT] at hwt
    case list e =>
    simp only [toks, Lang.Ok_cons, Lang.Ok_append] at hok
    simp only [writeVal]
    simp only [structDepth] at hd
    refine FailsW.after (Writes.tok H (T := .listBegin _ _) hok.1 hR) fun s1 r1 d1 => ?_
    exact FailsW.first (writeElems_deep H vs e s1 _ hwt.2 hok.2.1 r1 (by omega) (by omega))
  | set vs =>
    cases t <;> simp only [WT] at hwt
    case set e =>
    simp only [toks, Lang.Ok_cons, Lang.Ok_append] at hok
    simp only [writeVal]
    simp only [structDepth] at hd
    refine FailsW.after (Writes.tok H (T := .setBegin _ _) hok.1 hR) fun s1 r1 d1 => ?_
    exact FailsW.first (writeElems_deep H vs e s1 _ hwt.2.2 hok.2.1 r1 (by omega) (by omega))
  | map kvs =>
    cases t <;> simp only [WT] at hwt
    case map k v =>
    simp only [toks, Lang.Ok_cons, Lang.Ok_append] at hok
    simp only [writeVal]
    simp only [structDepth] at hd
    refine FailsW.after (Writes.tok H (T := .mapBegin _ _ _) hok.1 hR) fun s1 r1 d1 => ?_
    exact FailsW.first (writePairs_deep H kvs k v s1 _ hwt.2.2 hok.2.1 r1 (by omega) (by omega))
  | struct as =>
    cases t <;> simp only [WT] at hwt
    case struct sid =>
    simp only [toks, Lang.Ok_cons, Lang.Ok_append] at hok
    simp only [writeVal, requiredSet_of_WTf hwt, if_true]
    simp only [structDepth] at hd
    by_cases hfull : 64 ≤ HasDepth.depth s
    · exact FailsW.first (incDepthW_full hfull)
    · refine FailsW.bracket H (by omega) hR fun s' hR' hd' => ?_
      refine FailsW.after (Writes.tok H (T := .structBegin) hok.1 hR') fun s1 r1 d1 => ?_
      exact FailsW.first (writeFields_deep H as (sch sid) s1 _ hwt hok.2.1 r1 (by omega) (by omega))
  | _ => simp only [structDepth] at hd; omega
theorem writeElems_deep (H : WriterLaws L wr R) : (vs : List Val) → (e : Ty) → (s : σ) → (q : L.Q) →
    WTs sch e vs → L.Ok q (toksE sch e vs) → R s q → HasDepth.depth s ≤ 64 →
    64 < HasDepth.depth s + structDepths vs →
    FailsW (writeElems wr sch .gen e vs) s TProtocolException.DEPTH_LIMIT := by
  intro vs e s q hwt hok hR h64 hd
  cases vs with
  | nil => simp only [structDepths] at hd; omega
  | cons v vs =>
    simp only [WTs] at hwt
    simp only [toksE, Lang.Ok_append] at hok
    simp only [writeElems]
    simp only [structDepths] at hd
    by_cases h : 64 < HasDepth.depth s + structDepth v
    · exact FailsW.first (write_deep H v e s q hwt.1 hok.1 hR h64 h)
    · refine FailsW.after (write_ok sch .gen H hs v e s q hwt.1 hok.1 hR (fun _ => by omega))
        fun s1 r1 d1 => ?_
      exact writeElems_deep H vs e s1 _ hwt.2 hok.2 r1 (by omega) (by omega)
theorem writePairs_deep (H : WriterLaws L wr R) : (kvs : List (Val × Val)) → (k v : Ty) → (s : σ) →
    (q : L.Q) → WTp sch k v kvs → L.Ok q (toksP sch k v kvs) → R s q → HasDepth.depth s ≤ 64 →
    64 < HasDepth.depth s + structDepthp kvs →
    FailsW (writePairs wr sch .gen k v kvs) s TProtocolException.DEPTH_LIMIT := by
  intro kvs k v s q hwt hok hR h64 hd
  match kvs with
  | [] => simp only [structDepthp] at hd; omega
  | (a, b) :: kvs =>
    simp only [WTp] at hwt
    simp only [toksP, Lang.Ok_append] at hok
    simp only [writePairs]
    simp only [structDepthp] at hd
    by_cases ha : 64 < HasDepth.depth s + structDepth a
    · exact FailsW.first (write_deep H a k s q hwt.1 hok.1 hR h64 ha)
    · refine FailsW.after (write_ok sch .gen H hs a k s q hwt.1 hok.1 hR (fun _ => by omega))
        fun s1 r1 d1 => ?_
      by_cases hb : 64 < HasDepth.depth s1 + structDepth b
      · exact FailsW.first (write_deep H b v s1 _ hwt.2.1 hok.2.1 r1 (by omega) hb)
      · refine FailsW.after (write_ok sch .gen H hs b v s1 _ hwt.2.1 hok.2.1 r1 (fun _ => by omega))
          fun s2 r2 d2 => ?_
        exact writePairs_deep H kvs k v s2 _ hwt.2.2 hok.2.2 r2 (by omega) (by omega)
theorem writeFields_deep (H : WriterLaws L wr R) : (as : List (Option Val)) → (fs : List Field) →
    (s : σ) → (q : L.Q) → WTf sch fs as → L.Ok q (toksF sch fs as) → R s q →
    HasDepth.depth s ≤ 64 → 64 < HasDepth.depth s + structDepthf as →
    FailsW (writeFields wr sch .gen fs as) s TProtocolException.DEPTH_LIMIT := by
  intro as fs s q hwt hok hR h64 hd
  match as with
  | [] => simp only [structDepthf] at hd; omega
  | none :: as =>
    cases fs with
    | nil => simp only [WTf] at hwt
    | cons f fs =>
      simp only [WTf] at hwt
      simp only [toksF] at hok
      simp only [writeFields]
      simp only [structDepthf] at hd
      exact writeFields_deep H as fs s q hwt.2 hok hR h64 hd
  | some v :: as =>
    cases fs with
    | nil => simp only [WTf] at hwt
    | cons f fs =>
      simp only [WTf] at hwt
      simp only [toksF, Lang.Ok_append, Lang.Ok_cons] at hok
      simp only [writeFields]
      simp only [structDepthf] at hd
      by_cases hv : 64 < HasDepth.depth s + structDepth v
      · have hb : f.ty ≠ .bool := by
          intro hb
          rw [hb] at hwt
          cases v <;> simp only [WT, false_and] at hwt
          simp only [structDepth] at hv
          omega
        rw [toksField_ne_bool hb] at hok
        simp only [Lang.Ok_cons] at hok
        refine FailsW.after (Writes.tok H (T := .fieldBegin _ _) hok.1.1 hR) fun s1 r1 d1 => ?_
        exact FailsW.first (write_deep H v f.ty s1 _ hwt.1 hok.1.2 r1 (by omega) (by omega))
      · -- the field is written
        have hfld : Writes L R (do
            wr.writeFieldBegin f.ty.ttype f.fid
            writeVal wr sch .gen f.ty v) s q (toksField f.fid (toks sch f.ty v) f.ty v) := by
          by_cases hb : f.ty = .bool
          · rw [hb] at hwt hok ⊢
            cases v <;> simp only [WT, false_and] at hwt
            rename_i b
            simp only [toksField, Lang.Ok_cons] at hok ⊢
            simp only [writeVal]
            exact Writes.tok H (T := .boolField f.fid b) hok.1.1 hR
          · rw [toksField_ne_bool hb] at hok ⊢
            simp only [Lang.Ok_cons] at hok
            refine Writes.seq (xs := [_]) (Writes.tok H (T := .fieldBegin _ _) hok.1.1 hR)
              fun s1 r1 d1 => ?_
            exact write_ok sch .gen H hs v f.ty s1 _ hwt.1 hok.1.2 r1 (fun hm => by omega)
        have key : FailsW (do
            (do wr.writeFieldBegin f.ty.ttype f.fid
                writeVal wr sch .gen f.ty v)
            wr.writeFieldEnd
            writeFields wr sch .gen fs as) s TProtocolException.DEPTH_LIMIT := by
          refine FailsW.after hfld fun s1 r1 d1 => ?_
          refine FailsW.after (Writes.tok H (T := .fieldEnd) hok.2.1 r1) fun s2 r2 d2 => ?_
          exact writeFields_deep H as fs s2 _ hwt.2 hok.2.2 r2 (by omega) (by omega)
        intro out
        obtain ⟨s', out', e⟩ := key out
        refine ⟨s', out', ?_⟩
        rw [← e]
        simp only [W.bind_eq]
        split <;> rename_i h
        · rename_i s1 out1
          cases h2 : writeVal wr sch .gen f.ty v s1 out1 with
          | mk r3 p => cases r3 <;> rfl
        · rfl
end
end

/-! ### The counter is as before, whatever happens -/

section
variable {σ : Type} [HasDepth σ]

/-- A writing method leaves the recursion counter as it was, whether it returns or raises. -/
def BalW {α : Type} (m : W σ α) : Prop := ∀ s out, HasDepth.depth (m s out).2.1 = HasDepth.depth s

variable {α β : Type}

theorem BalW.pure (a : α) : BalW (Pure.pure a : W σ α) := fun _ _ => rfl
theorem BalW.raise (e : Exc) : BalW (W.raise e : W σ α) := fun _ _ => rfl
theorem BalW.lift (r : Except Exc α) : BalW (W.lift r : W σ α) := fun _ _ => rfl
theorem BalW.get : BalW (W.get : W σ σ) := fun _ _ => rfl
theorem BalW.write (b : Bytes) : BalW (W.write b : W σ Unit) := fun _ _ => rfl
theorem BalW.modify {f : σ → σ} (h : ∀ s, HasDepth.depth (f s) = HasDepth.depth s) :
    BalW (W.modify f) := fun s _ => h s
theorem BalW.assert (c : Bool) : BalW (W.assert c : W σ Unit) := by
  intro s out; cases c <;> rfl
theorem BalW.ite {c : Prop} [Decidable c] {m n : W σ α} (hm : BalW m) (hn : BalW n) :
    BalW (if c then m else n) := by
  split
  · exact hm
  · exact hn
theorem BalW.bind {m : W σ α} {k : α → W σ β} (hm : BalW m) (hk : ∀ a, BalW (k a)) :
    BalW (m >>= k) := by
  intro s out
  have h := hm s out
  rw [W.bind_eq]
  split
  · rename_i a s' out' e
    rw [e] at h
    rw [hk a s' out', h]
  · rename_i e s' out' e'
    rw [e'] at h
    exact h

/-- Sequencing when the continuation may use the state read by `get`. -/
theorem BalW.getBind {k : σ → W σ β} (hk : ∀ s out, HasDepth.depth (k s s out).2.1 = HasDepth.depth s) :
    BalW (W.get >>= k) := fun s out => hk s out

theorem BalW.bracket {m : W σ α} (hm : BalW m) : BalW (do incDepthW; W.tryFinally m decDepth) := by
  intro s out
  rw [W.bind_eq]
  by_cases h : 64 ≤ HasDepth.depth s
  · have : (incDepthW : W σ Unit) s out = (.error TProtocolException.DEPTH_LIMIT, s, out) := by
      unfold incDepthW
      simp only [W.bind_eq, W.modify_eq, W.get_eq, HasDepth.depth_set]
      rw [if_pos (by unfold recursionLimit; omega)]
      simp only [W.bind_eq, W.modify_eq, HasDepth.depth_set, HasDepth.set_set, W.raise_eq]
      rw [show HasDepth.depth s + 1 - 1 = HasDepth.depth s by omega, HasDepth.set_depth]
    rw [this]
  · rw [incDepthW_ok (by omega)]
    simp only
    have := hm (HasDepth.setDepth (HasDepth.depth s + 1) s) out
    unfold W.tryFinally
    revert this
    generalize m (HasDepth.setDepth (HasDepth.depth s + 1) s) out = x
    obtain ⟨r, s', out'⟩ := x
    intro this
    simp only [HasDepth.depth_set] at this
    show HasDepth.depth (decDepth s') = _
    unfold decDepth
    rw [HasDepth.depth_set]
    omega

/-- Every writing method of a protocol leaves the recursion counter alone. -/
structure BalWOps (wr : WrOps σ) : Prop where
  structBegin : BalW wr.writeStructBegin
  structEnd : BalW wr.writeStructEnd
  fieldBegin : ∀ t i, BalW (wr.writeFieldBegin t i)
  fieldEnd : BalW wr.writeFieldEnd
  fieldStop : BalW wr.writeFieldStop
  mapBegin : ∀ k v n, BalW (wr.writeMapBegin k v n)
  mapEnd : BalW wr.writeMapEnd
  listBegin : ∀ e n, BalW (wr.writeListBegin e n)
  listEnd : BalW wr.writeListEnd
  setBegin : ∀ e n, BalW (wr.writeSetBegin e n)
  setEnd : BalW wr.writeSetEnd
  bool : ∀ x, BalW (wr.writeBool x)
  byte : ∀ x, BalW (wr.writeByte x)
  i16 : ∀ x, BalW (wr.writeI16 x)
  i32 : ∀ x, BalW (wr.writeI32 x)
  i64 : ∀ x, BalW (wr.writeI64 x)
  double : ∀ x, BalW (wr.writeDouble x)
  string : ∀ x, BalW (wr.writeString x)
  binary : ∀ x, BalW (wr.writeBinary x)
  uuid : ∀ x, BalW (wr.writeUuid x)

variable {wr : WrOps σ} (sch : Schema) (mode : Mode)

mutual
theorem writeVal_bal (H : BalWOps wr) : (v : Val) → (t : Ty) → BalW (writeVal wr sch mode t v) := by
  intro v t
  cases v <;> cases t <;> simp only [writeVal] <;> try exact BalW.raise _
  · exact H.bool _
  · exact H.byte _
  · exact H.i16 _
  · exact H.i32 _
  · exact H.i64 _
  · exact H.double _
  · exact H.string _
  · exact H.binary _
  · exact H.uuid _
  · exact BalW.bind (H.listBegin _ _) fun _ => BalW.bind (writeElems_bal H _ _) fun _ => H.listEnd
  · exact BalW.bind (H.setBegin _ _) fun _ => BalW.bind (writeElems_bal H _ _) fun _ => H.setEnd
  · exact BalW.bind (H.mapBegin _ _ _) fun _ => BalW.bind (writePairs_bal H _ _ _) fun _ => H.mapEnd
  · rename_i as sid
    have hf := writeFields_bal H as (sch sid)
    split
    · refine BalW.ite (BalW.bracket ?_) (BalW.raise _)
      exact BalW.bind H.structBegin fun _ => BalW.bind hf fun _ =>
        BalW.bind H.fieldStop fun _ => H.structEnd
    · exact BalW.bind H.structBegin fun _ => BalW.ite
        (BalW.bind hf fun _ => BalW.bind H.fieldStop fun _ => H.structEnd)
        (BalW.bind H.fieldStop fun _ => H.structEnd)
theorem writeElems_bal (H : BalWOps wr) : (vs : List Val) → (e : Ty) →
    BalW (writeElems wr sch mode e vs) := by
  intro vs e
  cases vs with
  | nil => simp only [writeElems]; exact BalW.pure _
  | cons v vs =>
    simp only [writeElems]
    exact BalW.bind (writeVal_bal H v e) fun _ => writeElems_bal H vs e
theorem writePairs_bal (H : BalWOps wr) : (kvs : List (Val × Val)) → (k v : Ty) →
    BalW (writePairs wr sch mode k v kvs) := by
  intro kvs k v
  match kvs with
  | [] => simp only [writePairs]; exact BalW.pure _
  | (a, b) :: kvs =>
    simp only [writePairs]
    exact BalW.bind (writeVal_bal H a k) fun _ => BalW.bind (writeVal_bal H b v) fun _ =>
      writePairs_bal H kvs k v
theorem writeFields_bal (H : BalWOps wr) : (as : List (Option Val)) → (fs : List Field) →
    BalW (writeFields wr sch mode fs as) := by
  intro as fs
  match as with
  | [] =>
    cases fs <;> simp only [writeFields]
    · exact BalW.pure _
    · exact BalW.raise _
  | none :: as =>
    cases fs <;> simp only [writeFields]
    · exact BalW.pure _
    · exact writeFields_bal H as _
  | some v :: as =>
    cases fs <;> simp only [writeFields]
    · exact BalW.pure _
    · exact BalW.bind (H.fieldBegin _ _) fun _ => BalW.bind (writeVal_bal H v _) fun _ =>
        BalW.bind H.fieldEnd fun _ => writeFields_bal H as _
end
end

namespace Binary

theorem writeInt_bal (n : Nat) (i : Int) : BalW (writeInt n i) :=
  BalW.bind (BalW.lift _) fun _ => BalW.write _

theorem writeBinary_bal (b : Bytes) : BalW (writeBinary b) :=
  BalW.bind (writeInt_bal _ _) fun _ => BalW.write _

theorem balWOps : BalWOps wr where
  structBegin := BalW.pure _
  structEnd := BalW.pure _
  fieldBegin _ _ := BalW.bind (writeInt_bal _ _) fun _ => writeInt_bal _ _
  fieldEnd := BalW.pure _
  fieldStop := writeInt_bal _ _
  mapBegin _ _ _ := BalW.bind (writeInt_bal _ _) fun _ => BalW.bind (writeInt_bal _ _) fun _ => writeInt_bal _ _
  mapEnd := BalW.pure _
  listBegin _ _ := BalW.bind (writeInt_bal _ _) fun _ => writeInt_bal _ _
  listEnd := BalW.pure _
  setBegin _ _ := BalW.bind (writeInt_bal _ _) fun _ => writeInt_bal _ _
  setEnd := BalW.pure _
  bool _ := BalW.ite (writeInt_bal _ _) (writeInt_bal _ _)
  byte _ := writeInt_bal _ _
  i16 _ := writeInt_bal _ _
  i32 _ := writeInt_bal _ _
  i64 _ := writeInt_bal _ _
  double _ := BalW.write _
  string _ := BalW.bind (BalW.lift _) fun _ => writeBinary_bal _
  binary _ := writeBinary_bal _
  uuid _ := BalW.write _

theorem writeMessageBegin_bal (cfg : Cfg) (name : PyStr) (type seqid : Int) :
    BalW (writeMessageBegin cfg name type seqid) :=
  BalW.ite (BalW.bind (writeInt_bal _ _) fun _ => BalW.bind
      (BalW.bind (BalW.lift _) fun _ => writeBinary_bal _) fun _ => writeInt_bal _ _)
    (BalW.bind (BalW.bind (BalW.lift _) fun _ => writeBinary_bal _) fun _ =>
      BalW.bind (writeInt_bal _ _) fun _ => writeInt_bal _ _)

theorem readInt_bal (n : Nat) (s : St) : Bal (readInt n) s fun _ => True :=
  Bal.seq (Bal.readAll _ _) fun _ _ _ => Bal.pure trivial

theorem readBinary_bal (cfg : Cfg) (s : St) : Bal (readBinary cfg) s fun _ => True :=
  Bal.seq (readInt_bal 4 s) fun _ _ _ => Bal.seq (Bal.lift fun _ _ => trivial) fun _ _ _ => Bal.readAll _ _

theorem readString_bal (cfg : Cfg) (s : St) : Bal (readString cfg) s fun _ => True :=
  Bal.seq (readBinary_bal cfg s) fun _ _ _ => Bal.lift fun _ _ => trivial

theorem readListBegin_bal (cfg : Cfg) (s : St) : Bal (readListBegin cfg) s fun _ => True :=
  Bal.seq (readInt_bal 1 s) fun _ _ _ => Bal.seq (readInt_bal 4 _) fun _ _ _ =>
    Bal.seq (Bal.lift fun _ _ => trivial) fun _ _ _ => Bal.pure trivial

theorem balOps (cfg : Cfg) : BalOps (rd cfg) where
  structBegin _ := Bal.pure trivial
  structEnd _ := Bal.pure trivial
  fieldBegin s := Bal.seq (readInt_bal 1 s) fun _ _ _ => Bal.ite (fun _ => Bal.pure trivial) fun _ =>
    Bal.seq (readInt_bal 2 _) fun _ _ _ => Bal.pure trivial
  fieldEnd _ := Bal.pure trivial
  mapBegin s := Bal.seq (readInt_bal 1 s) fun _ _ _ => Bal.seq (readInt_bal 1 _) fun _ _ _ =>
    Bal.seq (readInt_bal 4 _) fun _ _ _ => Bal.seq (Bal.lift fun _ _ => trivial) fun _ _ _ =>
      Bal.pure trivial
  mapEnd _ := Bal.pure trivial
  listBegin := readListBegin_bal cfg
  listEnd _ := Bal.pure trivial
  setBegin := readListBegin_bal cfg
  setEnd _ := Bal.pure trivial
  bool s := Bal.seq (readInt_bal 1 s) fun _ _ _ => Bal.ite (fun _ => Bal.pure trivial)
    fun _ => Bal.pure trivial
  byte := readInt_bal 1
  i16 := readInt_bal 2
  i32 := readInt_bal 4
  i64 := readInt_bal 8
  double s := Bal.seq (Bal.readAll _ s) fun _ _ _ => Bal.pure trivial
  string := readString_bal cfg
  binary := readBinary_bal cfg
  uuid _ := Bal.readAll _ _

end Binary

namespace Compact

theorem writeVarint_bal (n : Int) : BalW (writeVarint n) :=
  BalW.bind (BalW.assert _) fun _ => BalW.write _
theorem writeUByte_bal (n : Int) : BalW (writeUByte n) :=
  BalW.bind (BalW.lift _) fun _ => BalW.write _
theorem writeByteRaw_bal (n : Int) : BalW (writeByteRaw n) :=
  BalW.bind (BalW.lift _) fun _ => BalW.write _
theorem writeZigZag_bal (bits : Nat) (n : Int) : BalW (writeZigZag bits n) :=
  BalW.bind (BalW.lift _) fun _ => writeVarint_bal _
theorem writeBinaryRaw_bal (b : Bytes) : BalW (writeBinaryRaw b) :=
  BalW.bind (writeVarint_bal _) fun _ => BalW.write _
theorem writer_bal {m : W St Unit} (h : BalW m) : BalW (writer m) :=
  BalW.bind BalW.get fun _ => BalW.bind (BalW.assert _) fun _ => h
theorem writeFieldHeader_bal (t fid : Int) : BalW (writeFieldHeader t fid) :=
  BalW.bind BalW.get fun _ => BalW.ite
    (BalW.bind (writeUByte_bal _) fun _ => BalW.modify fun _ => rfl)
    (BalW.bind (writeByteRaw_bal _) fun _ => BalW.bind (writeZigZag_bal _ _) fun _ =>
      BalW.modify fun _ => rfl)

theorem writeCollectionBegin_bal (e n : Int) : BalW (writeCollectionBegin e n) :=
  BalW.bind BalW.get fun _ => BalW.bind (BalW.assert _) fun _ => BalW.ite
    (BalW.bind (BalW.lift _) fun _ => BalW.bind (writeUByte_bal _) fun _ => BalW.modify fun _ => rfl)
    (BalW.bind (BalW.lift _) fun _ => BalW.bind (writeUByte_bal _) fun _ =>
      BalW.bind (writeVarint_bal _) fun _ => BalW.modify fun _ => rfl)

theorem writeCollectionEnd_bal : BalW writeCollectionEnd := by
  refine BalW.getBind fun s out => ?_
  rw [W.bind_eq]
  cases h : (s.state == .CONTAINER_WRITE) with
  | false => rfl
  | true =>
    simp only [W.assert_true]
    cases s.containers <;> rfl

theorem writeStructEnd_bal : BalW writeStructEnd := by
  refine BalW.getBind fun s out => ?_
  rw [W.bind_eq]
  cases h : (s.state == .FIELD_WRITE) with
  | false => rfl
  | true =>
    simp only [W.assert_true]
    cases s.structs <;> rfl

theorem balWOps : BalWOps wr where
  structBegin := BalW.bind BalW.get fun _ => BalW.bind (BalW.assert _) fun _ => BalW.modify fun _ => rfl
  structEnd := writeStructEnd_bal
  fieldBegin _ _ := BalW.bind BalW.get fun _ => BalW.bind (BalW.assert _) fun _ => BalW.ite
    (BalW.modify fun _ => rfl) (BalW.bind (BalW.modify fun _ => rfl) fun _ =>
      BalW.bind (BalW.lift _) fun _ => writeFieldHeader_bal _ _)
  fieldEnd := BalW.bind BalW.get fun _ => BalW.bind (BalW.assert _) fun _ => BalW.modify fun _ => rfl
  fieldStop := writeByteRaw_bal _
  mapBegin _ _ _ := BalW.bind BalW.get fun _ => BalW.bind (BalW.assert _) fun _ => BalW.ite
    (BalW.bind (writeByteRaw_bal _) fun _ => BalW.modify fun _ => rfl)
    (BalW.bind (writeVarint_bal _) fun _ => BalW.bind (BalW.lift _) fun _ => BalW.bind (BalW.lift _)
      fun _ => BalW.bind (writeUByte_bal _) fun _ => BalW.modify fun _ => rfl)
  mapEnd := writeCollectionEnd_bal
  listBegin := writeCollectionBegin_bal
  listEnd := writeCollectionEnd_bal
  setBegin := writeCollectionBegin_bal
  setEnd := writeCollectionEnd_bal
  bool _ := BalW.bind BalW.get fun _ => BalW.ite (writeFieldHeader_bal _ _)
    (BalW.ite (BalW.ite (writeByteRaw_bal _) (writeByteRaw_bal _)) (BalW.raise _))
  byte _ := writer_bal (writeByteRaw_bal _)
  i16 _ := writer_bal (writeZigZag_bal _ _)
  i32 _ := writer_bal (writeZigZag_bal _ _)
  i64 _ := writer_bal (writeZigZag_bal _ _)
  double _ := writer_bal (BalW.write _)
  string _ := BalW.bind (BalW.lift _) fun _ => writer_bal (writeBinaryRaw_bal _)
  binary _ := writer_bal (writeBinaryRaw_bal _)
  uuid _ := writer_bal (BalW.write _)

theorem readUByte_bal (s : St) : Bal readUByte s fun _ => True :=
  Bal.seq (Bal.readAll _ _) fun _ _ _ => Bal.pure trivial
theorem readByteRaw_bal (s : St) : Bal readByteRaw s fun _ => True :=
  Bal.seq (Bal.readAll _ _) fun _ _ _ => Bal.pure trivial

theorem readVarintLoop_bal (k r sh : Nat) (s : St) : Bal (readVarintLoop k r sh) s fun _ => True := by
  induction k generalizing r sh s with
  | zero => exact Bal.raise
  | succ k ih =>
    exact Bal.seq (Bal.readAll _ _) fun _ _ _ => Bal.ite (fun _ => Bal.pure trivial) fun _ => ih _ _ _

theorem readVarint_bal (s : St) : Bal readVarint s fun _ => True := readVarintLoop_bal _ _ _ s
theorem readZigZag_bal (s : St) : Bal readZigZag s fun _ => True :=
  Bal.seq (readVarint_bal s) fun _ _ _ => Bal.pure trivial
theorem readSize_bal (s : St) : Bal readSize s fun _ => True :=
  Bal.seq (readVarint_bal s) fun _ _ _ => Bal.ite (fun _ => Bal.raise) fun _ => Bal.pure trivial
theorem readBinaryRaw_bal (cfg : Cfg) (s : St) : Bal (readBinaryRaw cfg) s fun _ => True :=
  Bal.seq (readSize_bal s) fun _ _ _ => Bal.seq (Bal.lift fun _ _ => trivial) fun _ _ _ => Bal.readAll _ _

theorem reader_bal {α : Type} {m : P St α} (h : ∀ s, Bal m s fun _ => True) (s : St) :
    Bal (reader m) s fun _ => True :=
  Bal.seq (Bal.get trivial) fun _ _ _ => Bal.seq (Bal.assert fun _ => trivial) fun _ s2 _ => h s2

theorem modify_bal {f : St → St} (h : ∀ s, (f s).depth = s.depth) (s : St) :
    Bal (P.modify f) s fun _ => True := Bal.modify (h s) trivial

theorem readFieldBegin_bal (s : St) : Bal readFieldBegin s fun _ => True := by
  refine Bal.seq (Bal.get trivial) fun _ _ _ => Bal.seq (Bal.assert fun _ => trivial) fun _ s2 _ =>
    Bal.seq (readUByte_bal s2) fun _ s3 _ => Bal.ite (fun _ => Bal.pure trivial) fun _ => ?_
  refine Bal.ite (fun _ => Bal.seq (readZigZag_bal s3) fun _ s4 _ => ?_)
    (fun _ => Bal.seq (Bal.get trivial) fun _ s4 _ => Bal.seq (Bal.pure trivial) fun _ s4 _ => ?_) <;>
  exact Bal.seq (modify_bal (fun _ => rfl) _) fun _ s5 _ =>
    Bal.ite (fun _ => Bal.seq (modify_bal (fun _ => rfl) _) fun _ _ _ =>
        Bal.seq (Bal.lift fun _ _ => trivial) fun _ _ _ => Bal.pure trivial)
      (fun _ => Bal.ite
        (fun _ => Bal.seq (modify_bal (fun _ => rfl) _) fun _ _ _ =>
          Bal.seq (Bal.lift fun _ _ => trivial) fun _ _ _ => Bal.pure trivial)
        (fun _ => Bal.seq (modify_bal (fun _ => rfl) _) fun _ _ _ =>
          Bal.seq (Bal.lift fun _ _ => trivial) fun _ _ _ => Bal.pure trivial))

theorem readStructEnd_bal (s : St) : Bal readStructEnd s fun _ => True := by
  refine Bal.bind (Q := fun a => a = s) (Bal.get rfl) fun a s1 h1 ha =>
    Bal.seq (Bal.assert fun _ => trivial) fun _ s2 h2 => ?_
  subst ha
  split
  · exact Bal.raise
  · exact Bal.set (by rw [h2, h1]; rfl) trivial

theorem readCollectionEnd_bal (s : St) : Bal readCollectionEnd s fun _ => True := by
  refine Bal.bind (Q := fun a => a = s) (Bal.get rfl) fun a s1 h1 ha =>
    Bal.seq (Bal.assert fun _ => trivial) fun _ s2 h2 => ?_
  subst ha
  split
  · exact Bal.raise
  · exact Bal.set (by rw [h2, h1]; rfl) trivial

theorem readCollectionBegin_bal (cfg : Cfg) (s : St) : Bal (readCollectionBegin cfg) s fun _ => True := by
  refine Bal.seq (Bal.get trivial) fun _ _ _ => Bal.seq (Bal.assert fun _ => trivial) fun _ s2 _ =>
    Bal.seq (readUByte_bal s2) fun _ s3 _ => Bal.seq (Bal.lift fun _ _ => trivial) fun _ s4 _ => ?_
  exact Bal.ite
    (fun _ => Bal.seq (readSize_bal _) fun _ _ _ => Bal.seq (Bal.lift fun _ _ => trivial) fun _ _ _ =>
      Bal.seq (modify_bal (fun _ => rfl) _) fun _ _ _ => Bal.pure trivial)
    (fun _ => Bal.seq (Bal.pure trivial) fun _ _ _ => Bal.seq (Bal.lift fun _ _ => trivial) fun _ _ _ =>
      Bal.seq (modify_bal (fun _ => rfl) _) fun _ _ _ => Bal.pure trivial)

theorem readMapBegin_bal (cfg : Cfg) (s : St) : Bal (readMapBegin cfg) s fun _ => True := by
  refine Bal.seq (Bal.get trivial) fun _ _ _ => Bal.seq (Bal.assert fun _ => trivial) fun _ s2 _ =>
    Bal.seq (readSize_bal s2) fun _ s3 _ => Bal.seq (Bal.lift fun _ _ => trivial) fun _ s4 _ => ?_
  exact Bal.ite
    (fun _ => Bal.seq (readUByte_bal _) fun _ _ _ => Bal.seq (Bal.lift fun _ _ => trivial) fun _ _ _ =>
      Bal.seq (Bal.lift fun _ _ => trivial) fun _ _ _ =>
      Bal.seq (modify_bal (fun _ => rfl) _) fun _ _ _ => Bal.pure trivial)
    (fun _ => Bal.seq (Bal.pure trivial) fun _ _ _ => Bal.seq (Bal.lift fun _ _ => trivial) fun _ _ _ =>
      Bal.seq (Bal.lift fun _ _ => trivial) fun _ _ _ =>
      Bal.seq (modify_bal (fun _ => rfl) _) fun _ _ _ => Bal.pure trivial)

theorem balOps (cfg : Cfg) : BalOps (rd cfg) where
  structBegin _ := Bal.seq (Bal.get trivial) fun _ _ _ => Bal.seq (Bal.assert fun _ => trivial)
    fun _ _ _ => modify_bal (fun _ => rfl) _
  structEnd := readStructEnd_bal
  fieldBegin := readFieldBegin_bal
  fieldEnd _ := Bal.seq (Bal.get trivial) fun _ _ _ => Bal.seq (Bal.assert fun _ => trivial)
    fun _ _ _ => modify_bal (fun _ => rfl) _
  mapBegin := readMapBegin_bal cfg
  mapEnd := readCollectionEnd_bal
  listBegin := readCollectionBegin_bal cfg
  listEnd := readCollectionEnd_bal
  setBegin := readCollectionBegin_bal cfg
  setEnd := readCollectionEnd_bal
  bool _ := Bal.seq (Bal.get trivial) fun _ _ _ => Bal.ite (fun _ => Bal.pure trivial) fun _ =>
    Bal.ite (fun _ => Bal.seq (readByteRaw_bal _) fun _ _ _ => Bal.pure trivial) fun _ => Bal.raise
  byte := reader_bal readByteRaw_bal
  i16 := reader_bal readZigZag_bal
  i32 := reader_bal readZigZag_bal
  i64 := reader_bal readZigZag_bal
  double := reader_bal fun s => Bal.seq (Bal.readAll _ s) fun _ _ _ => Bal.pure trivial
  string s := Bal.seq (reader_bal (readBinaryRaw_bal cfg) s) fun _ _ _ => Bal.lift fun _ _ => trivial
  binary := reader_bal (readBinaryRaw_bal cfg)
  uuid := reader_bal fun s => Bal.readAll _ s

end Compact
end Thrift
