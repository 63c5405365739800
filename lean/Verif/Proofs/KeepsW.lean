import Verif.Proofs.DeepWrite
/-
Invariants of the state of a protocol object and of what it wrote, whether methods return or raise.
-/

namespace Thrift
open Spec

section
variable {σ : Type} {I : σ → Bytes → Prop}

/-- A writing method keeps `I`, whether it returns or raises. -/
def KeepsW {α : Type} (I : σ → Bytes → Prop) (m : W σ α) : Prop := ∀ s out, I s out → I (m s out).2.1 (m s out).2.2

variable {α β : Type}

theorem KeepsW.pure (a : α) : KeepsW I (Pure.pure a : W σ α) := fun _ _ h => h
theorem KeepsW.raise (e : Exc) : KeepsW I (W.raise e : W σ α) := fun _ _ h => h
theorem KeepsW.lift (r : Except Exc α) : KeepsW I (W.lift r : W σ α) := fun _ _ h => h
theorem KeepsW.write (hI : ∀ s out b, I s out → I s (out ++ b)) (b : Bytes) : KeepsW I (W.write b : W σ Unit) := fun _ _ h => hI _ _ _ h
theorem KeepsW.modify {f : σ → σ} (h : ∀ s out, I s out → I (f s) out) : KeepsW I (W.modify f) := fun s out hs => h s out hs
theorem KeepsW.assert (c : Bool) : KeepsW I (W.assert c : W σ Unit) := by
  intro s out h; cases c <;> exact h
theorem KeepsW.ite {c : Prop} [Decidable c] {m n : W σ α} (hm : KeepsW I m) (hn : KeepsW I n) :
    KeepsW I (if c then m else n) := by
  split
  · exact hm
  · exact hn
theorem KeepsW.bind {m : W σ α} {k : α → W σ β} (hm : KeepsW I m) (hk : ∀ a, KeepsW I (k a)) :
    KeepsW I (m >>= k) := by
  intro s out hs
  have h := hm s out hs
  rw [W.bind_eq]
  split
  · rename_i a s' out' e
    rw [e] at h
    exact hk a s' out' h
  · rename_i e s' out' e'
    rw [e'] at h
    exact h
theorem KeepsW.getBind {k : σ → W σ β} (hk : ∀ s out, I s out → I (k s s out).2.1 (k s s out).2.2) : KeepsW I (W.get >>= k) :=
  fun s out hs => hk s out hs
theorem KeepsW.getBind' {k : σ → W σ β} (hk : ∀ s, KeepsW I (k s)) : KeepsW I (W.get >>= k) :=
  fun s out hs => hk s s out hs

variable [HasDepth σ]

theorem KeepsW.bracket (hI : ∀ d s out, I s out → I (HasDepth.setDepth d s) out) {m : W σ α} (hm : KeepsW I m) :
    KeepsW I (do incDepthW; W.tryFinally m decDepth) := by
  refine KeepsW.bind ?_ fun _ => ?_
  · unfold incDepthW
    refine KeepsW.bind (KeepsW.modify fun s out h => hI _ s out h) fun _ => KeepsW.getBind' fun s => KeepsW.ite ?_ (KeepsW.pure _)
    exact KeepsW.bind (KeepsW.modify fun s out h => hI _ s out h) fun _ => KeepsW.raise _
  · intro s out h
    have := hm s out h
    unfold W.tryFinally
    revert this
    generalize m s out = x
    obtain ⟨r, s', out'⟩ := x
    intro this
    exact hI _ _ _ this

/-- Every writing method of a protocol keeps `I`. -/
structure KeepsWOps (I : σ → Bytes → Prop) (wr : WrOps σ) : Prop where
  depth : ∀ d s out, I s out → I (HasDepth.setDepth d s) out
  structBegin : KeepsW I wr.writeStructBegin
  structEnd : KeepsW I wr.writeStructEnd
  fieldBegin : ∀ t i, KeepsW I (wr.writeFieldBegin t i)
  fieldEnd : KeepsW I wr.writeFieldEnd
  fieldStop : KeepsW I wr.writeFieldStop
  mapBegin : ∀ k v n, KeepsW I (wr.writeMapBegin k v n)
  mapEnd : KeepsW I wr.writeMapEnd
  listBegin : ∀ e n, KeepsW I (wr.writeListBegin e n)
  listEnd : KeepsW I wr.writeListEnd
  setBegin : ∀ e n, KeepsW I (wr.writeSetBegin e n)
  setEnd : KeepsW I wr.writeSetEnd
  bool : ∀ x, KeepsW I (wr.writeBool x)
  byte : ∀ x, KeepsW I (wr.writeByte x)
  i16 : ∀ x, KeepsW I (wr.writeI16 x)
  i32 : ∀ x, KeepsW I (wr.writeI32 x)
  i64 : ∀ x, KeepsW I (wr.writeI64 x)
  double : ∀ x, KeepsW I (wr.writeDouble x)
  string : ∀ x, KeepsW I (wr.writeString x)
  binary : ∀ x, KeepsW I (wr.writeBinary x)
  uuid : ∀ x, KeepsW I (wr.writeUuid x)

variable {wr : WrOps σ} (sch : Schema) (mode : Mode)

mutual
theorem writeVal_keepsW (H : KeepsWOps I wr) : (v : Val) → (t : Ty) → KeepsW I (writeVal wr sch mode t v) := by
  intro v t
  cases v <;> cases t <;> simp only [writeVal] <;> try exact KeepsW.raise _
  · exact H.bool _
  · exact H.byte _
  · exact H.i16 _
  · exact H.i32 _
  · exact H.i64 _
  · exact H.double _
  · exact H.string _
  · exact H.binary _
  · exact H.uuid _
  · exact KeepsW.bind (H.listBegin _ _) fun _ => KeepsW.bind (writeElems_keepsW H _ _) fun _ => H.listEnd
  · exact KeepsW.bind (H.setBegin _ _) fun _ => KeepsW.bind (writeElems_keepsW H _ _) fun _ => H.setEnd
  · exact KeepsW.bind (H.mapBegin _ _ _) fun _ => KeepsW.bind (writePairs_keepsW H _ _ _) fun _ => H.mapEnd
  · rename_i as sid
    have hf := writeFields_keepsW H as (sch sid)
    split
    · refine KeepsW.ite (KeepsW.bracket H.depth ?_) (KeepsW.raise _)
      exact KeepsW.bind H.structBegin fun _ => KeepsW.bind hf fun _ =>
        KeepsW.bind H.fieldStop fun _ => H.structEnd
    · exact KeepsW.bind H.structBegin fun _ => KeepsW.ite
        (KeepsW.bind hf fun _ => KeepsW.bind H.fieldStop fun _ => H.structEnd)
        (KeepsW.bind H.fieldStop fun _ => H.structEnd)
theorem writeElems_keepsW (H : KeepsWOps I wr) : (vs : List Val) → (e : Ty) →
    KeepsW I (writeElems wr sch mode e vs) := by
  intro vs e
  cases vs with
  | nil => simp only [writeElems]; exact KeepsW.pure _
  | cons v vs =>
    simp only [writeElems]
    exact KeepsW.bind (writeVal_keepsW H v e) fun _ => writeElems_keepsW H vs e
theorem writePairs_keepsW (H : KeepsWOps I wr) : (kvs : List (Val × Val)) → (k v : Ty) →
    KeepsW I (writePairs wr sch mode k v kvs) := by
  intro kvs k v
  match kvs with
  | [] => simp only [writePairs]; exact KeepsW.pure _
  | (a, b) :: kvs =>
    simp only [writePairs]
    exact KeepsW.bind (writeVal_keepsW H a k) fun _ => KeepsW.bind (writeVal_keepsW H b v) fun _ =>
      writePairs_keepsW H kvs k v
theorem writeFields_keepsW (H : KeepsWOps I wr) : (as : List (Option Val)) → (fs : List Field) →
    KeepsW I (writeFields wr sch mode fs as) := by
  intro as fs
  match as with
  | [] =>
    cases fs <;> simp only [writeFields]
    · exact KeepsW.pure _
    · exact KeepsW.raise _
  | none :: as =>
    cases fs <;> simp only [writeFields]
    · exact KeepsW.pure _
    · exact writeFields_keepsW H as _
  | some v :: as =>
    cases fs <;> simp only [writeFields]
    · exact KeepsW.pure _
    · exact KeepsW.bind (H.fieldBegin _ _) fun _ => KeepsW.bind (writeVal_keepsW H v _) fun _ =>
        KeepsW.bind H.fieldEnd fun _ => writeFields_keepsW H as _
end
end

namespace Compact

/-- In the middle of a message -/
structure Busy (s : St) (out : Bytes) : Prop where
  state : s.state ≠ .CLEAR
  structs : ∀ x ∈ s.structs, x.1 ≠ .CLEAR
  containers : ∀ x ∈ s.containers, x ≠ .CLEAR
  begun : out ≠ []

theorem busy_write (s : St) (out b : Bytes) (h : Busy s out) : Busy s (out ++ b) :=
  ⟨h.1, h.2, h.3, by have := h.4; simp [this]⟩

theorem writeUByte_keepsW (b : Int) : KeepsW Busy (writeUByte b) :=
  KeepsW.bind (KeepsW.lift _) fun _ => KeepsW.write busy_write _
theorem writeByteRaw_keepsW (b : Int) : KeepsW Busy (writeByteRaw b) :=
  KeepsW.bind (KeepsW.lift _) fun _ => KeepsW.write busy_write _
theorem writeVarint_keepsW (n : Int) : KeepsW Busy (writeVarint n) :=
  KeepsW.bind (KeepsW.assert _) fun _ => KeepsW.write busy_write _
theorem writeZigZag_keepsW (bits : Nat) (i : Int) : KeepsW Busy (writeZigZag bits i) :=
  KeepsW.bind (KeepsW.lift _) fun _ => writeVarint_keepsW _
theorem writeBinaryRaw_keepsW (b : Bytes) : KeepsW Busy (writeBinaryRaw b) :=
  KeepsW.bind (writeVarint_keepsW _) fun _ => KeepsW.write busy_write _
theorem writer_keepsW {m : W St Unit} (h : KeepsW Busy m) : KeepsW Busy (writer m) :=
  KeepsW.getBind' fun _ => KeepsW.bind (KeepsW.assert _) fun _ => h
theorem writeFieldHeader_keepsW (t i : Int) : KeepsW Busy (writeFieldHeader t i) :=
  KeepsW.getBind' fun _ => KeepsW.ite
    (KeepsW.bind (writeUByte_keepsW _) fun _ => KeepsW.modify fun _ _ h => ⟨h.1, h.2, h.3, h.4⟩)
    (KeepsW.bind (writeByteRaw_keepsW _) fun _ => KeepsW.bind (writeZigZag_keepsW _ _) fun _ => KeepsW.modify fun _ _ h => ⟨h.1, h.2, h.3, h.4⟩)

theorem push_container {s : St} {out : Bytes} (h : Busy s out) :
    Busy { s with containers := s.state :: s.containers, state := .CONTAINER_WRITE } out :=
  ⟨(fun h => nomatch h), h.2, fun x hx => by
    cases hx with
    | head => exact h.1
    | tail _ hx => exact h.3 x hx, h.4⟩

theorem collectionBegin_keepsW (e n : Int) : KeepsW Busy (writeCollectionBegin e n) := by
  refine KeepsW.getBind' fun _ => KeepsW.bind (KeepsW.assert _) fun _ => KeepsW.ite ?_ ?_
  · exact KeepsW.bind (KeepsW.lift _) fun _ => KeepsW.bind (writeUByte_keepsW _) fun _ => KeepsW.modify fun _ _ => push_container
  · exact KeepsW.bind (KeepsW.lift _) fun _ => KeepsW.bind (writeUByte_keepsW _) fun _ => KeepsW.bind (writeVarint_keepsW _) fun _ =>
      KeepsW.modify fun _ _ => push_container

theorem collectionEnd_keepsW : KeepsW Busy writeCollectionEnd := by
  refine KeepsW.getBind fun s out h => ?_
  refine (?_ : ∀ m : W St Unit, Busy (m s out).2.1 (m s out).2.2 → Busy ((W.assert (s.state == .CONTAINER_WRITE) >>= fun _ => m) s out).2.1
    ((W.assert (s.state == .CONTAINER_WRITE) >>= fun _ => m) s out).2.2) _ ?_
  · intro m hm
    cases s.state == .CONTAINER_WRITE
    · exact h
    · exact hm
  · cases e : s.containers with
    | nil => exact h
    | cons c rest =>
      have h3 := h.3
      rw [e] at h3
      exact ⟨h3 c (.head _), h.2, fun x hx => h3 x (.tail _ hx), h.4⟩

theorem keepsWOps : KeepsWOps Busy wr where
  depth _ _ _ h := ⟨h.1, h.2, h.3, h.4⟩
  structBegin := KeepsW.getBind' fun _ => KeepsW.bind (KeepsW.assert _) fun _ => KeepsW.modify fun s out h =>
    ⟨(fun h => nomatch h), fun x hx => by
      cases hx with
      | head => exact h.1
      | tail _ hx => exact h.2 x hx, h.3, h.4⟩
  structEnd := by
    refine KeepsW.getBind fun s out h => ?_
    refine (?_ : ∀ m : W St Unit, Busy (m s out).2.1 (m s out).2.2 → Busy ((W.assert (s.state == .FIELD_WRITE) >>= fun _ => m) s out).2.1
      ((W.assert (s.state == .FIELD_WRITE) >>= fun _ => m) s out).2.2) _ ?_
    · intro m hm
      cases s.state == .FIELD_WRITE
      · exact h
      · exact hm
    · match e : s.structs with
      | [] => exact h
      | (c, fid) :: rest =>
        have h2 := h.2
        rw [e] at h2
        exact ⟨h2 _ (.head _), fun x hx => h2 x (.tail _ hx), h.3, h.4⟩
  fieldBegin _ _ := KeepsW.getBind' fun _ => KeepsW.bind (KeepsW.assert _) fun _ => KeepsW.ite
    (KeepsW.modify fun _ _ h => ⟨(fun h => nomatch h), h.2, h.3, h.4⟩)
    (KeepsW.bind (KeepsW.modify fun _ _ h => ⟨(fun h => nomatch h), h.2, h.3, h.4⟩) fun _ =>
      KeepsW.bind (KeepsW.lift _) fun _ => writeFieldHeader_keepsW _ _)
  fieldEnd := KeepsW.getBind' fun _ => KeepsW.bind (KeepsW.assert _) fun _ =>
    KeepsW.modify fun _ _ h => ⟨(fun h => nomatch h), h.2, h.3, h.4⟩
  fieldStop := writeByteRaw_keepsW _
  mapBegin _ _ _ := KeepsW.getBind' fun _ => KeepsW.bind (KeepsW.assert _) fun _ => KeepsW.ite
    (KeepsW.bind (writeByteRaw_keepsW _) fun _ => KeepsW.modify fun _ _ => push_container)
    (KeepsW.bind (writeVarint_keepsW _) fun _ => KeepsW.bind (KeepsW.lift _) fun _ => KeepsW.bind (KeepsW.lift _) fun _ =>
      KeepsW.bind (writeUByte_keepsW _) fun _ => KeepsW.modify fun _ _ => push_container)
  mapEnd := collectionEnd_keepsW
  listBegin := collectionBegin_keepsW
  listEnd := collectionEnd_keepsW
  setBegin := collectionBegin_keepsW
  setEnd := collectionEnd_keepsW
  bool b := by
    refine KeepsW.getBind' fun s => KeepsW.ite ?_ (KeepsW.ite (KeepsW.ite ?_ ?_) (KeepsW.raise _))
    · exact writeFieldHeader_keepsW _ _
    · exact writeByteRaw_keepsW _
    · exact writeByteRaw_keepsW _
  byte _ := writer_keepsW (writeByteRaw_keepsW _)
  i16 _ := writer_keepsW (writeZigZag_keepsW _ _)
  i32 _ := writer_keepsW (writeZigZag_keepsW _ _)
  i64 _ := writer_keepsW (writeZigZag_keepsW _ _)
  double _ := writer_keepsW (KeepsW.write busy_write _)
  string _ := KeepsW.bind (KeepsW.lift _) fun _ => writer_keepsW (writeBinaryRaw_keepsW _)
  binary _ := writer_keepsW (writeBinaryRaw_keepsW _)
  uuid _ := writer_keepsW (KeepsW.write busy_write _)

end Compact
end Thrift
