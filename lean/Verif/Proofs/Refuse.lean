import Verif.Spec.Fits
import Verif.Model.Fast
import Verif.Proofs.CompactLang
import Verif.Model.Json
/-
What a successful write says about the value.
-/

namespace Thrift
open Spec

/-- If `m` succeeds, then `p`. -/
def Needs {σ α : Type} (m : W σ α) (p : Prop) : Prop :=
  ∀ s out a s' out', m s out = (.ok a, s', out') → p

namespace Needs
variable {σ α β : Type} {p q : Prop}

theorem raise (e : Exc) : Needs (W.raise e : W σ α) p := by
  intro s out a s' out' h
  cases h

theorem triv {m : W σ α} (h : p) : Needs m p := fun _ _ _ _ _ _ => h

theorem mono {m : W σ α} (h : Needs m p) (hpq : p → q) : Needs m q :=
  fun s out a s' out' e => hpq (h s out a s' out' e)

theorem and {m : W σ α} (h1 : Needs m p) (h2 : Needs m q) : Needs m (p ∧ q) :=
  fun s out a s' out' e => ⟨h1 s out a s' out' e, h2 s out a s' out' e⟩

theorem left {m : W σ α} {k : α → W σ β} (h : Needs m p) : Needs (m >>= k) p := by
  intro s out b s' out' e
  rw [W.bind_eq] at e
  generalize hm : m s out = r at e
  obtain ⟨r, s1, o1⟩ := r
  cases r with
  | ok a => exact h s out a s1 o1 hm
  | error x => cases e

theorem right {m : W σ α} {k : α → W σ β} (h : ∀ a, Needs (k a) p) : Needs (m >>= k) p := by
  intro s out b s' out' e
  rw [W.bind_eq] at e
  generalize hm : m s out = r at e
  obtain ⟨r, s1, o1⟩ := r
  cases r with
  | ok a => exact h a s1 o1 b s' out' e
  | error x => cases e

theorem lift {r : Except Exc α} {k : α → W σ β} (h : ∀ a, r = .ok a → Needs (k a) p) :
    Needs (W.lift r >>= k) p := by
  cases r with
  | ok a => exact h a rfl
  | error x => intro s out b s' out' e; cases e

theorem fin {m : W σ α} {f : σ → σ} (h : Needs m p) : Needs (W.tryFinally m f) p := by
  intro s out a s' out' e
  unfold W.tryFinally at e
  generalize hm : m s out = r at e
  obtain ⟨r, s1, o1⟩ := r
  cases e
  exact h s out a s1 out' hm
end Needs

theorem packS_needs {n : Nat} {i : Int} {b : Bytes} (h : packS n i = .ok b) :
    InRange (8 * n) i := by
  unfold packS at h
  by_cases hc : -(2 ^ (8 * n - 1) : Int) ≤ i ∧ i < (2 ^ (8 * n - 1) : Int)
  · exact hc
  · rw [if_neg hc] at h; cases h

theorem utf8Encode_needs : (s : PyStr) → (b : Bytes) → utf8Encode s = .ok b →
    (∀ c ∈ s, Scalar c) ∧ b.length = utf8Len s := by
  intro s
  induction s with
  | nil => intro b h; cases h; simp [utf8Len]
  | cons c cs ih =>
    intro b h
    unfold utf8Encode at h
    unfold utf8EncodeChar at h
    by_cases hc : isScalar c = true
    · have hsc : Scalar c := by
        unfold isScalar at hc
        unfold Scalar
        simp only [Bool.or_eq_true, decide_eq_true_eq, Bool.and_eq_true] at hc
        exact hc
      simp only [hc, Bool.not_true, Bool.false_eq_true, if_false] at h
      cases hcs : utf8Encode cs with
      | error e =>
        rw [hcs] at h
        dsimp only at h
        split at h <;> cases h
      | ok bs =>
        obtain ⟨h1, h2⟩ := ih bs hcs
        rw [hcs] at h
        refine ⟨by simpa using ⟨hsc, h1⟩, ?_⟩
        have hl : utf8Len (c :: cs) = utf8Width c + utf8Len cs := by simp [utf8Len]
        rw [hl, ← h2]
        unfold utf8Width
        by_cases c1 : c < 0x80
        · simp only [c1, if_true] at h ⊢; cases h; simp; omega
        · by_cases c2 : c < 0x800
          · simp only [c1, c2, if_true, if_false] at h ⊢; cases h; simp; omega
          · by_cases c3 : c < 0x10000
            · simp only [c1, c2, c3, if_true, if_false] at h ⊢; cases h; simp; omega
            · simp only [c1, c2, c3, if_false] at h ⊢; cases h; simp; omega
    · simp only [hc, Bool.not_false, if_true] at h
      simp at h

/-- The writing operations refuse scalars that are out of range, and if `len` sizes from 2^31. -/
structure Refuses {σ : Type} (len : Bool) (ops : WrOps σ) : Prop where
  byte : ∀ i, Needs (ops.writeByte i) (InRange 8 i)
  i16 : ∀ i, Needs (ops.writeI16 i) (InRange 16 i)
  i32 : ∀ i, Needs (ops.writeI32 i) (InRange 32 i)
  i64 : ∀ i, Needs (ops.writeI64 i) (InRange 64 i)
  str : ∀ s, Needs (ops.writeString s)
    ((∀ c ∈ s, Scalar c) ∧ (len = true → utf8Len s < 2 ^ 31))
  bin : ∀ b, Needs (ops.writeBinary b) (len = true → b.length < 2 ^ 31)
  list : ∀ e (n : Nat), Needs (ops.writeListBegin e n) (len = true → n < 2 ^ 31)
  set : ∀ e (n : Nat), Needs (ops.writeSetBegin e n) (len = true → n < 2 ^ 31)
  map : ∀ k v (n : Nat), Needs (ops.writeMapBegin k v n) (len = true → n < 2 ^ 31)

section
variable {σ : Type} [HasDepth σ] {len : Bool} {ops : WrOps σ} {mode : Mode} {sch : Schema}

mutual
theorem writeVal_needs (H : Refuses len ops) (hw : ∀ sid, writerSees mode (sch sid) = true) :
    (v : Val) → (t : Ty) →
    Needs (writeVal ops sch mode t v) (Fits len (mode == .gen) sch t v) := by
  intro v t
  cases v with
  | bool b => cases t <;> simp only [writeVal, Fits] <;> first | exact Needs.raise _ | exact Needs.triv trivial
  | int i =>
    cases t <;> simp only [writeVal, Fits] <;>
      first | exact Needs.raise _ | exact Needs.triv trivial | exact H.byte i | exact H.i16 i | exact H.i32 i | exact H.i64 i
  | double x => cases t <;> simp only [writeVal, Fits] <;> first | exact Needs.raise _ | exact Needs.triv trivial
  | str s => cases t <;> simp only [writeVal, Fits] <;> first | exact Needs.raise _ | exact Needs.triv trivial | exact H.str s
  | bin b => cases t <;> simp only [writeVal, Fits] <;> first | exact Needs.raise _ | exact Needs.triv trivial | exact H.bin b
  | uuid u => cases t <;> simp only [writeVal, Fits] <;> first | exact Needs.raise _ | exact Needs.triv trivial
  | list vs =>
    cases t <;> simp only [writeVal, Fits] <;> try first | exact Needs.raise _ | exact Needs.triv trivial
    exact .and (.left (H.list _ _)) (.right fun _ => .left (writeElems_needs H hw vs _))
  | set vs =>
    cases t <;> simp only [writeVal, Fits] <;> try first | exact Needs.raise _ | exact Needs.triv trivial
    exact .and (.left (H.set _ _)) (.right fun _ => .left (writeElems_needs H hw vs _))
  | map kvs =>
    cases t <;> simp only [writeVal, Fits] <;> try first | exact Needs.raise _ | exact Needs.triv trivial
    exact .and (.left (H.map _ _ _)) (.right fun _ => .left (writePairs_needs H hw kvs _ _))
  | struct as =>
    cases t <;> simp only [writeVal, Fits] <;> try first | exact Needs.raise _ | exact Needs.triv trivial
    case struct sid =>
    have hf := writeFields_needs H hw as (sch sid)
    cases hm : mode with
    | gen =>
      rw [hm] at hf
      dsimp only
      by_cases hr : requiredSet (sch sid) as = true
      · rw [if_pos hr]
        exact .right fun _ => .fin (.right fun _ => .left (hf.mono fun h => h fun _ => hr))
      · rw [if_neg hr]
        exact Needs.raise _
    | dyn =>
      have hw' := hw sid
      rw [hm] at hf hw'
      dsimp only
      rw [if_pos hw']
      exact .right fun _ => .left (hf.mono fun h => h fun x => nomatch x)
theorem writeElems_needs (H : Refuses len ops) (hw : ∀ sid, writerSees mode (sch sid) = true) :
    (vs : List Val) → (e : Ty) →
    Needs (writeElems ops sch mode e vs) (FitsAll len (mode == .gen) sch e vs) := by
  intro vs e
  cases vs with
  | nil => simp only [writeElems, FitsAll]; exact Needs.triv trivial
  | cons v vs =>
    simp only [writeElems, FitsAll]
    exact .and (.left (writeVal_needs H hw v e)) (.right fun _ => writeElems_needs H hw vs e)
theorem writePairs_needs (H : Refuses len ops) (hw : ∀ sid, writerSees mode (sch sid) = true) :
    (kvs : List (Val × Val)) → (k v : Ty) →
    Needs (writePairs ops sch mode k v kvs) (FitsItems len (mode == .gen) sch k v kvs) := by
  intro kvs k v
  match kvs with
  | [] => simp only [writePairs, FitsItems]; exact Needs.triv trivial
  | (a, b) :: kvs =>
    simp only [writePairs, FitsItems]
    exact .and (.left (writeVal_needs H hw a k)) (.right fun _ =>
      .and (.left (writeVal_needs H hw b v)) (.right fun _ => writePairs_needs H hw kvs k v))
theorem writeFields_needs (H : Refuses len ops) (hw : ∀ sid, writerSees mode (sch sid) = true) :
    (as : List (Option Val)) → (fs : List Field) →
    Needs (writeFields ops sch mode fs as)
      ((mode = .gen → requiredSet fs as = true) → FitsFields len (mode == .gen) sch fs as) := by
  intro as fs
  match fs, as with
  | [], _ => simp only [FitsFields]; exact Needs.triv fun _ => trivial
  | _ :: _, [] => simp only [writeFields]; exact Needs.raise _
  | f :: fs, none :: as =>
    simp only [writeFields, FitsFields]
    refine (writeFields_needs H hw as fs).mono fun h hr => ⟨fun hg => ?_, h fun hm => ?_⟩
    · have := hr (by simpa using hg)
      unfold requiredSet at this
      simpa using (by simpa using this : _ ∧ _).1
    · have := hr hm
      unfold requiredSet at this
      exact (by simpa using this : _ ∧ _).2
  | f :: fs, some v :: as =>
    simp only [writeFields, FitsFields]
    have h1 := writeVal_needs H hw v f.ty
    have h2 := writeFields_needs H hw as fs
    refine ((Needs.right fun _ => .left h1).and (Needs.right fun _ => .right fun _ => .right fun _ => h2)).mono
      fun h hr => ⟨h.1, h.2 fun hm => ?_⟩
    have := hr hm
    unfold requiredSet at this
    simpa using this
end
end

/-! ### The protocols of Python -/

theorem limits_needs {bits : Nat} (hb : bits = 8 ∨ bits = 16 ∨ bits = 32 ∨ bits = 64) {i : Int} {u : Unit}
    (h : checkIntegerLimits i bits = .ok u) : InRange bits i := by
  unfold checkIntegerLimits at h
  unfold InRange
  rcases hb with rfl | rfl | rfl | rfl <;>
    simp only [Nat.reduceEqDiff, false_and, if_false, true_and] at h
  · by_cases hc : i < -128 ∨ i > 127
    · rw [if_pos hc] at h; cases h
    · exact ⟨by omega, by omega⟩
  · by_cases hc : i < -32768 ∨ i > 32767
    · rw [if_pos hc] at h; cases h
    · exact ⟨by omega, by omega⟩
  · by_cases hc : i < -2147483648 ∨ i > 2147483647
    · rw [if_pos hc] at h; cases h
    · exact ⟨by omega, by omega⟩
  · by_cases hc : i < -9223372036854775808 ∨ i > 9223372036854775807
    · rw [if_pos hc] at h; cases h
    · exact ⟨by omega, by omega⟩

namespace Binary

theorem writeInt_needs (n : Nat) (i : Int) : Needs (writeInt n i) (InRange (8 * n) i) :=
  .lift fun _ h => .triv (packS_needs h)

theorem size_of_range {n : Nat} (h : InRange 32 (n : Int)) : n < 2 ^ 31 := by
  unfold InRange at h
  omega

theorem refuses (len : Bool) : Refuses len wr where
  byte i := writeInt_needs 1 i
  i16 i := writeInt_needs 2 i
  i32 i := writeInt_needs 4 i
  i64 i := writeInt_needs 8 i
  str s := .lift fun b h => .left ((writeInt_needs 4 _).mono fun hr =>
    ⟨(utf8Encode_needs s b h).1, fun _ => by
      rw [← (utf8Encode_needs s b h).2]; exact size_of_range hr⟩)
  bin b := .left ((writeInt_needs 4 _).mono fun hr _ => size_of_range hr)
  list e n := .right fun _ => (writeInt_needs 4 _).mono fun hr _ => size_of_range hr
  set e n := .right fun _ => (writeInt_needs 4 _).mono fun hr _ => size_of_range hr
  map k v n := .right fun _ => .right fun _ => (writeInt_needs 4 _).mono fun hr _ => size_of_range hr

end Binary

namespace Compact

theorem writer_needs {m : W St Unit} {p : Prop} (h : Needs m p) : Needs (writer m) p :=
  .right fun _ => .right fun _ => h

theorem zigzag_needs {bits : Nat} (hb : bits = 8 ∨ bits = 16 ∨ bits = 32 ∨ bits = 64) (i : Int) :
    Needs (writeZigZag bits i) (InRange bits i) := by
  refine .lift fun z h => .triv ?_
  unfold makeZigZag at h
  cases hc : checkIntegerLimits i bits with
  | ok u => exact limits_needs hb hc
  | error e => rw [hc] at h; cases h

theorem refuses : Refuses false wr where
  byte i := writer_needs (.lift fun _ h => .triv (packS_needs h))
  i16 i := writer_needs (zigzag_needs (by simp) i)
  i32 i := writer_needs (zigzag_needs (by simp) i)
  i64 i := writer_needs (zigzag_needs (by simp) i)
  str s := .lift fun b h => .triv ⟨(utf8Encode_needs s b h).1, fun h => nomatch h⟩
  bin _ := .triv fun h => nomatch h
  list _ _ := .triv fun h => nomatch h
  set _ _ := .triv fun h => nomatch h
  map _ _ _ := .triv fun h => nomatch h

end Compact

namespace Json

theorem scalar_of_escape {s : PyStr} (h : ∀ c ∈ 34 :: (s.flatMap escape ++ [34]), Scalar c) :
    ∀ c ∈ s, Scalar c := by
  intro c hc
  by_cases he : escape c = [c]
  · exact h c (by
      simp only [List.mem_cons, List.mem_append, List.mem_flatMap]
      exact .inr (.inl ⟨c, hc, by rw [he]; simp⟩))
  · unfold Scalar
    by_cases hl : c < 0xD800
    · exact .inl hl
    · refine absurd ?_ he
      unfold escape
      rw [if_neg (by omega), if_neg (by omega), if_neg (by omega), if_neg (by omega), if_neg (by omega),
        if_neg (by omega), if_neg (by omega)]

theorem checked_needs {bits : Nat} (hb : bits = 8 ∨ bits = 16 ∨ bits = 32 ∨ bits = 64) (i : Int) :
    Needs (writeChecked bits i) (InRange bits i) :=
  .lift fun _ h => .triv (limits_needs hb h)

theorem refuses (py : Floats) : Refuses false (wr py) where
  byte i := checked_needs (by simp) i
  i16 i := checked_needs (by simp) i
  i32 i := checked_needs (by simp) i
  i64 i := checked_needs (by simp) i
  str s := .right fun _ => .lift fun b h =>
    .triv ⟨scalar_of_escape (utf8Encode_needs _ b h).1, fun h => nomatch h⟩
  bin _ := .triv fun h => nomatch h
  list _ _ := .triv fun h => nomatch h
  set _ _ := .triv fun h => nomatch h
  map _ _ _ := .triv fun h => nomatch h

end Json

/-! ### The C extension -/

namespace Fast

theorem parsePyint_needs {bits : Nat} {i n : Int} (h : parsePyint i bits = .ok n) : InRange bits i := by
  unfold parsePyint at h
  split at h
  · rename_i hc
    exact ⟨hc.1, by omega⟩
  · cases h

theorem checkSsize_needs {n : Nat} {u : Unit} (h : checkSsize n = .ok u) : n < 2 ^ 31 := by
  unfold checkSsize at h
  split at h
  · omega
  · cases h

section
variable {σ : Type} [HasDepth σ] {ops : Wr σ} {sch : Schema}

/-- Fields other than bool are encoded. -/
def Encodes (ops : Wr σ) : Prop := ∀ tt fid truth (enc : W σ Unit) (p : Prop), tt ≠ TType.BOOL →
  Needs enc p → Needs (ops.writeField tt fid truth enc) p

mutual
theorem encode_needs (H : Encodes ops) (hw : ∀ sid, writerSees .dyn (sch sid) = true) :
    (v : Val) → (t : Ty) → Needs (encodeValue ops sch t v) (Fits true false sch t v) := by
  intro v t
  cases v with
  | bool b => cases t <;> simp only [encodeValue, Fits] <;> first | exact Needs.raise _ | exact Needs.triv trivial
  | int i =>
    cases t <;> simp only [encodeValue, Fits] <;>
      first | exact Needs.raise _ | exact Needs.triv trivial | exact .lift fun _ h => .triv (parsePyint_needs h)
  | double x => cases t <;> simp only [encodeValue, Fits] <;> first | exact Needs.raise _ | exact Needs.triv trivial
  | str s =>
    cases t <;> simp only [encodeValue, Fits] <;> try first | exact Needs.raise _ | exact Needs.triv trivial
    refine .lift fun b h => .lift fun _ hl => .triv ⟨(utf8Encode_needs s b h).1, fun _ => ?_⟩
    rw [← (utf8Encode_needs s b h).2]
    exact checkSsize_needs hl
  | bin b =>
    cases t <;> simp only [encodeValue, Fits] <;> try first | exact Needs.raise _ | exact Needs.triv trivial
    exact .lift fun _ hl => .triv fun _ => checkSsize_needs hl
  | uuid u =>
    cases t <;> simp only [encodeValue, Fits] <;> first | exact Needs.raise _ | exact Needs.triv trivial
  | list vs =>
    cases t <;> simp only [encodeValue, Fits] <;> try first | exact Needs.raise _ | exact Needs.triv trivial
    exact .lift fun _ hl => .and (.triv fun _ => checkSsize_needs hl)
      (.right fun _ => encodeElems_needs H hw vs _)
  | set vs =>
    cases t <;> simp only [encodeValue, Fits] <;> try first | exact Needs.raise _ | exact Needs.triv trivial
    exact .lift fun _ hl => .and (.triv fun _ => checkSsize_needs hl)
      (.right fun _ => encodeElems_needs H hw vs _)
  | map kvs =>
    cases t <;> simp only [encodeValue, Fits] <;> try first | exact Needs.raise _ | exact Needs.triv trivial
    exact .lift fun _ hl => .and (.triv fun _ => checkSsize_needs hl)
      (.right fun _ => encodePairs_needs H hw kvs _ _)
  | struct as =>
    cases t <;> simp only [encodeValue, Fits] <;> try first | exact Needs.raise _ | exact Needs.triv trivial
    case struct sid =>
    rw [if_pos (hw sid)]
    exact .right fun _ => .fin (.right fun _ => .left (encodeFields_needs H hw as (sch sid)))
theorem encodeElems_needs (H : Encodes ops) (hw : ∀ sid, writerSees .dyn (sch sid) = true) :
    (vs : List Val) → (e : Ty) → Needs (encodeElems ops sch e vs) (FitsAll true false sch e vs) := by
  intro vs e
  cases vs with
  | nil => simp only [encodeElems, FitsAll]; exact Needs.triv trivial
  | cons v vs =>
    simp only [encodeElems, FitsAll]
    exact .and (.left (encode_needs H hw v e)) (.right fun _ => encodeElems_needs H hw vs e)
theorem encodePairs_needs (H : Encodes ops) (hw : ∀ sid, writerSees .dyn (sch sid) = true) :
    (kvs : List (Val × Val)) → (k v : Ty) →
    Needs (encodePairs ops sch k v kvs) (FitsItems true false sch k v kvs) := by
  intro kvs k v
  match kvs with
  | [] => simp only [encodePairs, FitsItems]; exact Needs.triv trivial
  | (a, b) :: kvs =>
    simp only [encodePairs, FitsItems]
    exact .and (.left (encode_needs H hw a k)) (.right fun _ =>
      .and (.left (encode_needs H hw b v)) (.right fun _ => encodePairs_needs H hw kvs k v))
theorem encodeFields_needs (H : Encodes ops) (hw : ∀ sid, writerSees .dyn (sch sid) = true) :
    (as : List (Option Val)) → (fs : List Field) →
    Needs (encodeFields ops sch fs as) (FitsFields true false sch fs as) := by
  intro as fs
  match fs, as with
  | [], _ => simp only [FitsFields]; exact Needs.triv trivial
  | _ :: _, [] => simp only [encodeFields]; exact Needs.raise _
  | f :: fs, none :: as =>
    simp only [encodeFields, FitsFields]
    exact (encodeFields_needs H hw as fs).mono fun h => ⟨(fun x => nomatch x), h⟩
  | f :: fs, some v :: as =>
    simp only [encodeFields, FitsFields]
    refine .and (.left ?_) (.right fun _ => encodeFields_needs H hw as fs)
    by_cases hb : f.ty.ttype = TType.BOOL
    · have : f.ty = .bool := by
        cases h : f.ty <;> rw [h] at hb <;> first | rfl | cases hb
      rw [this]
      simp only [Fits]
      exact Needs.triv trivial
    · exact H _ _ _ _ _ hb (encode_needs H hw v f.ty)
end
end
end Fast
end Thrift
