import Verif.Model.Binary
import Verif.Proofs.Dec
import Verif.Proofs.Utf8
import Verif.Proofs.TokOK
import Verif.Proofs.Project
import Verif.Spec.BinaryFormat
/-
The binary protocol as a language of tokens.
-/

namespace Thrift.Binary
open Spec

/-- The bytes of a token. -/
def tokBytes : Tok → Bytes
  | .fieldBegin tt fid => beInt 1 tt ++ beInt 2 fid
  | .boolField fid b => (beInt 1 TType.BOOL ++ beInt 2 fid) ++ beInt 1 (if b then 1 else 0)
  | .fieldStop => beInt 1 0
  | .mapBegin k v n => beInt 1 k ++ (beInt 1 v ++ beInt 4 n)
  | .listBegin e n => beInt 1 e ++ beInt 4 n
  | .setBegin e n => beInt 1 e ++ beInt 4 n
  | .bool b => beInt 1 (if b then 1 else 0)
  | .byte i => beInt 1 i
  | .i16 i => beInt 2 i
  | .i32 i => beInt 4 i
  | .i64 i => beInt 8 i
  | .double x => beInt 8 x.toNat
  | .str s => Spec.Binary.blob (utf8 s)
  | .bin b => Spec.Binary.blob b
  | .uuid u => u
  | _ => []

/-- The language; no state. -/
def lang (sl cl : Option Int) : Lang where
  Q := Unit
  ok := fun _ T => TokOK sl cl T
  step := fun _ _ => ()
  bytes := fun _ T => tokBytes T

/-- Protocol objects have no state that matters. -/
def Rel (sl cl : Option Int) : St → (lang sl cl).Q → Prop := fun _ _ => True

theorem lang_Ok {sl cl : Option Int} {ts : List Tok} {q : (lang sl cl).Q} (h : TokensOK sl cl ts) :
    (lang sl cl).Ok q ts := by
  induction ts generalizing q with
  | nil => trivial
  | cons T ts ih =>
    rw [TokensOK_cons] at h
    exact ⟨h.1, ih h.2⟩

/-! ### Integers -/

theorem writeInt_eq {n : Nat} {i : Int} (h : InRange (8 * n) i) (s : St) (out : Bytes) :
    writeInt n i s out = (.ok (), s, out ++ beInt n i) := by
  unfold writeInt
  simp [packS_eq h]

theorem readInt_ok {n : Nat} {i : Int} (hn : 0 < n) (h : InRange (8 * n) i) (s : St) :
    Decodes (readInt n) s (beInt n i) i s := by
  unfold readInt
  refine Decodes.map (Decodes.readAll s (by simp)) ?_
  rw [unpackS_beInt hn h]

theorem inRange8_ttype {t : Int} (h : IsTType t) : InRange 8 t := by
  have := h.cases
  unfold InRange
  omega

theorem inRange8_bool (b : Bool) : InRange 8 (if b then 1 else 0) := by
  cases b <;> decide

theorem writeBool_eq (b : Bool) (s : St) (out : Bytes) :
    writeBool b s out = (.ok (), s, out ++ beInt 1 (if b then 1 else 0)) := by
  unfold writeBool writeByte
  cases b
  · exact writeInt_eq (n := 1) (by decide) s out
  · exact writeInt_eq (n := 1) (by decide) s out

theorem writeBinary_eq {b : Bytes} (h : b.length < 2 ^ 31) (s : St) (out : Bytes) :
    writeBinary b s out = (.ok (), s, out ++ Spec.Binary.blob b) := by
  have h1 : writeI32 b.length s out = (.ok (), s, out ++ beInt 4 b.length) :=
    writeInt_eq (n := 4) (inRange32_of_lt h) s out
  unfold writeBinary
  rw [W.bind_ok h1, W.write_eq, List.append_assoc]
  rfl

theorem writeString_eq {x : PyStr} (h : TextOK x) (s : St) (out : Bytes) :
    writeString x s out = (.ok (), s, out ++ Spec.Binary.blob (utf8 x)) := by
  unfold writeString
  rw [W.bind_eq, W.lift_eq, utf8Encode_eq h.1]
  exact writeBinary_eq (by rw [utf8_length h.1]; exact h.2) s out

/-! ### Writer laws -/

theorem writerLaws (sl cl : Option Int) : WriterLaws (lang sl cl) wr (Rel sl cl) where
  depth := fun _ _ _ _ => trivial
  tok := by
    intro T s q out ho _
    suffices h : wrTok wr T s out = (.ok (), s, out ++ tokBytes T) from ⟨s, h, trivial, rfl⟩
    change TokOK sl cl T at ho
    cases T <;> simp only [wrTok, wr, tokBytes, TokOK] at ho ⊢
    case fieldBegin tt fid =>
      simp only [W.bind_eq, writeByte, writeI16, writeInt_eq (n := 1) (inRange8_ttype ho.1),
        writeInt_eq (n := 2) ho.2.1, List.append_assoc]
    case boolField fid b =>
      simp only [W.bind_eq, writeByte, writeI16, writeInt_eq (n := 1) (i := TType.BOOL) (by decide),
        writeInt_eq (n := 2) ho, writeBool_eq, List.append_assoc]
    case fieldStop =>
      simp only [writeByte, writeInt_eq (n := 1) (i := TType.STOP) (by decide)]
      rfl
    case mapBegin k v n =>
      simp only [W.bind_eq, writeByte, writeI32, writeInt_eq (n := 1) (inRange8_ttype ho.1),
        writeInt_eq (n := 1) (inRange8_ttype ho.2.1),
        writeInt_eq (n := 4) (inRange32_of_lt ho.2.2.1), List.append_assoc]
    case listBegin e n =>
      simp only [W.bind_eq, writeByte, writeI32, writeInt_eq (n := 1) (inRange8_ttype ho.1),
        writeInt_eq (n := 4) (inRange32_of_lt ho.2.1), List.append_assoc]
    case setBegin e n =>
      simp only [W.bind_eq, writeByte, writeI32, writeInt_eq (n := 1) (inRange8_ttype ho.1),
        writeInt_eq (n := 4) (inRange32_of_lt ho.2.1), List.append_assoc]
    case bool b => exact writeBool_eq b s out
    case byte i => exact writeInt_eq (n := 1) ho s out
    case i16 i => exact writeInt_eq (n := 2) ho s out
    case i32 i => exact writeInt_eq (n := 4) ho s out
    case i64 i => exact writeInt_eq (n := 8) ho s out
    case double x => simp [writeDouble, beBytes8_eq]
    case str x => exact writeString_eq ho.1 s out
    case bin b => exact writeBinary_eq ho.1 s out
    case uuid u => simp [writeUuid]
    all_goals simp

/-! ### Reader laws -/

theorem checkLength_ok {l : Option Int} {n : Nat} (h : Within l n) : checkLength l n = .ok () := by
  unfold checkLength
  rw [if_neg (by omega)]
  cases l with
  | none => rfl
  | some l =>
    have := h l rfl
    simp only
    rw [if_neg (by omega)]

theorem readBool_ok (b : Bool) (s : St) :
    Decodes readBool s (beInt 1 (if b then 1 else 0)) b s := by
  unfold readBool readByte
  refine Decodes.map (readInt_ok (n := 1) (by omega) (inRange8_bool b) s) ?_
  cases b <;> rfl

theorem readBinary_ok {cfg : Cfg} {b : Bytes} (h : b.length < 2 ^ 31) (hl : Within cfg.stringLimit b.length)
    (s : St) : Decodes (readBinary cfg) s (Spec.Binary.blob b) b s := by
  unfold readBinary Spec.Binary.blob readI32
  refine Decodes.seq (readInt_ok (n := 4) (by omega) (inRange32_of_lt h) s) ?_
  rw [checkLength_ok hl]
  exact Decodes.pre (Decodes.lift_ok () s) (Decodes.readAll s (by simp))

theorem readString_ok {cfg : Cfg} {x : PyStr} (h : TextOK x) (hl : Within cfg.stringLimit (utf8Len x))
    (s : St) : Decodes (readString cfg) s (Spec.Binary.blob (utf8 x)) x s := by
  unfold readString
  rw [← utf8_length h.1] at hl
  refine Decodes.map (readBinary_ok (by rw [utf8_length h.1]; exact h.2) hl s) ?_
  rw [utf8Decode_utf8 h.1]
  rfl

theorem readListBegin_ok {cfg : Cfg} {e : Int} {n : Nat} (he : IsTType e) (h : n < 2 ^ 31)
    (hl : Within cfg.containerLimit n) (s : St) :
    Decodes (readListBegin cfg) s (beInt 1 e ++ beInt 4 n) (e, (n : Int)) s := by
  unfold readListBegin readByte readI32
  refine Decodes.seq (readInt_ok (n := 1) (by omega) (inRange8_ttype he) s) ?_
  refine Decodes.map (readInt_ok (n := 4) (by omega) (inRange32_of_lt h) s) ?_
  rw [checkLength_ok hl]
  rfl

theorem readMapBegin_ok {cfg : Cfg} {k v : Int} {n : Nat} (hk : IsTType k) (hv : IsTType v)
    (h : n < 2 ^ 31) (hl : Within cfg.containerLimit n) (s : St) :
    Decodes (readMapBegin cfg) s (beInt 1 k ++ (beInt 1 v ++ beInt 4 n)) (k, v, (n : Int)) s := by
  unfold readMapBegin readByte readI32
  refine Decodes.seq (readInt_ok (n := 1) (by omega) (inRange8_ttype hk) s) ?_
  refine Decodes.seq (readInt_ok (n := 1) (by omega) (inRange8_ttype hv) s) ?_
  refine Decodes.map (readInt_ok (n := 4) (by omega) (inRange32_of_lt h) s) ?_
  rw [checkLength_ok hl]
  rfl

theorem readFieldBegin_ok {tt fid : Int} (ht : IsTType tt) (hf : InRange 16 fid) (s : St) :
    Decodes readFieldBegin s (beInt 1 tt ++ beInt 2 fid) (tt, fid) s := by
  unfold readFieldBegin readByte readI16
  refine Decodes.seq (readInt_ok (n := 1) (by omega) (inRange8_ttype ht) s) ?_
  rw [if_neg (by have := ht.cases; unfold TType.STOP; omega)]
  exact Decodes.map (readInt_ok (n := 2) (by omega) hf s) rfl

theorem readFieldStop_ok (s : St) : Decodes readFieldBegin s (beInt 1 0) (TType.STOP, 0) s := by
  unfold readFieldBegin readByte
  exact Decodes.map (readInt_ok (n := 1) (by omega) (by decide) s) rfl

theorem readDouble_ok (x : UInt64) (s : St) : Decodes readDouble s (beInt 8 x.toNat) x s := by
  unfold readDouble
  refine Decodes.map (Decodes.readAll s (by simp)) ?_
  rw [← beBytes8_eq, beNat_beBytes_of_lt (by have := x.toNat_lt; omega)]
  simp

theorem of_dec {sl cl : Option Int} {α : Type} {m : P St α} {s : St} {q : (lang sl cl).Q} {T : Tok} {a : α}
    (h : Decodes m s (tokBytes T) a s) :
    ReadsTo (decRel St) (lang sl cl) (Rel sl cl) m s q [T] a := by
  refine ⟨s, ?_, trivial, rfl⟩
  show Decodes m s (tokBytes T ++ []) a s
  rw [List.append_nil]
  exact h

theorem readerLaws (cfg : Cfg) :
    ReaderLaws (decRel St) (lang cfg.stringLimit cfg.containerLimit) (rd cfg)
      (Rel cfg.stringLimit cfg.containerLimit) IsUtf8 where
  depth := fun _ _ _ _ => trivial
  structBegin s q _ _ := of_dec (Decodes.pure () s)
  structEnd s q _ _ := of_dec (Decodes.pure () s)
  fieldBegin s q tt fid _ ho := of_dec (readFieldBegin_ok ho.1 ho.2.1 s)
  boolField s q fid b _ ho :=
    ⟨beInt 1 TType.BOOL ++ beInt 2 fid, beInt 1 (if b then 1 else 0), s, s, rfl,
      readFieldBegin_ok (isTType_ttype .bool) ho s, readBool_ok b s, trivial, rfl⟩
  fieldEnd s q _ _ := of_dec (Decodes.pure () s)
  fieldStop s q _ _ := ⟨0, of_dec (readFieldStop_ok s)⟩
  mapBegin s q k v n _ ho :=
    ⟨k, v, of_dec (readMapBegin_ok ho.1 ho.2.1 ho.2.2.1 ho.2.2.2 s), fun _ => ⟨rfl, rfl⟩⟩
  mapEnd s q _ _ := of_dec (Decodes.pure () s)
  listBegin s q e n _ ho := of_dec (readListBegin_ok ho.1 ho.2.1 ho.2.2 s)
  listEnd s q _ _ := of_dec (Decodes.pure () s)
  setBegin s q e n _ ho := of_dec (readListBegin_ok ho.1 ho.2.1 ho.2.2 s)
  setEnd s q _ _ := of_dec (Decodes.pure () s)
  bool s q b _ _ := of_dec (readBool_ok b s)
  byte s q i _ ho := of_dec (readInt_ok (n := 1) (by omega) ho s)
  i16 s q i _ ho := of_dec (readInt_ok (n := 2) (by omega) ho s)
  i32 s q i _ ho := of_dec (readInt_ok (n := 4) (by omega) ho s)
  i64 s q i _ ho := of_dec (readInt_ok (n := 8) (by omega) ho s)
  double s q x _ _ := of_dec (readDouble_ok x s)
  str s q x _ ho := of_dec (readString_ok ho.1 ho.2 s)
  bin s q b _ ho := of_dec (readBinary_ok ho.1 ho.2 s)
  binText s q b _ ho ht := by
    obtain ⟨y, hy⟩ := (isUtf8_iff b).mp ht
    refine ⟨y, of_dec ?_⟩
    show Decodes (readString cfg) s _ y s
    unfold readString
    refine Decodes.map (readBinary_ok ho.1 ho.2 s) ?_
    rw [hy]
    rfl
  uuid s q u _ ho := of_dec (Decodes.readAll s ho)

/-! ### The language is the documented format -/

theorem beInt1_ttype (t : Ty) : beInt 1 t.ttype = [Spec.Binary.typeCode t] := by
  cases t <;> rfl

section
variable (sl cl : Option Int) (sch : Schema)

mutual
theorem enc_value : (v : Val) → (t : Ty) → (q : (lang sl cl).Q) → WT sch t v →
    (lang sl cl).enc q (toks sch t v) = Spec.Binary.value sch t v := by
  intro v t q hwt
  cases v with
  | list vs =>
    cases t <;> simp only [WT] at hwt
    rename_i e
    simp only [toks, Lang.enc_cons, Lang.enc_append, Lang.enc_nil, Spec.Binary.value]
    rw [enc_elements vs e _ hwt.2]
    simp [lang, tokBytes, beInt1_ttype]
  | set vs =>
    cases t <;> simp only [WT] at hwt
    rename_i e
    simp only [toks, Lang.enc_cons, Lang.enc_append, Lang.enc_nil, Spec.Binary.value]
    rw [enc_elements vs e _ hwt.2.2]
    simp [lang, tokBytes, beInt1_ttype]
  | map kvs =>
    cases t <;> simp only [WT] at hwt
    rename_i k v
    simp only [toks, Lang.enc_cons, Lang.enc_append, Lang.enc_nil, Spec.Binary.value]
    rw [enc_pairs kvs k v _ hwt.2.2]
    simp [lang, tokBytes, beInt1_ttype]
  | struct as =>
    cases t <;> simp only [WT] at hwt
    rename_i sid
    simp only [toks, Lang.enc_cons, Lang.enc_append, Lang.enc_nil, Spec.Binary.value]
    rw [enc_fields as (sch sid) _ hwt]
    simp [lang, tokBytes]
    rfl
  | bool b =>
    cases t <;> simp only [WT] at hwt
    cases b <;> rfl
  | _ =>
    cases t <;> simp only [WT] at hwt <;>
    simp [toks, lang, tokBytes, Lang.enc, Spec.Binary.value]
theorem enc_elements : (vs : List Val) → (e : Ty) → (q : (lang sl cl).Q) → WTs sch e vs →
    (lang sl cl).enc q (toksE sch e vs) = Spec.Binary.elements sch e vs := by
  intro vs e q hwt
  cases vs with
  | nil => simp only [toksE, Lang.enc_nil, Spec.Binary.elements]
  | cons v vs =>
    simp only [WTs] at hwt
    simp only [toksE, Lang.enc_append, Spec.Binary.elements]
    rw [enc_value v e _ hwt.1, enc_elements vs e _ hwt.2]
theorem enc_pairs : (kvs : List (Val × Val)) → (k v : Ty) → (q : (lang sl cl).Q) → WTp sch k v kvs →
    (lang sl cl).enc q (toksP sch k v kvs) = Spec.Binary.pairs sch k v kvs := by
  intro kvs k v q hwt
  match kvs with
  | [] => simp only [toksP, Lang.enc_nil, Spec.Binary.pairs]
  | (a, b) :: kvs =>
    simp only [WTp] at hwt
    simp only [toksP, Lang.enc_append, Spec.Binary.pairs]
    rw [enc_value a k _ hwt.1, enc_value b v _ hwt.2.1, enc_pairs kvs k v _ hwt.2.2]
    simp
theorem enc_fields : (as : List (Option Val)) → (fs : List Field) → (q : (lang sl cl).Q) → WTf sch fs as →
    (lang sl cl).enc q (toksF sch fs as) = Spec.Binary.fields sch fs as := by
  intro as fs q hwt
  match as with
  | [] => cases fs <;> simp only [toksF, Lang.enc_nil, Spec.Binary.fields]
  | none :: as =>
    cases fs with
    | nil => simp only [toksF, Lang.enc_nil, Spec.Binary.fields]
    | cons f fs =>
      simp only [WTf] at hwt
      simp only [toksF, Spec.Binary.fields]
      exact enc_fields as fs q hwt.2
  | some v :: as =>
    cases fs with
    | nil => simp only [toksF, Lang.enc_nil, Spec.Binary.fields]
    | cons f fs =>
      simp only [WTf] at hwt
      simp only [toksF, Lang.enc_append, Lang.enc_cons, Spec.Binary.fields]
      rw [enc_fields as fs _ hwt.2]
      have hv := enc_value v f.ty () hwt.1
      have hf : (lang sl cl).enc q (toksField f.fid (toks sch f.ty v) f.ty v) =
          Spec.Binary.typeCode f.ty :: (beInt 2 f.fid ++ Spec.Binary.value sch f.ty v) := by
        rw [← hv]
        by_cases hb : f.ty = .bool
        · rw [hb] at hwt ⊢
          cases v <;> simp only [WT, false_and] at hwt
          simp only [toksField, toks, Lang.enc_cons, Lang.enc_nil, List.append_nil]
          simp only [lang, tokBytes, show TType.BOOL = Ty.bool.ttype from rfl, beInt1_ttype,
            List.cons_append, List.nil_append, Lang.enc, List.append_nil]
        · rw [toksField_ne_bool hb]
          simp [lang, tokBytes, Lang.enc, beInt1_ttype]
      rw [hf]
      simp [lang, tokBytes]
end
end

end Thrift.Binary
