import Verif.Model.Fast
import Verif.Proofs.DeepWrite
import Verif.Proofs.CompactLang
/-
The encoder of the C extension, from laws about single tokens, and these laws for its two protocols.
-/

namespace Thrift.Fast
open Spec

section
variable {σ : Type} [HasDepth σ]

/-- The writing operations of the extension implement the language. Ends of fields and containers do
not call anything. -/
structure WrLaws (L : Lang) (ops : Wr σ) (R : σ → L.Q → Prop) : Prop where
  depth : ∀ s q d, R s q → R (HasDepth.setDepth d s) q
  bool : ∀ s q b, R s q → L.ok q (.bool b) → Writes L R (ops.writeBool b) s q [.bool b]
  byte : ∀ s q i, R s q → L.ok q (.byte i) → Writes L R (ops.writeI8 i) s q [.byte i]
  i16 : ∀ s q i, R s q → L.ok q (.i16 i) → Writes L R (ops.writeI16 i) s q [.i16 i]
  i32 : ∀ s q i, R s q → L.ok q (.i32 i) → Writes L R (ops.writeI32 i) s q [.i32 i]
  i64 : ∀ s q i, R s q → L.ok q (.i64 i) → Writes L R (ops.writeI64 i) s q [.i64 i]
  double : ∀ s q x, R s q → L.ok q (.double x) → Writes L R (ops.writeDouble x) s q [.double x]
  str : ∀ s q x, R s q → L.ok q (.str x) → Writes L R (ops.writeString (utf8 x)) s q [.str x]
  bin : ∀ s q x, R s q → L.ok q (.bin x) → Writes L R (ops.writeString x) s q [.bin x]
  uuid : ∀ s q x, R s q → L.ok q (.uuid x) → Writes L R (ops.writeUuid x) s q [.uuid x]
  listBegin : ∀ s q e n, R s q → L.ok q (.listBegin e n) →
    Writes L R (ops.writeListBegin e (n : Nat)) s q [.listBegin e n]
  setBegin : ∀ s q e n, R s q → L.ok q (.setBegin e n) →
    Writes L R (ops.writeListBegin e (n : Nat)) s q [.setBegin e n]
  mapBegin : ∀ s q k v n, R s q → L.ok q (.mapBegin k v n) →
    Writes L R (ops.writeMapBegin k v (n : Nat)) s q [.mapBegin k v n]
  structBegin : ∀ s q, R s q → L.ok q .structBegin →
    Writes L R ops.writeStructBegin s q [.structBegin]
  structEnd : ∀ s q, R s q → L.ok q .structEnd → Writes L R ops.writeStructEnd s q [.structEnd]
  fieldStop : ∀ s q, R s q → L.ok q .fieldStop → Writes L R ops.writeFieldStop s q [.fieldStop]
  boolField : ∀ s q fid b enc, R s q → L.ok q (.boolField fid b) → enc = ops.writeBool b →
    Writes L R (ops.writeField TType.BOOL fid b enc) s q [.boolField fid b]
  field : ∀ tt fid truth enc, tt ≠ TType.BOOL → ∃ hdr : W σ Unit,
    ops.writeField tt fid truth enc = (hdr >>= fun _ => enc) ∧
    ∀ s q, R s q → L.ok q (.fieldBegin tt fid) → Writes L R hdr s q [.fieldBegin tt fid]
  ends : ∀ s q T, R s q → L.ok q T → (T = .fieldEnd ∨ T = .listEnd ∨ T = .setEnd ∨ T = .mapEnd) →
    L.bytes q T = [] ∧ R s (L.step q T)

/-- `m` writes the tokens `ts` if `d` more levels of structs are admissible, and raises otherwise. -/
def Enc (L : Lang) (R : σ → L.Q → Prop) (m : W σ Unit) (s : σ) (q : L.Q) (ts : List Tok) (d : Nat) :
    Prop :=
  (HasDepth.depth s + d ≤ 64 → Writes L R m s q ts) ∧
  (64 < HasDepth.depth s + d → FailsW m s TProtocolException.DEPTH_LIMIT)

variable {L : Lang} {ops : Wr σ} {R : σ → L.Q → Prop}

theorem Enc.of {m : W σ Unit} {s : σ} {q : L.Q} {ts : List Tok} (h : Writes L R m s q ts)
    (hd : HasDepth.depth s ≤ 64) : Enc L R m s q ts 0 :=
  ⟨fun _ => h, fun h => by omega⟩

theorem Enc.seq {m k : W σ Unit} {s : σ} {q : L.Q} {xs ys : List Tok} {d1 d2 d : Nat}
    (hm : Enc L R m s q xs d1)
    (hk : ∀ s', R s' (L.steps q xs) → HasDepth.depth s' = HasDepth.depth s →
      Enc L R k s' (L.steps q xs) ys d2) (hd : d = max d1 d2) :
    Enc L R (m >>= fun _ => k) s q (xs ++ ys) d := by
  subst hd
  refine ⟨fun h => Writes.seq (hm.1 (by omega)) fun s' r e => (hk s' r e).1 (by omega), fun h => ?_⟩
  by_cases h1 : HasDepth.depth s + d1 ≤ 64
  · exact FailsW.after (hm.1 h1) fun s' r e => (hk s' r e).2 (by omega)
  · exact FailsW.first (hm.2 (by omega))

theorem Enc.lift {α : Type} {r : Except Exc α} {a : α} {k : α → W σ Unit} {s : σ} {q : L.Q}
    {ts : List Tok} {d : Nat} (hr : r = .ok a) (h : Enc L R (k a) s q ts d) :
    Enc L R (W.lift r >>= k) s q ts d := by
  subst hr
  exact h

/-- The end of a field or container. -/
theorem Enc.ended (H : WrLaws L ops R) {m : W σ Unit} {s : σ} {q : L.Q} {ts : List Tok} {T : Tok}
    {d : Nat} (hT : T = .fieldEnd ∨ T = .listEnd ∨ T = .setEnd ∨ T = .mapEnd)
    (ho : L.ok (L.steps q ts) T) (h : Enc L R m s q ts d) : Enc L R m s q (ts ++ [T]) d := by
  refine ⟨fun hd out => ?_, h.2⟩
  obtain ⟨s', e, r, de⟩ := h.1 hd out
  obtain ⟨hb, hr⟩ := H.ends s' _ T r ho hT
  exact ⟨s', by simp [e, hb], by simpa using hr, de⟩

theorem Enc.bracket (H : WrLaws L ops R) {m : W σ Unit} {s : σ} {q : L.Q} {ts : List Tok} {d : Nat}
    (hR : R s q)
    (hm : ∀ s', R s' q → HasDepth.depth s' = HasDepth.depth s + 1 → HasDepth.depth s < 64 →
      Enc L R m s' q ts d) :
    Enc L R (do incDepthW; W.tryFinally m decDepth) s q ts (1 + d) := by
  by_cases h64 : HasDepth.depth s < 64
  · have hs := hm (HasDepth.setDepth (HasDepth.depth s + 1) s) (H.depth _ _ _ hR)
      (HasDepth.depth_set _ _) h64
    constructor
    · intro hd out
      obtain ⟨s1, e1, r1, d1⟩ := hs.1 (by rw [HasDepth.depth_set]; omega) out
      refine ⟨decDepth s1, ?_, H.depth _ _ _ r1, ?_⟩
      · simp only [W.bind_eq, incDepthW_ok h64]
        unfold W.tryFinally
        rw [e1]
      · unfold decDepth
        rw [HasDepth.depth_set] at d1 ⊢
        omega
    · intro hd out
      obtain ⟨s', out', h⟩ := hs.2 (by rw [HasDepth.depth_set]; omega) out
      refine ⟨decDepth s', out', (W.bind_ok (incDepthW_ok h64 out)).trans ?_⟩
      unfold W.tryFinally
      rw [h]
  · exact ⟨fun h => by omega, fun _ => FailsW.first (incDepthW_full (by omega))⟩

theorem parsePyint_ok {bits : Nat} {i : Int} (h : InRange bits i) : parsePyint i bits = .ok i := by
  unfold parsePyint
  unfold InRange at h
  rw [if_pos ⟨h.1, by omega⟩]

theorem checkSsize_ok {n : Nat} (h : n < 2 ^ 31) : checkSsize n = .ok () := by
  unfold checkSsize
  rw [if_pos (by omega)]

theorem writerSees_dyn {sch : Schema} (h : SchemaOK .dyn sch) (sid : Nat) :
    writerSees .dyn (sch sid) = true := writerSees_of_ok h sid

variable (sch : Schema)

mutual
theorem encode_ok (H : WrLaws L ops R) (hs : SchemaOK .dyn sch) : (v : Val) → (t : Ty) → (s : σ) →
    (q : L.Q) → WT sch t v → L.Ok q (toks sch t v) → R s q → HasDepth.depth s ≤ 64 →
    Enc L R (encodeValue ops sch t v) s q (toks sch t v) (structDepth v) := by
  intro v t s q hwt hok hR hd
  cases v with
  | bool b =>
    cases t <;> simp only [WT] at hwt <;> simp only [toks, Lang.Ok_cons] at hok ⊢ <;>
      simp only [encodeValue, structDepth]
    exact Enc.of (H.bool s q b hR hok.1) hd
  | int i =>
    cases t <;> simp only [WT] at hwt <;> simp only [toks, Lang.Ok_cons] at hok ⊢ <;>
      simp only [encodeValue, structDepth] <;> refine Enc.lift (parsePyint_ok hwt) (Enc.of ?_ hd)
    · exact H.byte s q i hR hok.1
    · exact H.i16 s q i hR hok.1
    · exact H.i32 s q i hR hok.1
    · exact H.i64 s q i hR hok.1
  | double x =>
    cases t <;> simp only [WT] at hwt <;> simp only [toks, Lang.Ok_cons] at hok ⊢ <;>
      simp only [encodeValue, structDepth]
    exact Enc.of (H.double s q x hR hok.1) hd
  | str x =>
    cases t <;> simp only [WT] at hwt <;> simp only [toks, Lang.Ok_cons] at hok ⊢ <;>
      simp only [encodeValue, structDepth]
    refine Enc.lift (utf8Encode_eq hwt.1) (Enc.lift (checkSsize_ok ?_) (Enc.of ?_ hd))
    · rw [utf8_length hwt.1]; exact hwt.2
    · exact H.str s q x hR hok.1
  | bin x =>
    cases t <;> simp only [WT] at hwt <;> simp only [toks, Lang.Ok_cons] at hok ⊢ <;>
      simp only [encodeValue, structDepth]
    exact Enc.lift (checkSsize_ok hwt) (Enc.of (H.bin s q x hR hok.1) hd)
  | uuid x =>
    cases t <;> simp only [WT] at hwt <;> simp only [toks, Lang.Ok_cons] at hok ⊢ <;>
      simp only [encodeValue, structDepth]
    rw [if_pos hwt]
    exact Enc.of (H.uuid s q x hR hok.1) hd
  | list vs =>
    cases t <;> simp only [WT] at hwt
    case list e =>
    simp only [toks, Lang.Ok_cons, Lang.Ok_append] at hok ⊢
    simp only [encodeValue, structDepth]
    refine Enc.lift (checkSsize_ok hwt.1) ?_
    rw [← List.cons_append]
    refine Enc.ended H (by simp) (by simpa using hok.2.2.1) ?_
    refine Enc.seq (xs := [_]) (Enc.of (H.listBegin s q _ _ hR hok.1) hd) (fun s1 r1 d1 => ?_)
      (Nat.zero_max _).symm
    exact encodeElems_ok H hs vs e s1 _ hwt.2 hok.2.1 r1 (by omega)
  | set vs =>
    cases t <;> simp only [WT] at hwt
    case set e =>
    simp only [toks, Lang.Ok_cons, Lang.Ok_append] at hok ⊢
    simp only [encodeValue, structDepth]
    refine Enc.lift (checkSsize_ok hwt.1) ?_
    rw [← List.cons_append]
    refine Enc.ended H (by simp) (by simpa using hok.2.2.1) ?_
    refine Enc.seq (xs := [_]) (Enc.of (H.setBegin s q _ _ hR hok.1) hd) (fun s1 r1 d1 => ?_)
      (Nat.zero_max _).symm
    exact encodeElems_ok H hs vs e s1 _ hwt.2.2 hok.2.1 r1 (by omega)
  | map kvs =>
    cases t <;> simp only [WT] at hwt
    case map k v =>
    simp only [toks, Lang.Ok_cons, Lang.Ok_append] at hok ⊢
    simp only [encodeValue, structDepth]
    refine Enc.lift (checkSsize_ok hwt.1) ?_
    rw [← List.cons_append]
    refine Enc.ended H (by simp) (by simpa using hok.2.2.1) ?_
    refine Enc.seq (xs := [_]) (Enc.of (H.mapBegin s q _ _ _ hR hok.1) hd) (fun s1 r1 d1 => ?_)
      (Nat.zero_max _).symm
    exact encodePairs_ok H hs kvs k v s1 _ hwt.2.2 hok.2.1 r1 (by omega)
  | struct as =>
    cases t <;> simp only [WT] at hwt
    case struct sid =>
    simp only [toks, Lang.Ok_cons, Lang.Ok_append] at hok ⊢
    simp only [encodeValue, structDepth, writerSees_dyn hs sid, if_true]
    refine Enc.bracket H hR fun s' hR' hd' hlt => ?_
    refine Enc.seq (xs := [_]) (Enc.of (H.structBegin s' q hR' hok.1) (by omega)) (fun s1 r1 d1 => ?_)
      (Nat.zero_max _).symm
    refine Enc.seq (encodeFields_ok H hs as (sch sid) s1 _ hwt hok.2.1 r1 (by omega))
      (fun s2 r2 d2 => ?_) (d2 := 0) (by omega)
    refine Enc.seq (xs := [_]) (Enc.of (H.fieldStop s2 _ r2 hok.2.2.1) (by omega)) (fun s3 r3 d3 => ?_)
      (Nat.max_self 0).symm
    exact Enc.of (H.structEnd s3 _ r3 hok.2.2.2.1) (by omega)
theorem encodeElems_ok (H : WrLaws L ops R) (hs : SchemaOK .dyn sch) : (vs : List Val) →
    (e : Ty) → (s : σ) → (q : L.Q) → WTs sch e vs → L.Ok q (toksE sch e vs) → R s q →
    HasDepth.depth s ≤ 64 →
    Enc L R (encodeElems ops sch e vs) s q (toksE sch e vs) (structDepths vs) := by
  intro vs e s q hwt hok hR hd
  cases vs with
  | nil => simp only [encodeElems, toksE, structDepths]; exact Enc.of (Writes.nil hR) hd
  | cons v vs =>
    simp only [WTs] at hwt
    simp only [toksE, Lang.Ok_append] at hok ⊢
    simp only [encodeElems, structDepths]
    refine Enc.seq (encode_ok H hs v e s q hwt.1 hok.1 hR hd) (fun s1 r1 d1 => ?_) rfl
    exact encodeElems_ok H hs vs e s1 _ hwt.2 hok.2 r1 (by omega)
theorem encodePairs_ok (H : WrLaws L ops R) (hs : SchemaOK .dyn sch) : (kvs : List (Val × Val)) →
    (k v : Ty) → (s : σ) → (q : L.Q) → WTp sch k v kvs → L.Ok q (toksP sch k v kvs) → R s q →
    HasDepth.depth s ≤ 64 →
    Enc L R (encodePairs ops sch k v kvs) s q (toksP sch k v kvs) (structDepthp kvs) := by
  intro kvs k v s q hwt hok hR hd
  match kvs with
  | [] => simp only [encodePairs, toksP, structDepthp]; exact Enc.of (Writes.nil hR) hd
  | (a, b) :: kvs =>
    simp only [WTp] at hwt
    simp only [toksP, Lang.Ok_append] at hok ⊢
    simp only [encodePairs, structDepthp]
    refine Enc.seq (encode_ok H hs a k s q hwt.1 hok.1 hR hd) (fun s1 r1 d1 => ?_)
      (d2 := max (structDepth b) (structDepthp kvs)) (by omega)
    refine Enc.seq (encode_ok H hs b v s1 _ hwt.2.1 hok.2.1 r1 (by omega)) (fun s2 r2 d2 => ?_) rfl
    exact encodePairs_ok H hs kvs k v s2 _ hwt.2.2 hok.2.2 r2 (by omega)
theorem encodeFields_ok (H : WrLaws L ops R) (hs : SchemaOK .dyn sch) :
    (as : List (Option Val)) → (fs : List Field) → (s : σ) → (q : L.Q) → WTf sch fs as →
    L.Ok q (toksF sch fs as) → R s q → HasDepth.depth s ≤ 64 →
    Enc L R (encodeFields ops sch fs as) s q (toksF sch fs as) (structDepthf as) := by
  intro as fs s q hwt hok hR hd
  match as with
  | [] =>
    cases fs with
    | nil => simp only [encodeFields, toksF, structDepthf]; exact Enc.of (Writes.nil hR) hd
    | cons f fs => simp only [WTf] at hwt
  | none :: as =>
    cases fs with
    | nil => simp only [WTf] at hwt
    | cons f fs =>
      simp only [WTf] at hwt
      simp only [toksF] at hok ⊢
      simp only [encodeFields, structDepthf]
      exact encodeFields_ok H hs as fs s q hwt.2 hok hR hd
  | some v :: as =>
    cases fs with
    | nil => simp only [WTf] at hwt
    | cons f fs =>
      simp only [WTf] at hwt
      simp only [toksF, Lang.Ok_append, Lang.Ok_cons] at hok ⊢
      simp only [encodeFields, structDepthf]
      rw [← List.singleton_append, ← List.append_assoc]
      refine Enc.seq (xs := toksField f.fid (toks sch f.ty v) f.ty v ++ [Tok.fieldEnd])
        (d1 := structDepth v) (d2 := structDepthf as) ?_ (fun s1 r1 d1 => ?_) rfl
      · refine Enc.ended H (by simp) hok.2.1 ?_
        by_cases hb : f.ty = .bool
        · rw [hb] at hwt hok ⊢
          cases v <;> simp only [WT, false_and] at hwt
          rename_i b
          simp only [toksField, Lang.Ok_cons] at hok ⊢
          simp only [structDepth, isTrue]
          refine Enc.of (H.boolField s q f.fid b _ hR hok.1.1 ?_) hd
          simp only [encodeValue]
        · rw [toksField_ne_bool hb] at hok ⊢
          simp only [Lang.Ok_cons] at hok
          obtain ⟨hdr, e, hh⟩ := H.field f.ty.ttype f.fid (isTrue v) (encodeValue ops sch f.ty v)
            (fun h => hb (ttype_bool_iff.mp h))
          rw [e]
          refine Enc.seq (xs := [_]) (Enc.of (hh s q hR hok.1.1) hd) (fun s1 r1 d1 => ?_)
            (Nat.zero_max _).symm
          exact encode_ok H hs v f.ty s1 _ hwt.1 hok.1.2 r1 (by omega)
      · simp only [Lang.steps_append, Lang.steps_cons, Lang.steps_nil] at r1 ⊢
        exact encodeFields_ok H hs as fs s1 _ hwt.2 hok.2.2 r1 (by omega)
end

theorem encode_of_enc {ops : Wr σ} {init : σ} {sid : Nat} {v : Val} {q : L.Q} {ts : List Tok}
    (h : Enc L R (encodeValue ops sch (.struct sid) v) init q ts (structDepth v))
    (h0 : HasDepth.depth init = 0) :
    encode ops init sch sid v =
      if structDepth v ≤ 64 then .ok (L.enc q ts) else .error TProtocolException.DEPTH_LIMIT := by
  unfold encode
  by_cases hd : structDepth v ≤ 64
  · rw [if_pos hd]
    obtain ⟨s', e, -⟩ := h.1 (by omega) []
    rw [e]
    rfl
  · rw [if_neg hd]
    obtain ⟨s', out', e⟩ := h.2 (by omega) []
    rw [e]
end

/-! ### The binary protocol -/

theorem beBytes_wrap {n : Nat} {i : Int} (h : InRange (8 * n) i) :
    beBytes n (wrap (8 * n) i) = beInt n i := by
  have h1 := packS_eq h
  unfold InRange at h
  rw [packS_in_range h.1 h.2] at h1
  exact Except.ok.inj h1

theorem inRange32_nat {n : Nat} (h : n < 2 ^ 31) : InRange 32 n := by
  unfold InRange
  omega

theorem wrap_byte {t : Int} (h : IsTType t) : [UInt8.ofNat (wrap 8 t)] = beInt 1 t := by
  rcases h.cases with h | h | h | h | h | h | h | h | h | h | h | h <;> subst h <;> rfl

section
variable {sl cl : Option Int}

theorem writes_binary {m : W Binary.St Unit} {T : Tok} {s : Binary.St}
    {q : (Binary.lang sl cl).Q} (h : ∀ out, m s out = (.ok (), s, out ++ Binary.tokBytes T)) :
    Writes (Binary.lang sl cl) (Binary.Rel sl cl) m s q [T] := by
  intro out
  refine ⟨s, ?_, trivial, rfl⟩
  show _ = (_, _, out ++ (Binary.tokBytes T ++ []))
  rw [List.append_nil]
  exact h out

theorem binary_int {n : Nat} {i : Int} (h : InRange (8 * n) i) (s : Binary.St) (out : Bytes) :
    (W.write (beBytes n (wrap (8 * n) i)) : W Binary.St Unit) s out
      = (.ok (), s, out ++ beInt n i) := by
  rw [beBytes_wrap h]
  rfl

theorem binary_string {b : Bytes} (h : b.length < 2 ^ 31) (s : Binary.St) (out : Bytes) :
    binaryWr.writeString b s out = (.ok (), s, out ++ Spec.Binary.blob b) := by
  show ((Except.ok () : Except Exc Unit), s, (out ++ beBytes 4 (wrap (8 * 4) b.length)) ++ b) = _
  rw [beBytes_wrap (n := 4) (inRange32_nat h), List.append_assoc]
  rfl

theorem binary_list {e : Int} {n : Nat} (he : IsTType e) (h : n < 2 ^ 31) (s : Binary.St)
    (out : Bytes) :
    binaryWr.writeListBegin e n s out = (.ok (), s, out ++ (beInt 1 e ++ beInt 4 n)) := by
  show ((Except.ok () : Except Exc Unit), s, (out ++ [UInt8.ofNat (wrap 8 e)]) ++ beBytes 4 (wrap (8 * 4) n)) = _
  rw [beBytes_wrap (n := 4) (inRange32_nat h), wrap_byte he, List.append_assoc]

theorem binary_header {tt fid : Int} (ht : IsTType tt) (hf : InRange 16 fid) (s : Binary.St)
    (out : Bytes) :
    (do W.write [UInt8.ofNat (wrap 8 tt)]; W.write (beBytes 2 (wrap 16 fid)) : W Binary.St Unit) s out
      = (.ok (), s, out ++ (beInt 1 tt ++ beInt 2 fid)) := by
  show ((Except.ok () : Except Exc Unit), s, (out ++ [UInt8.ofNat (wrap 8 tt)]) ++ beBytes 2 (wrap (8 * 2) fid)) = _
  rw [beBytes_wrap (n := 2) hf, wrap_byte ht, List.append_assoc]

theorem bool_byte (b : Bool) : [if b then (1 : UInt8) else 0] = beInt 1 (if b then 1 else 0) := by
  cases b <;> rfl

theorem binaryWrLaws : WrLaws (Binary.lang sl cl) binaryWr (Binary.Rel sl cl) where
  depth := fun _ _ _ _ => trivial
  bool s q b _ _ := writes_binary fun out => by
    show (_, s, out ++ [if b then (1 : UInt8) else 0]) = _
    rw [bool_byte]; rfl
  byte s q i _ ho := writes_binary fun out => binary_int (n := 1) ho s out
  i16 s q i _ ho := writes_binary fun out => binary_int (n := 2) ho s out
  i32 s q i _ ho := writes_binary fun out => binary_int (n := 4) ho s out
  i64 s q i _ ho := writes_binary fun out => binary_int (n := 8) ho s out
  double s q x _ _ := writes_binary fun out => by
    show (_, s, out ++ beBytes 8 x.toNat) = _
    rw [beBytes8_eq]; rfl
  str s q x _ ho := writes_binary fun out =>
    binary_string (by rw [utf8_length ho.1.1]; exact ho.1.2) s out
  bin s q x _ ho := writes_binary fun out => binary_string ho.1 s out
  uuid s q x _ _ := writes_binary fun out => rfl
  listBegin s q e n _ ho := writes_binary fun out => binary_list ho.1 ho.2.1 s out
  setBegin s q e n _ ho := writes_binary fun out => binary_list ho.1 ho.2.1 s out
  mapBegin s q k v n _ ho := writes_binary fun out => by
    show ((Except.ok () : Except Exc Unit), s, ((out ++ [UInt8.ofNat (wrap 8 k)]) ++ [UInt8.ofNat (wrap 8 v)]) ++
      beBytes 4 (wrap (8 * 4) n)) = _
    rw [beBytes_wrap (n := 4) (inRange32_nat ho.2.2.1), wrap_byte ho.1, wrap_byte ho.2.1]
    simp [Binary.tokBytes]
  structBegin s q _ _ := writes_binary fun out => by simp [binaryWr, Binary.tokBytes]
  structEnd s q _ _ := writes_binary fun out => by simp [binaryWr, Binary.tokBytes]
  fieldStop s q _ _ := writes_binary fun out => rfl
  boolField s q fid b enc _ ho he := writes_binary fun out => by
    subst he
    show ((.ok (), s, (((out ++ [UInt8.ofNat (wrap 8 TType.BOOL)]) ++ beBytes 2 (wrap (8 * 2) fid)) ++
      [if b then (1 : UInt8) else 0])) : Except Exc Unit × Binary.St × Bytes) = _
    rw [bool_byte, beBytes_wrap (n := 2) ho, wrap_byte (t := TType.BOOL) (isTType_ttype .bool)]
    simp [Binary.tokBytes]
  field tt fid truth enc _ :=
    ⟨do W.write [UInt8.ofNat (wrap 8 tt)]; W.write (beBytes 2 (wrap 16 fid)), rfl,
      fun s q _ ho => writes_binary fun out => binary_header ho.1 ho.2.1 s out⟩
  ends s q T _ _ hT := by
    rcases hT with rfl | rfl | rfl | rfl <;> exact ⟨rfl, trivial⟩

end

/-! ### The compact protocol -/

theorem pyXor_comm (a b : Int) : pyXor a b = pyXor b a := by
  cases a <;> cases b <;> simp [pyXor, Nat.xor_comm]

theorem wrap_nat {bits n : Nat} (h : n < 2 ^ bits) : wrap bits (n : Int) = n := by
  unfold wrap
  have : ((n : Int) % (2 ^ bits : Int)) = ((n % 2 ^ bits : Nat) : Int) := by simp
  rw [this, Int.toNat_natCast, Nat.mod_eq_of_lt h]

theorem toZigZag_eq {bits : Nat} {i : Int} (hb : 0 < bits) (h : InRange bits i) :
    toZigZag bits i = Spec.Compact.zigzag i := by
  unfold toZigZag
  rw [pyXor_comm, Compact.zigzag_core i (bits - 1) h, wrap_nat (Compact.zigzag_lt hb h)]

theorem or_7f (n : Nat) : (n &&& 0x7f) ||| 0x80 = n % 128 + 128 := by
  have h1 : n &&& 0x7f = n % 128 := Nat.and_two_pow_sub_one_eq_mod n 7
  have h2 : ∀ m : Fin 128, m.val ||| 0x80 = m.val + 128 := by decide +kernel
  rw [h1]
  exact h2 ⟨n % 128, by omega⟩

theorem varintLoop_eq (f n : Nat) (h : n < f) : varintLoop f n = Spec.Compact.varint n := by
  induction f generalizing n with
  | zero => omega
  | succ f ih =>
    unfold varintLoop Spec.Compact.varint
    split
    · rfl
    · rw [or_7f, show n >>> 7 = n / 128 from Nat.shiftRight_eq_div_pow n 7, ih _ (by omega)]

theorem writeVarint_eq (n : Nat) (s : CSt) (out : Bytes) :
    writeVarint n s out = (.ok (), s, out ++ Spec.Compact.varint n) := by
  unfold writeVarint
  rw [varintLoop_eq _ _ (by omega)]
  rfl

theorem toCompactType_eq {tt : Int} (h : IsTType tt) : toCompactType tt = Compact.codeOf tt := by
  rcases h.cases with h | h | h | h | h | h | h | h | h | h | h | h <;> subst h <;> rfl

theorem shl_or {d c : Nat} (hd : d < 16) (hc : c < 16) : d <<< 4 ||| c = 16 * d + c := by
  have : ∀ d c : Fin 16, d.val <<< 4 ||| c.val = 16 * d.val + c.val := by decide +kernel
  exact this ⟨d, hd⟩ ⟨c, hc⟩

theorem f0_or {c : Nat} (hc : c < 16) : 0xf0 ||| c = 0xF0 + c := by
  have : ∀ c : Fin 16, 0xf0 ||| c.val = 0xF0 + c.val := by decide +kernel
  exact this ⟨c, hc⟩

/-- The stack of last field ids is that of the position; the outermost entry of the position belongs to
nobody, and only a struct can begin there. -/
def CRel (s : CSt) (q : Compact.Q) : Prop :=
  s.writeTags = (q.lastFid :: q.structs.map (·.2)).dropLast ∧
  (q.pos :: q.structs.map (·.1)).getLast? = some .clear

theorem CRel.inside {s : CSt} {q : Compact.Q} (h : CRel s q) (hp : q.pos ≠ .clear) :
    ∃ x xs, q.structs = x :: xs ∧ s.writeTags = q.lastFid :: ((x :: xs).map (·.2)).dropLast ∧
      ((x :: xs).map (·.1)).getLast? = some .clear := by
  obtain ⟨h1, h2⟩ := h
  cases hs : q.structs with
  | nil =>
    rw [hs] at h2
    exact absurd (by simpa using h2) hp
  | cons x xs =>
    rw [hs] at h1 h2
    exact ⟨x, xs, rfl, h1, by simpa using h2⟩

section
variable {sl cl : Option Int}

theorem writes_compact {m : W CSt Unit} {T : Tok} {s s' : CSt} {q : (Compact.lang sl cl).Q}
    (h : ∀ out, m s out = (.ok (), s', out ++ Compact.tokBytes q T))
    (hr : CRel s' (Compact.stepQ q T)) (hd : s'.depth = s.depth) :
    Writes (Compact.lang sl cl) CRel m s q [T] := by
  intro out
  refine ⟨s', ?_, hr, hd⟩
  show _ = (_, _, out ++ (Compact.tokBytes q T ++ []))
  rw [List.append_nil]
  exact h out

theorem compact_int {bits : Nat} {i : Int} (hb : 0 < bits) (h : InRange bits i) (s : CSt)
    (out : Bytes) :
    writeVarint (toZigZag bits i) s out = (.ok (), s, out ++ Spec.Compact.int i) := by
  rw [toZigZag_eq hb h, writeVarint_eq]
  rfl

theorem inRange_16_32 {i : Int} (h : InRange 16 i) : InRange 32 i := by
  unfold InRange at *
  omega

theorem wrap32_nat {n : Nat} (h : n < 2 ^ 31) : wrap 32 (n : Int) = n := wrap_nat (by omega)

theorem compact_string {b : Bytes} (h : b.length < 2 ^ 31) (s : CSt) (out : Bytes) :
    compactWr.writeString b s out = (.ok (), s, out ++ Spec.Compact.blob b) := by
  show (writeVarint (wrap 32 b.length) >>= fun _ => W.write b) s out = _
  refine (W.bind_ok (writeVarint_eq _ s out)).trans ?_
  rw [wrap32_nat h]
  simp [Spec.Compact.blob]

theorem compact_list {e : Int} {n : Nat} (he : IsTType e) (h : n < 2 ^ 31) (s : CSt)
    (out : Bytes) :
    compactWr.writeListBegin e n s out
      = (.ok (), s, out ++ Spec.Compact.listHeader (Compact.codeOf e) n) := by
  have hc := Compact.codeOf_lt e
  show (if (n : Int) ≤ 14 then W.write [UInt8.ofNat (wrap 32 n <<< 4 ||| toCompactType e)]
    else (W.write [UInt8.ofNat (0xf0 ||| toCompactType e)] >>= fun _ => writeVarint (wrap 32 n))) s out = _
  rw [toCompactType_eq he, wrap32_nat h]
  unfold Spec.Compact.listHeader
  by_cases hn : n ≤ 14
  · rw [if_pos (by omega), if_pos hn, shl_or (by omega) hc.2]
    rfl
  · rw [if_neg (by omega), if_neg hn, f0_or hc.2]
    refine (W.bind_ok (m := W.write _) rfl).trans ?_
    rw [writeVarint_eq]
    simp

theorem compact_map {k v : Int} {n : Nat} (hk : IsTType k) (hv : IsTType v) (h : n < 2 ^ 31)
    (s : CSt) (out : Bytes) :
    compactWr.writeMapBegin k v n s out
      = (.ok (), s, out ++ Spec.Compact.mapHeader (Compact.codeOf k) (Compact.codeOf v) n) := by
  have hck := Compact.codeOf_lt k
  have hcv := Compact.codeOf_lt v
  show (if (n : Int) = 0 then W.write [0]
    else (writeVarint (wrap 32 n) >>= fun _ =>
      W.write [UInt8.ofNat (toCompactType k <<< 4 ||| toCompactType v)])) s out = _
  rw [toCompactType_eq hk, toCompactType_eq hv, wrap32_nat h]
  unfold Spec.Compact.mapHeader
  by_cases hn : n = 0
  · rw [if_pos (by omega), if_pos hn]
    rfl
  · rw [if_neg (by omega), if_neg hn, shl_or hck.2 hcv.2]
    refine (W.bind_ok (writeVarint_eq _ s out)).trans ?_
    simp

theorem compact_header {code : Nat} {fid last : Int} {tags : List Int} (hc : code < 16)
    (hf : InRange 16 fid) (s : CSt) (hs : s.writeTags = last :: tags) (out : Bytes) :
    doWriteFieldBegin fid code s out = (.ok (), { s with writeTags := fid :: tags },
      out ++ Spec.Compact.fieldHeader last code fid) := by
  unfold doWriteFieldBegin Spec.Compact.fieldHeader
  refine (W.bind_ok (m := W.get) rfl).trans ?_
  simp only [hs, List.headD_cons]
  by_cases hd : 0 < fid - last ∧ fid - last ≤ 15
  · rw [if_pos hd, if_pos (by omega), shl_or (by omega) hc]
    refine (W.bind_ok (m := W.write _) rfl).trans ?_
    simp [hs]
  · rw [if_neg hd, if_neg (by omega)]
    refine (W.bind_ok (m := W.write _) rfl).trans ?_
    refine (W.bind_ok (compact_int (by omega) (inRange_16_32 hf) s _)).trans ?_
    simp [hs]

theorem CRel.push {s : CSt} {q : Compact.Q} (h : CRel s q)
    (hp : q.pos = .value ∨ q.pos = .container) :
    CRel s { q with pos := .container, containers := q.pos :: q.containers } := by
  obtain ⟨x, xs, e1, e2, e3⟩ := h.inside (by rcases hp with hp | hp <;> rw [hp] <;> decide)
  refine ⟨h.1, ?_⟩
  simp only [e1, List.map_cons, List.getLast?_cons_cons]
  exact e3

theorem CRel.pop {s : CSt} {q : Compact.Q} (h : CRel s q) (hp : q.pos = .container) (p : Compact.Pos)
    (rest : List Compact.Pos) : CRel s { q with pos := p, containers := rest } := by
  obtain ⟨x, xs, e1, e2, e3⟩ := h.inside (by rw [hp]; decide)
  refine ⟨h.1, ?_⟩
  simp only [e1, List.map_cons, List.getLast?_cons_cons]
  exact e3

theorem compactWrLaws : WrLaws (Compact.lang sl cl) compactWr CRel where
  depth := fun _ _ _ h => h
  bool s q b hR ho := writes_compact (fun out => by
    show (_, s, out ++ [if b then (1 : UInt8) else 2]) = _
    cases b <;> rfl) hR rfl
  byte s q i hR ho := writes_compact (fun out => by
    show (_, s, out ++ beBytes 1 (wrap (8 * 1) i)) = _
    rw [beBytes_wrap (n := 1) ho.1]; rfl) hR rfl
  i16 s q i hR ho := writes_compact (fun out => compact_int (by omega) (inRange_16_32 ho.1) s out) hR rfl
  i32 s q i hR ho := writes_compact (fun out => compact_int (by omega) ho.1 s out) hR rfl
  i64 s q i hR ho := writes_compact (fun out => compact_int (by omega) ho.1 s out) hR rfl
  double s q x hR ho := writes_compact (fun out => by
    simp only [Compact.tokBytes, leInt_eq_reverse, ← beBytes8_eq]
    rfl) hR rfl
  str s q x hR ho := writes_compact (fun out =>
    compact_string (by rw [utf8_length ho.1.1.1]; exact ho.1.1.2) s out) hR rfl
  bin s q x hR ho := writes_compact (fun out => compact_string ho.1.1 s out) hR rfl
  uuid s q x hR ho := writes_compact (fun out => rfl) hR rfl
  listBegin s q e n hR ho :=
    writes_compact (fun out => compact_list ho.1.1 ho.1.2.1 s out) (hR.push ho.2) rfl
  setBegin s q e n hR ho :=
    writes_compact (fun out => compact_list ho.1.1 ho.1.2.1 s out) (hR.push ho.2) rfl
  mapBegin s q k v n hR ho :=
    writes_compact (fun out => compact_map ho.1.1 ho.1.2.1 ho.1.2.2.1 s out) (hR.push ho.2) rfl
  structBegin s q hR ho := by
    refine writes_compact (s' := { s with writeTags := 0 :: s.writeTags }) (fun out => ?_) ⟨?_, ?_⟩ rfl
    · show (_, _, out) = (_, _, out ++ [])
      rw [List.append_nil]
    · simp only [Compact.stepQ, hR.1]
      rfl
    · simp only [Compact.stepQ, List.map_cons, List.getLast?_cons_cons]
      exact hR.2
  structEnd s q hR ho := by
    obtain ⟨x, xs, e1, e2, e3⟩ := hR.inside (by rw [ho.2.1]; decide)
    refine writes_compact (s' := { s with writeTags := s.writeTags.tail }) (fun out => ?_) ⟨?_, ?_⟩ rfl
    · show (_, _, out) = (_, _, out ++ [])
      rw [List.append_nil]
    · simp only [Compact.stepQ, e1, e2]
      rfl
    · simp only [Compact.stepQ, e1]
      exact e3
  fieldStop s q hR ho := writes_compact (fun out => rfl) hR rfl
  boolField s q fid b enc hR ho he := by
    obtain ⟨x, xs, e1, e2, e3⟩ := hR.inside (by rw [ho.2]; decide)
    refine writes_compact (fun out => ?_) (s' := { s with writeTags := fid :: ((x :: xs).map (·.2)).dropLast })
      ⟨?_, ?_⟩ rfl
    · have e : (if b = true then 1 else 2) = Spec.Compact.boolCode b := rfl
      show doWriteFieldBegin fid (if b = true then 1 else 2) s out = _
      rw [e, compact_header (by cases b <;> decide) ho.1 s e2]
      rfl
    · simp only [Compact.stepQ, e1]
      rfl
    · simp only [Compact.stepQ, e1, List.map_cons, List.getLast?_cons_cons]
      exact e3
  field tt fid truth enc hb :=
    ⟨doWriteFieldBegin fid (toCompactType tt), if_neg hb, fun s q hR ho => by
      obtain ⟨x, xs, e1, e2, e3⟩ := hR.inside (by rw [ho.2]; decide)
      refine writes_compact (fun out => ?_) (s' := { s with writeTags := fid :: ((x :: xs).map (·.2)).dropLast })
        ⟨?_, ?_⟩ rfl
      · rw [toCompactType_eq ho.1.1, compact_header (Compact.codeOf_lt tt).2 ho.1.2.1 s e2]
        rfl
      · simp only [Compact.stepQ, e1]
        rfl
      · simp only [Compact.stepQ, e1, List.map_cons, List.getLast?_cons_cons]
        exact e3⟩
  ends s q T hR ho hT := by
    rcases hT with rfl | rfl | rfl | rfl
    · refine ⟨rfl, hR.1, ?_⟩
      obtain ⟨x, xs, e1, e2, e3⟩ := hR.inside (by rcases ho.2 with h | h <;> rw [h] <;> decide)
      simp only [Compact.lang, Compact.stepQ, e1, List.map_cons, List.getLast?_cons_cons]
      exact e3
    all_goals
      obtain ⟨hp, hne⟩ := ho.2
      refine ⟨rfl, ?_⟩
      cases hc : q.containers with
      | nil => exact absurd hc hne
      | cons p rest =>
        simp only [Compact.lang, Compact.stepQ, hc]
        exact hR.pop hp p rest

end

end Thrift.Fast
