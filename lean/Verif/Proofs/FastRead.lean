import Verif.Model.Fast
import Verif.Proofs.TokenDecode
import Verif.Proofs.CompactLang
/-
The decoder of the C extension, from laws about single tokens.
-/

namespace Thrift.Fast
open Spec

section
variable {σ : Type} [HasDepth σ]

/-- The reading operations of the extension implement the language. Ends of fields and containers do
not call anything. -/
structure RdLaws (D : DecRel σ) (L : Lang) (ops : Rd σ) (R : σ → L.Q → Prop) : Prop where
  depth : ∀ s q d, R s q → R (HasDepth.setDepth d s) q
  structBegin : ∀ s q, R s q → L.ok q .structBegin →
    ReadsTo D L R ops.readStructBegin s q [.structBegin] ()
  structEnd : ∀ s q, R s q → L.ok q .structEnd → ReadsTo D L R ops.readStructEnd s q [.structEnd] ()
  fieldBegin : ∀ s q tt fid, R s q → L.ok q (.fieldBegin tt fid) →
    ReadsTo D L R ops.readFieldBegin s q [.fieldBegin tt fid] (tt, fid)
  boolField : ∀ s q fid b, R s q → L.ok q (.boolField fid b) →
    ∃ b1 b2 s1 s2, L.bytes q (.boolField fid b) = b1 ++ b2 ∧
      D.holds ops.readFieldBegin s b1 (TType.BOOL, fid) s1 ∧
      HasDepth.depth s1 = HasDepth.depth s ∧
      (∀ d, D.holds ops.readBool (HasDepth.setDepth d s1) b2 b (HasDepth.setDepth d s2)) ∧
      R s2 (L.step q (.boolField fid b)) ∧ HasDepth.depth s2 = HasDepth.depth s
  fieldStop : ∀ s q, R s q → L.ok q .fieldStop →
    ∃ x, ReadsTo D L R ops.readFieldBegin s q [.fieldStop] (TType.STOP, x)
  mapBegin : ∀ s q k v n, R s q → L.ok q (.mapBegin k v n) →
    ∃ k' v', ReadsTo D L R ops.readMapBegin s q [.mapBegin k v n] (k', v', (n : Int)) ∧
      ReadsTo D L R (orTypeError ops.readMapBegin) s q [.mapBegin k v n] (k', v', (n : Int)) ∧
      (0 < n → k' = k ∧ v' = v)
  listBegin : ∀ s q e n, R s q → L.ok q (.listBegin e n) →
    ReadsTo D L R ops.readListBegin s q [.listBegin e n] (e, (n : Int))
  setBegin : ∀ s q e n, R s q → L.ok q (.setBegin e n) →
    ReadsTo D L R ops.readListBegin s q [.setBegin e n] (e, (n : Int))
  ends : ∀ s q T, R s q → L.ok q T → (T = .fieldEnd ∨ T = .listEnd ∨ T = .setEnd ∨ T = .mapEnd) →
    L.bytes q T = [] ∧ R s (L.step q T)
  bool : ∀ s q b, R s q → L.ok q (.bool b) → ReadsTo D L R ops.readBool s q [.bool b] b
  byte : ∀ s q i, R s q → L.ok q (.byte i) → ReadsTo D L R ops.readI8 s q [.byte i] i
  i16 : ∀ s q i, R s q → L.ok q (.i16 i) → ReadsTo D L R ops.readI16 s q [.i16 i] i
  i32 : ∀ s q i, R s q → L.ok q (.i32 i) → ReadsTo D L R ops.readI32 s q [.i32 i] i
  i64 : ∀ s q i, R s q → L.ok q (.i64 i) → ReadsTo D L R ops.readI64 s q [.i64 i] i
  double : ∀ s q x, R s q → L.ok q (.double x) → ReadsTo D L R ops.readDouble s q [.double x] x
  str : ∀ s q x, R s q → L.ok q (.str x) → ReadsTo D L R ops.readString s q [.str x] (utf8 x)
  bin : ∀ s q x, R s q → L.ok q (.bin x) → ReadsTo D L R ops.readString s q [.bin x] x
  uuid : ∀ s q x, R s q → L.ok q (.uuid x) → ReadsTo D L R ops.readUuid s q [.uuid x] x
  skipStr : ∀ s q x, R s q → L.ok q (.str x) → ReadsTo D L R ops.skipString s q [.str x] ()
  skipBin : ∀ s q x, R s q → L.ok q (.bin x) → ReadsTo D L R ops.skipString s q [.bin x] ()
  skipUuid : ∀ s q x, R s q → L.ok q (.uuid x) → ReadsTo D L R ops.skipUuid s q [.uuid x] ()

variable {D : DecRel σ} {L : Lang} {ops : Rd σ} {R : σ → L.Q → Prop}

theorem RdLaws.bracket (H : RdLaws D L ops R) {α : Type} {m : P σ α} {s : σ} {q : L.Q}
    {ts : List Tok} {a : α} (hd : HasDepth.depth s < 64) (hR : R s q)
    (hm : ∀ s', R s' q → HasDepth.depth s' = HasDepth.depth s + 1 → ReadsTo D L R m s' q ts a) :
    ReadsTo D L R (do incDepth; P.tryFinally m decDepth) s q ts a := by
  obtain ⟨s1, e1, r1, d1⟩ := hm (HasDepth.setDepth (HasDepth.depth s + 1) s) (H.depth _ _ _ hR)
    (HasDepth.depth_set _ _)
  refine ⟨decDepth s1, ?_, H.depth _ _ _ r1, ?_⟩
  · have := D.bind (k := fun _ => P.tryFinally m decDepth) (incDepth_holds hd) (D.tryDec e1)
    simpa using this
  · unfold decDepth
    rw [HasDepth.depth_set] at d1 ⊢
    omega

/-- The end of a field or container. -/
theorem RdLaws.ended (H : RdLaws D L ops R) {α : Type} {m : P σ α} {s : σ} {q : L.Q}
    {ts : List Tok} {T : Tok} {a : α}
    (hT : T = .fieldEnd ∨ T = .listEnd ∨ T = .setEnd ∨ T = .mapEnd)
    (ho : L.ok (L.steps q ts) T) (h : ReadsTo D L R m s q ts a) :
    ReadsTo D L R m s q (ts ++ [T]) a := by
  obtain ⟨s', e, r, d⟩ := h
  obtain ⟨hb, hr⟩ := H.ends s' _ T r ho hT
  refine ⟨s', ?_, by simpa using hr, d⟩
  rw [Lang.enc_append]
  simpa [Lang.enc_cons, hb] using e

variable (sch : Schema)

/-- A field header followed by something that consumes the value. -/
theorem RdLaws.field (H : RdLaws D L ops R) {α : Type} {k : Int × Int → P σ α} {fid : Int}
    {t : Ty} {v : Val} {s : σ} {q : L.Q} {c : α} (hwt : WT sch t v)
    (hok : L.Ok q (toksField fid (toks sch t v) t v)) (hR : R s q)
    (hb : ∀ b s1 s2 b2, t = .bool → v = .bool b → HasDepth.depth s1 = HasDepth.depth s →
      (∀ d, D.holds ops.readBool (HasDepth.setDepth d s1) b2 b (HasDepth.setDepth d s2)) →
      HasDepth.depth s2 = HasDepth.depth s →
      D.holds (k (TType.BOOL, fid)) s1 b2 c s2)
    (hv : ∀ s1 q', t ≠ .bool → R s1 q' → HasDepth.depth s1 = HasDepth.depth s →
      L.Ok q' (toks sch t v) →
      ReadsTo D L R (k (t.ttype, fid)) s1 q' (toks sch t v) c) :
    ReadsTo D L R (ops.readFieldBegin >>= k) s q (toksField fid (toks sch t v) t v) c := by
  by_cases ht : t = .bool
  · subst ht
    cases v <;> simp only [WT] at hwt
    rename_i b
    simp only [toksField, Lang.Ok_cons] at hok
    obtain ⟨b1, b2, s1, s2, eb, h1, d1, h2, r2, d2⟩ := H.boolField s q fid b hR hok.1
    have h3 := hb b s1 s2 b2 rfl rfl d1 h2 d2
    refine ⟨s2, ?_, by simpa [toksField] using r2, d2⟩
    simp only [toksField, Lang.enc_cons, eb, Lang.enc_nil, List.append_nil]
    exact D.bind h1 h3
  · rw [toksField_ne_bool ht] at hok ⊢
    simp only [Lang.Ok_cons] at hok
    refine ReadsTo.seq (xs := [_]) (H.fieldBegin s q _ _ hR hok.1) fun s1 r1 d1 => ?_
    exact hv s1 _ ht r1 d1 hok.2

theorem holds_of_set {α : Type} {m : P σ α} {s1 s2 : σ} {b : Bytes} {a : α}
    (h : ∀ d, D.holds m (HasDepth.setDepth d s1) b a (HasDepth.setDepth d s2))
    (e : HasDepth.depth s2 = HasDepth.depth s1) : D.holds m s1 b a s2 := by
  have := h (HasDepth.depth s1)
  rw [HasDepth.set_depth, ← e, HasDepth.set_depth] at this
  exact this

/-- `skip` of a bool that is folded in the field header. -/
theorem skipBool_holds {s1 s2 : σ} {b2 : Bytes} {b : Bool} (fuel : Nat)
    (h : ∀ d, D.holds ops.readBool (HasDepth.setDepth d s1) b2 b (HasDepth.setDepth d s2))
    (e : HasDepth.depth s2 = HasDepth.depth s1) (hd : HasDepth.depth s1 < 64) :
    D.holds (skip ops (fuel + 1) TType.BOOL) s1 b2 () s2 := by
  have h1 := D.bind (k := fun _ => Pure.pure ()) (h (HasDepth.depth s1 + 1)) (D.pure () _)
  have h2 := D.bind (k := fun _ => P.tryFinally (ops.readBool >>= fun _ => pure ()) decDepth)
    (incDepth_holds hd) (D.tryDec h1)
  have e2 : decDepth (HasDepth.setDepth (HasDepth.depth s1 + 1) s2) = s2 := by
    unfold decDepth
    rw [HasDepth.depth_set, HasDepth.set_set, show HasDepth.depth s1 + 1 - 1 = HasDepth.depth s1 by omega,
      ← e, HasDepth.set_depth]
  rw [e2] at h2
  rw [skip]
  simpa [TType.BOOL] using h2

mutual
theorem skip_ok (H : RdLaws D L ops R) : (v : Val) → (t : Ty) → (fuel : Nat) → (s : σ) →
    (q : L.Q) → WT sch t v → L.Ok q (toks sch t v) → R s q → HasDepth.depth s + nesting v ≤ 64 →
    size v ≤ fuel → ReadsTo D L R (skip ops fuel t.ttype) s q (toks sch t v) () := by
  intro v t fuel s q hwt hok hR hd hf
  cases fuel with
  | zero => cases v <;> simp only [size] at hf <;> omega
  | succ fuel =>
  rw [skip]
  refine H.bracket (by cases v <;> simp only [nesting] at hd <;> omega) hR fun s' hR' hd' => ?_
  cases v with
  | bool b =>
    cases t <;> simp only [WT] at hwt <;> simp only [toks, Lang.Ok_cons] at hok ⊢ <;>
      simp only [Ty.ttype, TType.BOOL, TType.BYTE, TType.I16, TType.I32, TType.I64,
        TType.DOUBLE, TType.STRING, TType.LIST, TType.SET, TType.MAP, TType.STRUCT, TType.UUID,
        if_true, Int.reduceEq, if_false, or_true, true_or, or_false, false_or]
    exact ReadsTo.map (H.bool s' q b hR' hok.1) rfl
  | int i =>
    cases t <;> simp only [WT] at hwt <;> simp only [toks, Lang.Ok_cons] at hok ⊢ <;>
      simp only [Ty.ttype, TType.BOOL, TType.BYTE, TType.I16, TType.I32, TType.I64,
        TType.DOUBLE, TType.STRING, TType.LIST, TType.SET, TType.MAP, TType.STRUCT, TType.UUID,
        if_true, Int.reduceEq, if_false, or_true, true_or, or_false, false_or]
    · exact ReadsTo.map (H.byte s' q i hR' hok.1) rfl
    · exact ReadsTo.map (H.i16 s' q i hR' hok.1) rfl
    · exact ReadsTo.map (H.i32 s' q i hR' hok.1) rfl
    · exact ReadsTo.map (H.i64 s' q i hR' hok.1) rfl
  | double x =>
    cases t <;> simp only [WT] at hwt <;> simp only [toks, Lang.Ok_cons] at hok ⊢ <;>
      simp only [Ty.ttype, TType.BOOL, TType.BYTE, TType.I16, TType.I32, TType.I64,
        TType.DOUBLE, TType.STRING, TType.LIST, TType.SET, TType.MAP, TType.STRUCT, TType.UUID,
        if_true, Int.reduceEq, if_false, or_true, true_or, or_false, false_or]
    exact ReadsTo.map (H.double s' q x hR' hok.1) rfl
  | str x =>
    cases t <;> simp only [WT] at hwt <;> simp only [toks, Lang.Ok_cons] at hok ⊢ <;>
      simp only [Ty.ttype, TType.BOOL, TType.BYTE, TType.I16, TType.I32, TType.I64,
        TType.DOUBLE, TType.STRING, TType.LIST, TType.SET, TType.MAP, TType.STRUCT, TType.UUID,
        if_true, Int.reduceEq, if_false, or_true, true_or, or_false, false_or]
    exact H.skipStr s' q x hR' hok.1
  | bin x =>
    cases t <;> simp only [WT] at hwt <;> simp only [toks, Lang.Ok_cons] at hok ⊢ <;>
      simp only [Ty.ttype, TType.BOOL, TType.BYTE, TType.I16, TType.I32, TType.I64,
        TType.DOUBLE, TType.STRING, TType.LIST, TType.SET, TType.MAP, TType.STRUCT, TType.UUID,
        if_true, Int.reduceEq, if_false, or_true, true_or, or_false, false_or]
    exact H.skipBin s' q x hR' hok.1
  | uuid x =>
    cases t <;> simp only [WT] at hwt <;> simp only [toks, Lang.Ok_cons] at hok ⊢ <;>
      simp only [Ty.ttype, TType.BOOL, TType.BYTE, TType.I16, TType.I32, TType.I64,
        TType.DOUBLE, TType.STRING, TType.LIST, TType.SET, TType.MAP, TType.STRUCT, TType.UUID,
        if_true, Int.reduceEq, if_false, or_true, true_or, or_false, false_or]
    exact H.skipUuid s' q x hR' hok.1
  | list vs =>
    cases t <;> simp only [WT] at hwt
    case list e =>
    simp only [toks, Lang.Ok_cons, Lang.Ok_append] at hok ⊢
    simp only [Ty.ttype, TType.BOOL, TType.BYTE, TType.I16, TType.I32, TType.I64,
        TType.DOUBLE, TType.STRING, TType.LIST, TType.SET, TType.MAP, TType.STRUCT, TType.UUID,
        if_true, Int.reduceEq, if_false, or_true, true_or, or_false, false_or]
    simp only [nesting] at hd
    simp only [size] at hf
    refine ReadsTo.seq (xs := [_]) (H.listBegin s' q _ _ hR' hok.1) fun s1 r1 d1 => ?_
    simp only [Int.toNat_natCast]
    exact H.ended (by simp) hok.2.2.1
      (skipElems_ok H vs e fuel s1 _ hwt.2 hok.2.1 r1 (by omega) (by omega))
  | set vs =>
    cases t <;> simp only [WT] at hwt
    case set e =>
    simp only [toks, Lang.Ok_cons, Lang.Ok_append] at hok ⊢
    simp only [Ty.ttype, TType.BOOL, TType.BYTE, TType.I16, TType.I32, TType.I64,
        TType.DOUBLE, TType.STRING, TType.LIST, TType.SET, TType.MAP, TType.STRUCT, TType.UUID,
        if_true, Int.reduceEq, if_false, or_true, true_or, or_false, false_or]
    simp only [nesting] at hd
    simp only [size] at hf
    refine ReadsTo.seq (xs := [_]) (H.setBegin s' q _ _ hR' hok.1) fun s1 r1 d1 => ?_
    simp only [Int.toNat_natCast]
    exact H.ended (by simp) hok.2.2.1
      (skipElems_ok H vs e fuel s1 _ hwt.2.2 hok.2.1 r1 (by omega) (by omega))
  | map kvs =>
    cases t <;> simp only [WT] at hwt
    case map k v =>
    simp only [toks, Lang.Ok_cons, Lang.Ok_append] at hok ⊢
    simp only [Ty.ttype, TType.BOOL, TType.BYTE, TType.I16, TType.I32, TType.I64,
        TType.DOUBLE, TType.STRING, TType.LIST, TType.SET, TType.MAP, TType.STRUCT, TType.UUID,
        if_true, Int.reduceEq, if_false, or_true, true_or, or_false, false_or]
    simp only [nesting] at hd
    simp only [size] at hf
    obtain ⟨k', v', hb, -, hkv⟩ := H.mapBegin s' q _ _ _ hR' hok.1
    refine ReadsTo.seq (xs := [_]) hb fun s1 r1 d1 => ?_
    simp only [Int.toNat_natCast]
    have hkv : kvs ≠ [] → k' = k.ttype ∧ v' = v.ttype := fun h =>
      hkv (List.length_pos_iff.mpr h)
    exact H.ended (by simp) hok.2.2.1
      (skipPairs_ok H kvs k v k' v' fuel s1 _ hwt.2.2 hok.2.1 r1 (by omega) (by omega) hkv)
  | struct as =>
    cases t <;> simp only [WT] at hwt
    case struct sid =>
    simp only [toks, Lang.Ok_cons, Lang.Ok_append] at hok ⊢
    simp only [Ty.ttype, TType.BOOL, TType.BYTE, TType.I16, TType.I32, TType.I64,
        TType.DOUBLE, TType.STRING, TType.LIST, TType.SET, TType.MAP, TType.STRUCT, TType.UUID,
        if_true, Int.reduceEq, if_false, or_true, true_or, or_false, false_or]
    simp only [nesting] at hd
    simp only [size] at hf
    rw [show toksF sch (sch sid) as ++ [Tok.fieldStop, Tok.structEnd]
      = (toksF sch (sch sid) as ++ [Tok.fieldStop]) ++ [Tok.structEnd] by simp]
    refine ReadsTo.seq (xs := [_]) (H.structBegin s' q hR' hok.1) fun s1 r1 d1 => ?_
    refine ReadsTo.seq (skipFields_ok H as (sch sid) fuel fuel s1 _ hwt ?_ r1 (by omega) (by omega)
      (by omega)) fun s2 r2 d2 => ?_
    · simp only [Lang.Ok_append, Lang.Ok_cons, Lang.Ok_nil, and_true]
      exact ⟨hok.2.1, hok.2.2.1⟩
    · simp only [Lang.steps_append, Lang.steps_cons, Lang.steps_nil] at r2
      have := H.structEnd s2 _ r2 hok.2.2.2.1
      simpa using this
theorem skipElems_ok (H : RdLaws D L ops R) : (vs : List Val) → (e : Ty) → (fuel : Nat) →
    (s : σ) → (q : L.Q) → WTs sch e vs → L.Ok q (toksE sch e vs) → R s q →
    HasDepth.depth s + nestings vs ≤ 64 → sizes vs ≤ fuel →
    ReadsTo D L R (P.repeatN_ vs.length (skip ops fuel e.ttype)) s q (toksE sch e vs) () := by
  intro vs e fuel s q hwt hok hR hd hf
  cases vs with
  | nil => simp only [toksE]; exact ReadsTo.ret () hR
  | cons v vs =>
    simp only [WTs] at hwt
    simp only [toksE, Lang.Ok_append] at hok ⊢
    simp only [nestings] at hd
    simp only [sizes] at hf
    refine ReadsTo.seq (skip_ok H v e fuel s q hwt.1 hok.1 hR (by omega) (by omega))
      fun s1 r1 d1 => ?_
    exact skipElems_ok H vs e fuel s1 _ hwt.2 hok.2 r1 (by omega) (by omega)
theorem skipPairs_ok (H : RdLaws D L ops R) : (kvs : List (Val × Val)) → (k v : Ty) →
    (k' v' : Int) → (fuel : Nat) → (s : σ) → (q : L.Q) → WTp sch k v kvs →
    L.Ok q (toksP sch k v kvs) → R s q → HasDepth.depth s + nestingp kvs ≤ 64 → sizep kvs ≤ fuel →
    (kvs ≠ [] → k' = k.ttype ∧ v' = v.ttype) →
    ReadsTo D L R (P.repeatN_ kvs.length (do skip ops fuel k'; skip ops fuel v')) s q
      (toksP sch k v kvs) () := by
  intro kvs k v k' v' fuel s q hwt hok hR hd hf hkv
  match kvs with
  | [] => simp only [toksP]; exact ReadsTo.ret () hR
  | (a, b) :: kvs =>
    obtain ⟨rfl, rfl⟩ := hkv (by simp)
    simp only [WTp] at hwt
    simp only [toksP, Lang.Ok_append] at hok ⊢
    simp only [nestingp] at hd
    simp only [sizep] at hf
    rw [← List.append_assoc]
    refine ReadsTo.seq (m := do skip ops fuel k.ttype; skip ops fuel v.ttype) (a := ()) ?_
      fun s1 r1 d1 => ?_
    · refine ReadsTo.seq (skip_ok H a k fuel s q hwt.1 hok.1 hR (by omega) (by omega))
        fun s1 r1 d1 => ?_
      exact skip_ok H b v fuel s1 _ hwt.2.1 hok.2.1 r1 (by omega) (by omega)
    · simp only [Lang.steps_append] at r1 ⊢
      exact skipPairs_ok H kvs k v _ _ fuel s1 _ hwt.2.2 hok.2.2 r1 (by omega) (by omega)
        (fun _ => ⟨rfl, rfl⟩)
theorem skipFields_ok (H : RdLaws D L ops R) : (as : List (Option Val)) → (fs : List Field) →
    (loop fuel : Nat) → (s : σ) → (q : L.Q) → WTf sch fs as →
    L.Ok q (toksF sch fs as ++ [.fieldStop]) → R s q → HasDepth.depth s + nestingf as ≤ 64 →
    sizef as + 1 ≤ loop → sizef as ≤ fuel →
    ReadsTo D L R (P.whileTrue loop (skipStructBody ops (skip ops fuel)) ()) s q
      (toksF sch fs as ++ [.fieldStop]) () := by
  intro as fs loop fuel s q hwt hok hR hd hl hf
  cases loop with
  | zero => omega
  | succ loop =>
  match as with
  | [] =>
    cases fs with
    | cons f fs => simp only [WTf] at hwt
    | nil =>
      simp only [toksF, List.nil_append, Lang.Ok_cons] at hok ⊢
      obtain ⟨x, hx⟩ := H.fieldStop s q hR hok.1
      exact ReadsTo.loopEnd (ReadsTo.map (m := ops.readFieldBegin) hx rfl)
  | none :: as =>
    cases fs with
    | nil => simp only [WTf] at hwt
    | cons f fs =>
      simp only [WTf] at hwt
      simp only [toksF] at hok ⊢
      simp only [nestingf] at hd
      simp only [sizef] at hl hf
      exact skipFields_ok H as fs (loop + 1) fuel s q hwt.2 hok hR hd (by omega) (by omega)
  | some v :: as =>
    cases fs with
    | nil => simp only [WTf] at hwt
    | cons f fs =>
      simp only [WTf] at hwt
      simp only [toksF, List.append_assoc, List.cons_append, Lang.Ok_append, Lang.Ok_cons] at hok ⊢
      simp only [nestingf] at hd
      simp only [sizef] at hl hf
      rw [show toksField f.fid (toks sch f.ty v) f.ty v ++
          Tok.fieldEnd :: (toksF sch fs as ++ [Tok.fieldStop])
        = (toksField f.fid (toks sch f.ty v) f.ty v ++ [Tok.fieldEnd]) ++
          (toksF sch fs as ++ [Tok.fieldStop]) by simp]
      refine ReadsTo.loop (a' := ()) (xs := toksField f.fid (toks sch f.ty v) f.ty v ++ [Tok.fieldEnd])
        ?_ fun s1 r1 d1 => ?_
      · refine H.ended (by simp) hok.2.1 ?_
        refine H.field sch (k := fun x => _) hwt.1 hok.1 hR ?_ ?_
        · rintro b s1 s2 b2 htb rfl d1 hb d2
          simp only
          rw [if_neg (by decide)]
          cases fuel with
          | zero => simp only [size] at hf; omega
          | succ fuel =>
          simp only [nesting] at hd
          have h1 := skipBool_holds fuel hb (by omega) (by omega)
          have h2 := D.bind (c := (Sum.inl () : Unit ⊕ Unit)) (k := fun _ => pure (Sum.inl ())) h1
            (D.pure (Sum.inl ()) s2)
          simpa using h2
        · intro s1 q' hnb r1 d1 ho
          simp only
          rw [if_neg (ttype_ne_stop _)]
          exact ReadsTo.map (skip_ok H v f.ty fuel s1 q' hwt.1 ho r1 (by omega) (by omega)) rfl
      · simp only [Lang.steps_append, Lang.steps_cons, Lang.steps_nil] at r1 ⊢
        exact skipFields_ok H as fs loop fuel s1 _ hwt.2
          (by simp only [Lang.Ok_append, Lang.Ok_cons]; exact hok.2.2) r1 (by omega) (by omega)
          (by omega)
end

end

/-! ### Decoding -/

theorem specEntry_eq {fs : List Field} {tag : Int} (h : FieldsOK fs) (h0 : ∀ f ∈ fs, 0 ≤ f.fid) :
    specEntry fs tag = fs.findIdx? (fun f => f.fid == tag) := by
  unfold specEntry
  by_cases ht : tag < 0
  · rw [if_pos ht, eq_comm, List.findIdx?_eq_none_iff]
    intro f hf
    have := h0 f hf
    simp
    omega
  · rw [if_neg ht]
    cases hfs : fs with
    | nil => simp [thriftSpec]
    | cons f fs' =>
      have hts : thriftSpec (f :: fs') = thriftSpecFrom 0 0 fs := by
        rw [hfs]
        simp only [thriftSpec]
        rw [if_pos (h0 f (by simp [hfs]))]
      rw [hts, ← hfs]
      have := thriftSpecFrom_get fs 0 0 tag.toNat h0 h.1
      refine Eq.trans this ?_
      have e : (0 : Int) + (tag.toNat : Int) = tag := by omega
      rw [e]
      cases fs.findIdx? (fun f => f.fid == tag) <;> rfl

section
variable {σ : Type} [HasDepth σ] {D : DecRel σ} {L : Lang} {ops : Rd σ} {R : σ → L.Q → Prop}
  {env : Env}

/-- Follow a reading method by a pure computation. -/
theorem readsTo_lift {α β : Type} {m : P σ α} {k : α → Except Exc β} {s : σ} {q : L.Q} {ts : List Tok}
    {a : α} {c : β} (hm : ReadsTo D L R m s q ts a) (hk : k a = .ok c) :
    ReadsTo D L R (m >>= fun a => P.lift (k a)) s q ts c :=
  ReadsTo.map hm (by rw [hk]; rfl)

variable (sch₁ sch₂ : Schema) (N : Int)

/-- What is left of the recursion limit suffices for skipping the value. -/
def Skips (v : Val) : Prop := N + nesting v ≤ 64

mutual
theorem decode_ok (H : RdLaws D L ops R) (he : env.Decodes) (hN : N ≤ 64) (h1 : ∀ sid, FieldsOK (sch₁ sid))
    (h2 : SchemaOK .dyn sch₂) (hc : Compatible sch₁ sch₂) : (v : Val) → (t : Ty) → (fuel : Nat) →
    (s : σ) → (q : L.Q) → WT sch₁ t v → L.Ok q (toks sch₁ t v) → R s q → size v ≤ fuel →
    HasDepth.depth s + structDepth v ≤ N → Unknowns (Skips N) sch₁ sch₂ t v →
    ReadsTo D L R (decodeValue env ops sch₂ fuel t) s q (toks sch₁ t v) (project sch₁ sch₂ t v) := by
  intro v t fuel s q hwt hok hR hf hd hu
  cases fuel with
  | zero => cases v <;> simp only [size] at hf <;> omega
  | succ fuel =>
  cases v with
  | bool b =>
    cases t <;> simp only [WT] at hwt <;> simp only [toks, Lang.Ok_cons] at hok ⊢ <;>
      rw [decodeValue, project]
    · exact ReadsTo.map (H.bool s q b hR hok.1) rfl
    all_goals simp
  | int i =>
    cases t <;> simp only [WT] at hwt <;> simp only [toks, Lang.Ok_cons] at hok ⊢ <;>
      rw [decodeValue, project]
    · exact ReadsTo.map (H.byte s q i hR hok.1) rfl
    any_goals simp
    · exact ReadsTo.map (H.i16 s q i hR hok.1) rfl
    · exact ReadsTo.map (H.i32 s q i hR hok.1) rfl
    · exact ReadsTo.map (H.i64 s q i hR hok.1) rfl
  | double x =>
    cases t <;> simp only [WT] at hwt <;> simp only [toks, Lang.Ok_cons] at hok ⊢ <;>
      rw [decodeValue, project]
    · exact ReadsTo.map (H.double s q x hR hok.1) rfl
    all_goals simp
  | str x =>
    cases t <;> simp only [WT] at hwt <;> simp only [toks, Lang.Ok_cons] at hok ⊢ <;>
      rw [decodeValue, project]
    · exact ReadsTo.map (H.str s q x hR hok.1) (by rw [he _ _ (utf8Decode_utf8 hwt.1)])
    all_goals simp
  | bin x =>
    cases t <;> simp only [WT] at hwt <;> simp only [toks, Lang.Ok_cons] at hok ⊢ <;>
      rw [decodeValue, project]
    · exact ReadsTo.map (H.bin s q x hR hok.1) rfl
    all_goals simp
  | uuid x =>
    cases t <;> simp only [WT] at hwt <;> simp only [toks, Lang.Ok_cons] at hok ⊢ <;>
      rw [decodeValue, project]
    · exact ReadsTo.map (H.uuid s q x hR hok.1) rfl
    all_goals simp
  | list vs =>
    cases t <;> simp only [WT] at hwt
    case list e =>
    simp only [toks, Lang.Ok_cons, Lang.Ok_append] at hok ⊢
    rw [decodeValue, project]
    simp only [size] at hf
    simp only [structDepth] at hd
    simp only [Unknowns] at hu
    refine ReadsTo.seq (xs := [_]) (H.listBegin s q _ _ hR hok.1) fun s1 r1 d1 => ?_
    dsimp only
    rw [if_neg (fun h => h.2 rfl)]
    simp only [Int.toNat_natCast]
    exact H.ended (by simp) hok.2.2.1
      (ReadsTo.map (decodeElems_ok H he hN h1 h2 hc vs e fuel s1 _ hwt.2 hok.2.1 r1 (by omega) (by omega) hu) rfl)
  | set vs =>
    cases t <;> simp only [WT] at hwt
    case set e =>
    simp only [toks, Lang.Ok_cons, Lang.Ok_append] at hok ⊢
    rw [decodeValue, project]
    simp only [size] at hf
    simp only [structDepth] at hd
    simp only [Unknowns] at hu
    refine ReadsTo.seq (xs := [_]) (H.setBegin s q _ _ hR hok.1) fun s1 r1 d1 => ?_
    dsimp only
    rw [if_neg (fun h => h.2 rfl)]
    simp only [Int.toNat_natCast]
    exact H.ended (by simp) hok.2.2.1
      (readsTo_lift (k := newSet e) (decodeElems_ok H he hN h1 h2 hc vs e fuel s1 _ hwt.2.2 hok.2.1 r1 (by omega) (by omega) hu)
        (by unfold newSet; rw [hwt.2.1, pySet_firsts]; rfl))
  | map kvs =>
    cases t <;> simp only [WT] at hwt
    case map k v =>
    simp only [toks, Lang.Ok_cons, Lang.Ok_append] at hok ⊢
    rw [decodeValue, project]
    simp only [size] at hf
    simp only [structDepth] at hd
    simp only [Unknowns] at hu
    obtain ⟨k', v', -, hb, hkv⟩ := H.mapBegin s q _ _ _ hR hok.1
    refine ReadsTo.seq (xs := [_]) hb fun s1 r1 d1 => ?_
    dsimp only
    rw [if_neg (fun h => by
      obtain ⟨e1, e2⟩ := hkv (by omega)
      rcases h.2 with h | h
      · exact h e1
      · exact h e2)]
    simp only [Int.toNat_natCast]
    refine H.ended (by simp) hok.2.2.1 (ReadsTo.map (decodePairs_ok H he hN h1 h2 hc kvs k v fuel s1 _
      hwt.2.1 hwt.2.2 hok.2.1 r1 (by omega) (by omega) hu) ?_)
    rw [pyDict_merged]
  | struct as =>
    cases t <;> simp only [WT] at hwt
    case struct sid =>
    simp only [toks, Lang.Ok_cons, Lang.Ok_append] at hok ⊢
    rw [decodeValue, project]
    simp only [size] at hf
    simp only [structDepth] at hd
    simp only [Unknowns] at hu
    refine H.bracket (by omega) hR fun s' hR' hd' => ?_
    rw [show toksF sch₁ (sch₁ sid) as ++ [Tok.fieldStop, Tok.structEnd]
      = (toksF sch₁ (sch₁ sid) as ++ [Tok.fieldStop]) ++ [Tok.structEnd] by simp]
    refine ReadsTo.seq (xs := [_]) (H.structBegin s' q hR' hok.1) fun s1 r1 d1 => ?_
    refine ReadsTo.seq (decodeFields_ok H he hN h1 h2 hc as (sch₁ sid) (sch₂ sid) [] fuel fuel s1 _ hwt ?_ r1
      (by omega) (by omega) (by omega) hu (h2 sid).1 (h1 sid).1 (by simp)
      ((h2 sid).2 rfl) (hc sid)) fun s2 r2 d2 => ?_
    · simp only [Lang.steps_cons, Lang.steps_nil, Lang.Ok_append, Lang.Ok_cons, Lang.Ok_nil,
        and_true]
      exact ⟨hok.2.1, hok.2.2.1⟩
    · simp only [Lang.steps_append, Lang.steps_cons, Lang.steps_nil] at r2 ⊢
      exact ReadsTo.map (H.structEnd s2 _ r2 hok.2.2.2.1) rfl
theorem decodeElems_ok (H : RdLaws D L ops R) (he : env.Decodes) (hN : N ≤ 64)
    (h1 : ∀ sid, FieldsOK (sch₁ sid)) (h2 : SchemaOK .dyn sch₂) (hc : Compatible sch₁ sch₂) :
    (vs : List Val) → (e : Ty) → (fuel : Nat) → (s : σ) → (q : L.Q) → WTs sch₁ e vs →
    L.Ok q (toksE sch₁ e vs) → R s q → sizes vs ≤ fuel → HasDepth.depth s + structDepths vs ≤ N →
    Unknownss (Skips N) sch₁ sch₂ e vs →
    ReadsTo D L R (P.repeatN vs.length (decodeValue env ops sch₂ fuel e)) s q (toksE sch₁ e vs)
      (projects sch₁ sch₂ e vs) := by
  intro vs e fuel s q hwt hok hR hf hd hu
  cases vs with
  | nil => simp only [toksE, projects]; exact ReadsTo.ret [] hR
  | cons v vs =>
    simp only [WTs] at hwt
    simp only [toksE, Lang.Ok_append] at hok ⊢
    simp only [structDepths] at hd
    simp only [sizes] at hf
    simp only [Unknownss] at hu
    simp only [projects]
    refine ReadsTo.seq (decode_ok H he hN h1 h2 hc v e fuel s q hwt.1 hok.1 hR (by omega) (by omega) hu.1)
      fun s1 r1 d1 => ?_
    exact ReadsTo.map (m := P.repeatN vs.length (decodeValue env ops sch₂ fuel e))
      (decodeElems_ok H he hN h1 h2 hc vs e fuel s1 _ hwt.2 hok.2 r1 (by omega) (by omega) hu.2) rfl
theorem decodePairs_ok (H : RdLaws D L ops R) (he : env.Decodes) (hN : N ≤ 64)
    (h1 : ∀ sid, FieldsOK (sch₁ sid)) (h2 : SchemaOK .dyn sch₂) (hc : Compatible sch₁ sch₂) :
    (kvs : List (Val × Val)) → (k v : Ty) → (fuel : Nat) → (s : σ) → (q : L.Q) →
    k.hashable = true → WTp sch₁ k v kvs → L.Ok q (toksP sch₁ k v kvs) → R s q →
    sizep kvs ≤ fuel → HasDepth.depth s + structDepthp kvs ≤ N →
    Unknownsp (Skips N) sch₁ sch₂ k v kvs →
    ReadsTo D L R (P.repeatN kvs.length (decodePair (decodeValue env ops sch₂ fuel) k v)) s q
      (toksP sch₁ k v kvs) (projectp sch₁ sch₂ k v kvs) := by
  intro kvs k v fuel s q hk hwt hok hR hf hd hu
  match kvs with
  | [] => simp only [toksP, projectp]; exact ReadsTo.ret [] hR
  | (a, b) :: kvs =>
    simp only [WTp] at hwt
    simp only [toksP, Lang.Ok_append] at hok ⊢
    simp only [structDepthp] at hd
    simp only [sizep] at hf
    simp only [Unknownsp] at hu
    simp only [projectp]
    rw [← List.append_assoc]
    refine ReadsTo.seq (m := decodePair (decodeValue env ops sch₂ fuel) k v)
      (xs := toks sch₁ k a ++ toks sch₁ v b)
      (a := (project sch₁ sch₂ k a, project sch₁ sch₂ v b)) ?_ fun s1 r1 d1 => ?_
    · unfold decodePair
      refine ReadsTo.seq (decode_ok H he hN h1 h2 hc a k fuel s q hwt.1 hok.1 hR (by omega) (by omega) hu.1)
        fun s1 r1 d1 => ?_
      refine ReadsTo.map (decode_ok H he hN h1 h2 hc b v fuel s1 _ hwt.2.1 hok.2.1 r1 (by omega) (by omega)
        hu.2.1) ?_
      simp [hk]
    · simp only [Lang.steps_append] at r1 ⊢
      exact ReadsTo.map (m := P.repeatN kvs.length (decodePair (decodeValue env ops sch₂ fuel) k v))
        (decodePairs_ok H he hN h1 h2 hc kvs k v fuel s1 _ hk hwt.2.2 hok.2.2 r1 (by omega) (by omega)
        hu.2.2) rfl
theorem decodeFields_ok (H : RdLaws D L ops R) (he : env.Decodes) (hN : N ≤ 64)
    (h1 : ∀ sid, FieldsOK (sch₁ sid)) (h2 : SchemaOK .dyn sch₂) (hc : Compatible sch₁ sch₂) :
    (as : List (Option Val)) → (fs gs : List Field) → (done : List (Int × Int × Val)) →
    (loop fuel : Nat) → (s : σ) → (q : L.Q) → WTf sch₁ fs as →
    L.Ok q (toksF sch₁ fs as ++ [.fieldStop]) → R s q → sizef as + 1 ≤ loop → sizef as ≤ fuel →
    HasDepth.depth s + structDepthf as ≤ N → Unknownsf (Skips N) sch₁ sch₂ gs fs as →
    FieldsOK gs → fs.Pairwise (fun f g => f.fid < g.fid) →
    (∀ y ∈ done, ∀ f ∈ fs, y.1 < f.fid) → (∀ f ∈ gs, 0 ≤ f.fid) →
    (∀ f ∈ fs, ∀ g ∈ gs, f.fid = g.fid → f.ty.ttype = g.ty.ttype → f.ty = g.ty) →
    ReadsTo D L R (P.whileTrue loop (readStructBody ops gs (decodeValue env ops sch₂ fuel)
        (skip ops fuel)) (gs.map (attrOf done))) s q
      (toksF sch₁ fs as ++ [.fieldStop])
      (gs.map (attrOf (done ++ sentFields sch₁ sch₂ fs as))) := by
  intro as fs gs done loop fuel s q hwt hok hR hl hf hd hu hgs hfs hdone hg0 hcf
  cases loop with
  | zero => omega
  | succ loop =>
  match as with
  | [] =>
    cases fs with
    | cons f fs => simp only [WTf] at hwt
    | nil =>
      simp only [toksF, List.nil_append, Lang.Ok_cons] at hok ⊢
      obtain ⟨x, hx⟩ := H.fieldStop s q hR hok.1
      simp only [sentFields, List.append_nil]
      exact ReadsTo.loopEnd (ReadsTo.map (m := ops.readFieldBegin) hx rfl)
  | none :: as =>
    cases fs with
    | nil => simp only [WTf] at hwt
    | cons f fs =>
      simp only [WTf] at hwt
      simp only [toksF] at hok ⊢
      simp only [structDepthf] at hd
      simp only [sizef] at hl hf
      simp only [Unknownsf] at hu
      simp only [sentFields]
      exact decodeFields_ok H he hN h1 h2 hc as fs gs done (loop + 1) fuel s q hwt.2 hok hR (by omega)
        (by omega) hd hu hgs (List.pairwise_cons.mp hfs).2
        (fun y hy g hg => hdone y hy g (by simp [hg])) hg0
        (fun f hf => hcf f (by simp [hf]))
  | some v :: as =>
    cases fs with
    | nil => simp only [WTf] at hwt
    | cons f fs =>
      simp only [WTf] at hwt
      simp only [toksF, List.append_assoc, List.cons_append, Lang.Ok_append, Lang.Ok_cons] at hok ⊢
      simp only [structDepthf] at hd
      simp only [sizef] at hl hf
      simp only [Unknownsf] at hu
      simp only [sentFields]
      have hlk : specEntry gs f.fid = gs.findIdx? (fun g => g.fid == f.fid) := specEntry_eq hgs hg0
      rw [show toksField f.fid (toks sch₁ f.ty v) f.ty v ++
          Tok.fieldEnd :: (toksF sch₁ fs as ++ [Tok.fieldStop])
        = (toksField f.fid (toks sch₁ f.ty v) f.ty v ++ [Tok.fieldEnd]) ++
          (toksF sch₁ fs as ++ [Tok.fieldStop]) by simp]
      rw [show done ++ (f.fid, f.ty.ttype, project sch₁ sch₂ f.ty v) :: sentFields sch₁ sch₂ fs as
        = (done ++ [(f.fid, f.ty.ttype, project sch₁ sch₂ f.ty v)]) ++ sentFields sch₁ sch₂ fs as
          by simp]
      refine ReadsTo.loop
        (a' := gs.map (attrOf (done ++ [(f.fid, f.ty.ttype, project sch₁ sch₂ f.ty v)])))
        (xs := toksField f.fid (toks sch₁ f.ty v) f.ty v ++ [Tok.fieldEnd])
        ?_ fun s1 r1 d1 => ?_
      · refine H.ended (by simp) hok.2.1 ?_
        by_cases hk : Known gs f.fid f.ty.ttype = true
        · -- the reader knows the field
          rw [if_pos hk] at hu
          obtain ⟨g, hg, hgf, hgt⟩ : ∃ g ∈ gs, g.fid = f.fid ∧ g.ty.ttype = f.ty.ttype := by
            unfold Known at hk
            rw [List.any_eq_true] at hk
            obtain ⟨g, hg, h⟩ := hk
            simp only [Bool.and_eq_true, beq_iff_eq] at h
            exact ⟨g, hg, h.1, h.2⟩
          have hty : f.ty = g.ty := hcf f (by simp) g hg hgf.symm hgt.symm
          obtain ⟨i, hi, hgi⟩ : ∃ i, gs.findIdx? (fun g => g.fid == f.fid) = some i ∧ gs[i]? = some g := by
            cases hfi : gs.findIdx? (fun g => g.fid == f.fid) with
            | none =>
              rw [List.findIdx?_eq_none_iff] at hfi
              have := hfi g hg
              simp [hgf] at this
            | some i =>
              refine ⟨i, rfl, ?_⟩
              obtain ⟨g', hg', hgf'⟩ := findIdx_some hfi
              rw [hg']
              congr 1
              obtain ⟨j, hj⟩ := List.mem_iff_getElem?.mp hg
              by_cases hij : i = j
              · subst hij; rw [hg'] at hj; exact Option.some.inj hj
              · exfalso
                have hs := hgs.1
                rw [List.getElem?_eq_some_iff] at hg' hj
                obtain ⟨hi', rfl⟩ := hg'
                obtain ⟨hj', rfl⟩ := hj
                rw [List.pairwise_iff_getElem] at hs
                rcases Nat.lt_or_gt_of_ne hij with h | h
                · have := hs i j hi' hj' h; omega
                · have := hs j i hj' hi' h; omega
          have hne : ∀ y ∈ done, y.1 ≠ g.fid := by
            intro y hy e
            have := hdone y hy f (by simp)
            omega
          have hset : ∀ x, (gs.map (attrOf done)).set i (some x)
              = gs.map (attrOf (done ++ [(f.fid, f.ty.ttype, x)])) := by
            intro x
            rw [attrs_set hgi hgs.1 hne, hgf, hgt]
          refine H.field sch₁ (k := fun x => _) hwt.1 hok.1 hR ?_ ?_
          · rintro b s1 s2 b2 htb rfl d1 hb d2
            simp only
            rw [if_neg (by decide), hlk, hi]
            simp only [hgi, ← hty, htb]
            rw [if_neg (fun h => h rfl)]
            rw [decodeValue]
            simp only [project] at *
            have hs' := hset (Val.bool b)
            have e1 := D.bind (k := fun b => Pure.pure (Val.bool b)) (holds_of_set hb (by omega))
              (D.pure (Val.bool b) s2)
            have e2 := D.bind (c := (Sum.inl ((gs.map (attrOf done)).set i (some (Val.bool b))) :
                  List (Option Val) ⊕ List (Option Val)))
              (k := fun v => Pure.pure (Sum.inl ((gs.map (attrOf done)).set i (some v)))) e1
              (D.pure _ s2)
            rw [hs', htb] at e2
            simpa using e2
          · intro s1 q' hnb r1 d1 ho
            simp only
            rw [if_neg (ttype_ne_stop _), hlk, hi]
            simp only [hgi, ← hty]
            rw [if_neg (fun h => h rfl)]
            exact ReadsTo.map (decode_ok H he hN h1 h2 hc v f.ty fuel s1 q' hwt.1 ho r1 (by omega)
              (by omega) hu.1) (by rw [hset])
        · -- the reader skips the field
          rw [if_neg hk] at hu
          obtain ⟨hn, hu⟩ := hu
          unfold Skips at hn
          have hk' : Known gs f.fid f.ty.ttype = false := by simpa using hk
          rw [← attrs_keep hk']
          -- whatever the lookup finds, the field is skipped
          have hskip : ∀ (k : P σ (List (Option Val) ⊕ List (Option Val))),
              (match specEntry gs f.fid with
                | none => (do
                  skip ops fuel f.ty.ttype
                  Pure.pure (Sum.inl (gs.map (attrOf done))) : P σ (List (Option Val) ⊕ List (Option Val)))
                | some i =>
                  match gs[i]? with
                  | none => P.raise .indexError
                  | some g =>
                    if g.ty.ttype ≠ f.ty.ttype then do
                      skip ops fuel f.ty.ttype
                      Pure.pure (.inl (gs.map (attrOf done)))
                    else do
                      let v ← decodeValue env ops sch₂ fuel g.ty
                      Pure.pure (.inl ((gs.map (attrOf done)).set i (some v)))) = k →
              k = (do
                  skip ops fuel f.ty.ttype
                  Pure.pure (Sum.inl (gs.map (attrOf done)))) := by
            rintro k rfl
            rw [hlk]
            cases hfi : gs.findIdx? (fun g => g.fid == f.fid) with
            | none => rfl
            | some i =>
              obtain ⟨g, hg, hgf⟩ := findIdx_some hfi
              simp only [hg]
              rw [if_pos]
              intro e
              apply hk
              unfold Known
              rw [List.any_eq_true]
              exact ⟨g, List.mem_of_getElem? hg, by simp [hgf, e]⟩
          refine H.field sch₁ (k := fun x => _) hwt.1 hok.1 hR ?_ ?_
          · rintro b s1 s2 b2 htb rfl d1 hb d2
            simp only
            rw [if_neg (by decide)]
            have := hskip _ rfl
            rw [htb] at this
            refine Eq.mp (congrArg (fun k => D.holds k s1 _ _ s2) this.symm) ?_
            cases fuel with
            | zero => simp only [size] at hf; omega
            | succ fuel =>
            simp only [nesting] at hn
            have e1 := skipBool_holds fuel hb (by omega) (by simp only [structDepth] at hd; omega)
            have e2 := D.bind (c := (Sum.inl (gs.map (attrOf done)) :
                  List (Option Val) ⊕ List (Option Val)))
              (k := fun _ => Pure.pure (Sum.inl (gs.map (attrOf done)))) e1 (D.pure _ s2)
            simpa [Ty.ttype] using e2
          · intro s1 q' hnb r1 d1 ho
            simp only
            rw [if_neg (ttype_ne_stop _)]
            refine Eq.mp (congrArg (fun k => ReadsTo D L R k s1 q' _ _) (hskip _ rfl).symm) ?_
            exact ReadsTo.map (skip_ok sch₁ H v f.ty fuel s1 q' hwt.1 ho r1 (by omega) (by omega)) rfl
      · simp only [Lang.steps_append, Lang.steps_cons, Lang.steps_nil] at r1 ⊢
        exact decodeFields_ok H he hN h1 h2 hc as fs gs _ loop fuel s1 _ hwt.2
          (by simp only [Lang.Ok_append, Lang.Ok_cons]; exact hok.2.2) r1 (by omega) (by omega)
          (by omega) hu.2 hgs (List.pairwise_cons.mp hfs).2
          (by
            intro y hy g hg
            simp only [List.mem_append, List.mem_singleton] at hy
            rcases hy with hy | rfl
            · exact hdone y hy g (by simp [hg])
            · exact (List.pairwise_cons.mp hfs).1 g hg)
          hg0 (fun f hf => hcf f (by simp [hf]))
end

end

end Thrift.Fast
