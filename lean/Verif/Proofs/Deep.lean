import Verif.Proofs.TokenDecode
import Verif.Proofs.Project
import Verif.Proofs.Dec
/-
Values nested too deeply: what `skip` and the generated readers and writers do with them.
-/

namespace Thrift
open Spec

/-- Whatever follows `b`, `m` raises `e`. -/
def Raises {σ α : Type} (m : P σ α) (s : σ) (b : Bytes) (e : Exc) : Prop :=
  ∀ rest, ∃ s' b', exec m s (b ++ rest) = some ((.error e, s'), b')

section
variable {σ α β : Type} {m : P σ α} {k : α → P σ β} {s : σ} {e : Exc}

theorem Raises.now {b : Bytes} : Raises (P.raise e : P σ α) s b e := fun _ => ⟨_, _, rfl⟩

theorem Raises.first {b c : Bytes} (h : Raises m s b e) : Raises (m >>= k) s (b ++ c) e := by
  intro rest
  obtain ⟨s', b', h⟩ := h (c ++ rest)
  exact ⟨s', b', by rw [exec_bind, List.append_assoc, h, Res.andThen_error]⟩

theorem Raises.after {b c : Bytes} {a : α} {s1 : σ} (h : Decodes m s b a s1)
    (h2 : Raises (k a) s1 c e) : Raises (m >>= k) s (b ++ c) e := by
  intro rest
  obtain ⟨s', b', h2⟩ := h2 rest
  exact ⟨s', b', by rw [exec_bind, List.append_assoc, h.1, Res.andThen_ok, h2]⟩

theorem Raises.tryFinally {b : Bytes} {f : σ → σ} (h : Raises m s b e) :
    Raises (P.tryFinally m f) s b e := by
  intro rest
  obtain ⟨s', b', h⟩ := h rest
  exact ⟨f s', b', by rw [exec_tryFinally, h]; rfl⟩
end

section
variable {σ : Type} [HasDepth σ] {L : Lang} {rd : RdOps σ} {R : σ → L.Q → Prop}
  {text : Bytes → Prop}

/-- The bytes of the tokens `ts` make `m` raise `e`. -/
def RaisesOn (L : Lang) {α : Type} (m : P σ α) (s : σ) (q : L.Q) (ts : List Tok) (e : Exc) : Prop :=
  Raises m s (L.enc q ts) e

omit [HasDepth σ] in
theorem RaisesOn.first {α β : Type} {m : P σ α} {k : α → P σ β} {s : σ} {q : L.Q} {xs ys : List Tok}
    {e : Exc} (h : RaisesOn L m s q xs e) : RaisesOn L (m >>= k) s q (xs ++ ys) e := by
  unfold RaisesOn
  rw [Lang.enc_append]
  exact Raises.first h

theorem RaisesOn.after {α β : Type} {m : P σ α} {k : α → P σ β} {s : σ} {q : L.Q} {xs ys : List Tok}
    {a : α} {e : Exc} (hm : ReadsTo (decRel σ) L R m s q xs a)
    (hk : ∀ s', R s' (L.steps q xs) → HasDepth.depth s' = HasDepth.depth s →
      RaisesOn L (k a) s' (L.steps q xs) ys e) : RaisesOn L (m >>= k) s q (xs ++ ys) e := by
  obtain ⟨s1, e1, r1, d1⟩ := hm
  unfold RaisesOn
  rw [Lang.enc_append]
  exact Raises.after e1 (hk s1 r1 d1)

omit [HasDepth σ] in
theorem RaisesOn.mono {α : Type} {m : P σ α} {s : σ} {q : L.Q} {xs ys : List Tok}
    {e : Exc} (h : RaisesOn L m s q xs e) : RaisesOn L m s q (xs ++ ys) e := by
  unfold RaisesOn
  rw [Lang.enc_append]
  intro rest
  obtain ⟨s', b', h⟩ := h (L.enc (L.steps q xs) ys ++ rest)
  exact ⟨s', b', by rw [List.append_assoc, h]⟩

/-- `increment_recursion_depth` at the limit. -/
theorem bracket_full {α : Type} {m : P σ α} {s : σ} {b : Bytes} (h : 64 ≤ HasDepth.depth s) :
    Raises (do incDepth; P.tryFinally m decDepth) s b TProtocolException.DEPTH_LIMIT := by
  intro rest
  refine ⟨HasDepth.setDepth (HasDepth.depth s + 1 - 1) s, b ++ rest, ?_⟩
  rw [exec_bind]
  unfold incDepth
  rw [exec_bind, exec_modify, Res.andThen_ok, exec_bind, exec_get, Res.andThen_ok, HasDepth.depth_set,
    if_pos (by unfold recursionLimit; omega), exec_bind, exec_modify, Res.andThen_ok, exec_raise,
    Res.andThen_error, HasDepth.depth_set, HasDepth.set_set]

theorem bracket_raises (H : ReaderLaws (decRel σ) L rd R text) {α : Type} {m : P σ α} {s : σ} {q : L.Q}
    {ts : List Tok} {e : Exc} (hd : HasDepth.depth s < 64) (hR : R s q)
    (hm : ∀ s', R s' q → HasDepth.depth s' = HasDepth.depth s + 1 → RaisesOn L m s' q ts e) :
    RaisesOn L (do incDepth; P.tryFinally m decDepth) s q ts e := by
  have h := hm (HasDepth.setDepth (HasDepth.depth s + 1) s) (H.depth _ _ _ hR) (HasDepth.depth_set _ _)
  have := Raises.after (k := fun _ => P.tryFinally m decDepth) (incDepth_holds (D := decRel σ) hd)
    (Raises.tryFinally h)
  exact this

variable (sch : Schema)

/-! ### skip -/

mutual
theorem skip_deep (H : ReaderLaws (decRel σ) L rd R text) : (v : Val) → (t : Ty) → (fuel d : Nat) →
    (s : σ) → (q : L.Q) → WT sch t v → L.Ok q (toks sch t v) → R s q → d < nesting v →
    size v ≤ fuel → BinariesAreText text v →
    RaisesOn L (skip rd fuel d t.ttype) s q (toks sch t v) TProtocolException.DEPTH_LIMIT := by
  intro v t fuel d s q hwt hok hR hd hf ht
  cases d with
  | zero => rw [skip]; exact Raises.now
  | succ d =>
  cases v with
  | list vs =>
    cases t <;> simp only [WT] at hwt
    case list e =>
    simp only [toks, Lang.Ok_cons, Lang.Ok_append] at hok ⊢
    rw [skip]
    simp only [Ty.ttype, TType.BOOL, TType.BYTE, TType.I16, TType.I32, TType.I64,
        TType.DOUBLE, TType.STRING, TType.STRUCT, TType.MAP, TType.SET, TType.LIST, TType.UUID,
        if_true, Int.reduceEq, if_false]
    simp only [nesting] at hd
    simp only [size] at hf
    simp only [BinariesAreText] at ht
    refine RaisesOn.after (xs := [_]) (H.listBegin s q _ _ hR hok.1) fun s1 r1 d1 => ?_
    simp only [Int.toNat_natCast]
    exact RaisesOn.first (skipElems_deep H vs e fuel d s1 _ hwt.2 hok.2.1 r1 (by omega) (by omega) ht)
  | set vs =>
    cases t <;> simp only [WT] at hwt
    case set e =>
    simp only [toks, Lang.Ok_cons, Lang.Ok_append] at hok ⊢
    rw [skip]
    simp only [Ty.ttype, TType.BOOL, TType.BYTE, TType.I16, TType.I32, TType.I64,
        TType.DOUBLE, TType.STRING, TType.STRUCT, TType.MAP, TType.SET, TType.LIST, TType.UUID,
        if_true, Int.reduceEq, if_false]
    simp only [nesting] at hd
    simp only [size] at hf
    simp only [BinariesAreText] at ht
    refine RaisesOn.after (xs := [_]) (H.setBegin s q _ _ hR hok.1) fun s1 r1 d1 => ?_
    simp only [Int.toNat_natCast]
    exact RaisesOn.first (skipElems_deep H vs e fuel d s1 _ hwt.2.2 hok.2.1 r1 (by omega) (by omega) ht)
  | map kvs =>
    cases t <;> simp only [WT] at hwt
    case map k v =>
    simp only [toks, Lang.Ok_cons, Lang.Ok_append] at hok ⊢
    rw [skip]
    simp only [Ty.ttype, TType.BOOL, TType.BYTE, TType.I16, TType.I32, TType.I64,
        TType.DOUBLE, TType.STRING, TType.STRUCT, TType.MAP, TType.SET, TType.LIST, TType.UUID,
        if_true, Int.reduceEq, if_false]
    simp only [nesting] at hd
    simp only [size] at hf
    simp only [BinariesAreText] at ht
    obtain ⟨k', v', hb, hkv⟩ := H.mapBegin s q _ _ _ hR hok.1
    refine RaisesOn.after (xs := [_]) hb fun s1 r1 d1 => ?_
    simp only [Int.toNat_natCast]
    have hkv : kvs ≠ [] → k' = k.ttype ∧ v' = v.ttype := fun h =>
      hkv (List.length_pos_iff.mpr h)
    exact RaisesOn.first (skipPairs_deep H kvs k v k' v' fuel d s1 _ hwt.2.2 hok.2.1 r1 (by omega)
      (by omega) ht hkv)
  | struct as =>
    cases t <;> simp only [WT] at hwt
    case struct sid =>
    simp only [toks, Lang.Ok_cons, Lang.Ok_append] at hok ⊢
    rw [skip]
    simp only [Ty.ttype, TType.BOOL, TType.BYTE, TType.I16, TType.I32, TType.I64,
        TType.DOUBLE, TType.STRING, TType.STRUCT, TType.MAP, TType.SET, TType.LIST, TType.UUID,
        if_true, Int.reduceEq, if_false]
    simp only [nesting] at hd
    simp only [size] at hf
    simp only [BinariesAreText] at ht
    refine RaisesOn.after (xs := [_]) (H.structBegin s q hR hok.1) fun s1 r1 d1 => ?_
    exact RaisesOn.first (skipFields_deep H as (sch sid) fuel fuel d s1 _ hwt hok.2.1 r1 (by omega)
      (by omega) (by omega) ht)
  | _ => simp only [nesting] at hd; omega
theorem skipElems_deep (H : ReaderLaws (decRel σ) L rd R text) : (vs : List Val) → (e : Ty) →
    (fuel d : Nat) → (s : σ) → (q : L.Q) → WTs sch e vs → L.Ok q (toksE sch e vs) → R s q →
    d < nestings vs → sizes vs ≤ fuel → BinariesAreTexts text vs →
    RaisesOn L (P.repeatN_ vs.length (skip rd fuel d e.ttype)) s q (toksE sch e vs)
      TProtocolException.DEPTH_LIMIT := by
  intro vs e fuel d s q hwt hok hR hd hf ht
  cases vs with
  | nil => simp only [nestings] at hd; omega
  | cons v vs =>
    simp only [WTs] at hwt
    simp only [toksE, Lang.Ok_append] at hok ⊢
    simp only [nestings] at hd
    simp only [sizes] at hf
    simp only [BinariesAreTexts] at ht
    by_cases h : d < nesting v
    · exact RaisesOn.first (m := skip rd fuel d e.ttype)
        (k := fun _ => P.repeatN_ vs.length (skip rd fuel d e.ttype))
        (skip_deep H v e fuel d s q hwt.1 hok.1 hR h (by omega) ht.1)
    · refine RaisesOn.after (m := skip rd fuel d e.ttype)
        (k := fun _ => P.repeatN_ vs.length (skip rd fuel d e.ttype))
        (skip_ok sch H v e fuel d s q hwt.1 hok.1 hR (by omega) (by omega) ht.1) fun s1 r1 d1 => ?_
      exact skipElems_deep H vs e fuel d s1 _ hwt.2 hok.2 r1 (by omega) (by omega) ht.2
theorem skipPairs_deep (H : ReaderLaws (decRel σ) L rd R text) : (kvs : List (Val × Val)) →
    (k v : Ty) → (k' v' : Int) → (fuel d : Nat) → (s : σ) → (q : L.Q) → WTp sch k v kvs →
    L.Ok q (toksP sch k v kvs) → R s q → d < nestingp kvs → sizep kvs ≤ fuel →
    BinariesAreTextp text kvs → (kvs ≠ [] → k' = k.ttype ∧ v' = v.ttype) →
    RaisesOn L (P.repeatN_ kvs.length (do skip rd fuel d k'; skip rd fuel d v')) s q
      (toksP sch k v kvs) TProtocolException.DEPTH_LIMIT := by
  intro kvs k v k' v' fuel d s q hwt hok hR hd hf ht hkv
  match kvs with
  | [] => simp only [nestingp] at hd; omega
  | (a, b) :: kvs =>
    obtain ⟨rfl, rfl⟩ := hkv (by simp)
    simp only [WTp] at hwt
    simp only [toksP, Lang.Ok_append] at hok ⊢
    simp only [nestingp] at hd
    simp only [sizep] at hf
    simp only [BinariesAreTextp] at ht
    by_cases ha : d < nesting a
    · exact RaisesOn.first (m := do skip rd fuel d k.ttype; skip rd fuel d v.ttype)
        (k := fun _ => P.repeatN_ kvs.length (do skip rd fuel d k.ttype; skip rd fuel d v.ttype))
        (xs := toks sch k a) (by
          have := RaisesOn.first (k := fun _ => skip rd fuel d v.ttype) (ys := [])
            (skip_deep H a k fuel d s q hwt.1 hok.1 hR ha (by omega) ht.1)
          rwa [List.append_nil] at this)
    · by_cases hb : d < nesting b
      · rw [← List.append_assoc]
        refine RaisesOn.first (m := do skip rd fuel d k.ttype; skip rd fuel d v.ttype)
          (k := fun _ => P.repeatN_ kvs.length (do skip rd fuel d k.ttype; skip rd fuel d v.ttype)) ?_
        refine RaisesOn.after
          (skip_ok sch H a k fuel d s q hwt.1 hok.1 hR (by omega) (by omega) ht.1) fun s1 r1 d1 => ?_
        exact skip_deep H b v fuel d s1 _ hwt.2.1 hok.2.1 r1 hb (by omega) ht.2.1
      · rw [← List.append_assoc]
        refine RaisesOn.after (m := do skip rd fuel d k.ttype; skip rd fuel d v.ttype) (a := ())
          (k := fun _ => P.repeatN_ kvs.length (do skip rd fuel d k.ttype; skip rd fuel d v.ttype)) (R := R)
          ?_ fun s1 r1 d1 => ?_
        · refine ReadsTo.seq (skip_ok sch H a k fuel d s q hwt.1 hok.1 hR (by omega) (by omega) ht.1)
            fun s1 r1 d1 => ?_
          exact skip_ok sch H b v fuel d s1 _ hwt.2.1 hok.2.1 r1 (by omega) (by omega) ht.2.1
        · simp only [Lang.steps_append] at r1 ⊢
          exact skipPairs_deep H kvs k v _ _ fuel d s1 _ hwt.2.2 hok.2.2 r1 (by omega) (by omega) ht.2.2
            (fun _ => ⟨rfl, rfl⟩)
theorem skipFields_deep (H : ReaderLaws (decRel σ) L rd R text) : (as : List (Option Val)) →
    (fs : List Field) → (loop fuel d : Nat) → (s : σ) → (q : L.Q) → WTf sch fs as →
    L.Ok q (toksF sch fs as) → R s q → d < nestingf as →
    sizef as + 1 ≤ loop → sizef as ≤ fuel → BinariesAreTextf text as →
    RaisesOn L (P.whileTrue loop (skipStructBody rd (skip rd fuel d)) ()) s q
      (toksF sch fs as) TProtocolException.DEPTH_LIMIT := by
  intro as fs loop fuel d s q hwt hok hR hd hl hf ht
  cases loop with
  | zero => omega
  | succ loop =>
  match as with
  | [] => simp only [nestingf] at hd; omega
  | none :: as =>
    cases fs with
    | nil => simp only [WTf] at hwt
    | cons f fs =>
      simp only [WTf] at hwt
      simp only [toksF] at hok ⊢
      simp only [nestingf] at hd
      simp only [sizef] at hl hf
      simp only [BinariesAreTextf] at ht
      exact skipFields_deep H as fs (loop + 1) fuel d s q hwt.2 hok hR hd (by omega) (by omega) ht
  | some v :: as =>
    cases fs with
    | nil => simp only [WTf] at hwt
    | cons f fs =>
      simp only [WTf] at hwt
      simp only [toksF, Lang.Ok_append, Lang.Ok_cons] at hok ⊢
      simp only [nestingf] at hd
      simp only [sizef] at hl hf
      simp only [BinariesAreTextf] at ht
      by_cases hv : d < nesting v
      · -- this field is too deep
        have hz : d = 0 ∨ f.ty ≠ .bool := by
          by_cases hb : f.ty = .bool
          · left
            rw [hb] at hwt
            cases v <;> simp only [WT, false_and] at hwt
            simp only [nesting] at hv
            omega
          · exact .inr hb
        refine RaisesOn.first (m := skipStructBody rd (skip rd fuel d) ()) ?_
        unfold skipStructBody
        by_cases hb : f.ty = .bool
        · obtain rfl : d = 0 := by
            rcases hz with h | h
            · exact h
            · exact absurd hb h
          rw [hb] at hwt hok ⊢
          cases v <;> simp only [WT, false_and] at hwt
          rename_i b
          simp only [toksField, Lang.Ok_cons] at hok ⊢
          obtain ⟨b1, b2, s1, s2, eb, h1, h2, -, -⟩ := H.boolField s q f.fid b hR hok.1.1
          unfold RaisesOn
          simp only [Lang.enc_cons, Lang.enc_nil, List.append_nil, eb]
          refine Raises.after h1 ?_
          simp only
          rw [if_neg (by decide)]
          intro rest
          refine ⟨s1, b2 ++ rest, ?_⟩
          rw [exec_bind, skip, exec_raise, Res.andThen_error]
        · rw [toksField_ne_bool hb] at hok ⊢
          simp only [Lang.Ok_cons] at hok
          refine RaisesOn.after (xs := [_]) (H.fieldBegin s q _ _ hR hok.1.1) fun s1 r1 d1 => ?_
          simp only
          rw [if_neg (ttype_ne_stop _)]
          have := RaisesOn.first (k := fun _ => do
              rd.readFieldEnd
              pure (Sum.inl () : Unit ⊕ Unit)) (ys := [])
            (skip_deep H v f.ty fuel d s1 _ hwt.1 hok.1.2 r1 hv (by omega) ht.1)
          rwa [List.append_nil] at this
      · rw [show toksField f.fid (toks sch f.ty v) f.ty v ++ Tok.fieldEnd :: toksF sch fs as
          = (toksField f.fid (toks sch f.ty v) f.ty v ++ [Tok.fieldEnd]) ++ toksF sch fs as by simp]
        refine RaisesOn.after (m := skipStructBody rd (skip rd fuel d) ()) (a := .inl ()) (R := R)
          ?_ fun s1 r1 d1 => ?_
        · refine ReadsTo.field sch H (k := fun x => _) hwt.1 hok.1 hR ?_ ?_
          · rintro b s1 s2 b2 q' htb rfl hb r2 d2 rfl
            obtain ⟨s3, h3, r3, d3⟩ := H.fieldEnd s2 _ r2 hok.2.1
            refine ⟨s3, ?_, r3, by omega⟩
            simp only
            rw [if_neg (by decide)]
            cases d with
            | zero => simp only [nesting] at hv; omega
            | succ d =>
            rw [skipBool]
            have h1 := (decRel σ).bind (k := fun _ => Pure.pure ()) hb ((decRel σ).pure () s2)
            have h2 := (decRel σ).bind (c := (Sum.inl () : Unit ⊕ Unit))
              (k := fun _ => rd.readFieldEnd >>= fun _ => pure (Sum.inl ())) h1
              ((decRel σ).bind h3 ((decRel σ).pure (Sum.inl ()) s3))
            simpa using h2
          · intro s1 q' hnb r1 d1 ho e
            simp only
            rw [if_neg (ttype_ne_stop _)]
            refine ReadsTo.seq (skip_ok sch H v f.ty fuel d s1 q' hwt.1 ho r1 (by omega) (by omega) ht.1)
              fun s2 r2 d2 => ?_
            exact ReadsTo.map (H.fieldEnd s2 _ r2 (by rw [e]; exact hok.2.1)) rfl
        · simp only [Lang.steps_append, Lang.steps_cons, Lang.steps_nil] at r1 ⊢
          exact skipFields_deep H as fs loop fuel d s1 _ hwt.2 hok.2.2 r1 (by omega) (by omega)
            (by omega) ht.2
end

/-! ### Generated readers -/

variable (hs : SchemaOK .gen sch)

/-- The loop of the struct reader on a field of the schema. -/
theorem readField_step (H : ReaderLaws (decRel σ) L rd R text) {fs : List Field} {f : Field} {v : Val}
    (hgs : FieldsOK fs) (hf : f ∈ fs) {s : σ} {q : L.Q} {fuel : Nat} (attrs : List (Option Val))
    (hwt : WT sch f.ty v) (hok : L.Ok q (toksField f.fid (toks sch f.ty v) f.ty v ++ [.fieldEnd]))
    (hR : R s q) {skipF : Int → P σ Unit}
    (hv : ∀ s1 q', f.ty ≠ .bool → R s1 q' → HasDepth.depth s1 = HasDepth.depth s →
      L.Ok q' (toks sch f.ty v) →
      ∃ w, ReadsTo (decRel σ) L R (readVal rd sch .gen fuel f.ty) s1 q' (toks sch f.ty v) w) :
    ∃ a', ReadsTo (decRel σ) L R
      (readStructBody rd .gen fs (readVal rd sch .gen fuel) skipF attrs) s q
      (toksField f.fid (toks sch f.ty v) f.ty v ++ [.fieldEnd]) (.inl a') := by
  have hlk : lookupField .gen fs f.fid = fs.findIdx? (fun g => g.fid == f.fid) :=
    lookupField_eq hgs (fun h => by cases h)
  obtain ⟨i, hi, hgi⟩ : ∃ i, fs.findIdx? (fun g => g.fid == f.fid) = some i ∧ fs[i]? = some f := by
    cases hfi : fs.findIdx? (fun g => g.fid == f.fid) with
    | none =>
      rw [List.findIdx?_eq_none_iff] at hfi
      have := hfi f hf
      simp at this
    | some i =>
      obtain ⟨g, hg, hgf⟩ := findIdx_some hfi
      refine ⟨i, rfl, ?_⟩
      rw [hg, eq_of_fid hgs.1 (List.mem_of_getElem? hg) hf hgf]
  simp only [Lang.Ok_append, Lang.Ok_cons] at hok
  by_cases hb : f.ty = .bool
  · have hwt' := hwt
    rw [hb] at hwt'
    cases v <;> simp only [WT] at hwt'
    rename_i b
    refine ⟨attrs.set i (some (.bool b)), ?_⟩
    refine ReadsTo.field sch H (k := fun x => _) hwt hok.1 hR ?_ ?_
    · rintro b' s1 s2 b2 q' htb hbb hb r2 d2 rfl
      cases hbb
      obtain ⟨s3, h3, r3, d3⟩ := H.fieldEnd s2 _ r2 hok.2.1
      refine ⟨s3, ?_, r3, by omega⟩
      simp only
      rw [if_neg (by decide), hlk, hi]
      simp only [hgi, htb]
      rw [if_pos (by rfl)]
      rw [readVal]
      have e1 := (decRel σ).bind (k := fun b => Pure.pure (Val.bool b)) hb ((decRel σ).pure (Val.bool b) s2)
      have e2 := (decRel σ).bind (c := (Sum.inl (attrs.set i (some (Val.bool b))) :
            List (Option Val) ⊕ List (Option Val)))
        (k := fun v => rd.readFieldEnd >>= fun _ =>
          Pure.pure (Sum.inl (attrs.set i (some v)))) e1
        ((decRel σ).bind h3 ((decRel σ).pure _ s3))
      rw [htb] at e2
      simpa using e2
    · intro s1 q' hnb
      exact absurd hb hnb
  · rw [toksField_ne_bool hb] at hok ⊢
    simp only [Lang.Ok_cons] at hok
    obtain ⟨s1, e1, r1, d1⟩ := H.fieldBegin s q _ _ hR hok.1.1
    obtain ⟨w, hw⟩ := hv s1 _ hb r1 d1 hok.1.2
    refine ⟨attrs.set i (some w), ?_⟩
    obtain ⟨s2, e2, r2, d2⟩ := hw
    simp only [Lang.steps_cons, Lang.steps_nil] at r1 r2 e2 hok
    obtain ⟨s3, e3, r3, d3⟩ := H.fieldEnd s2 _ r2 hok.2.1
    refine ⟨s3, ?_, by simpa using r3, by omega⟩
    simp only [List.cons_append, Lang.enc_cons, Lang.enc_append]
    rw [show L.bytes q (Tok.fieldBegin f.ty.ttype f.fid) = L.enc q [Tok.fieldBegin f.ty.ttype f.fid] by simp]
    refine (decRel σ).bind e1 ?_
    simp only
    rw [if_neg (ttype_ne_stop _), hlk, hi]
    simp only [hgi]
    rw [if_pos trivial]
    refine (decRel σ).bind e2 ?_
    have := (decRel σ).bind (k := fun _ => Pure.pure (Sum.inl (attrs.set i (some w)) :
            List (Option Val) ⊕ List (Option Val))) e3 ((decRel σ).pure _ s3)
    simpa using this

include hs in
mutual
theorem read_deep (H : ReaderLaws (decRel σ) L rd R text) : (v : Val) → (t : Ty) → (fuel : Nat) →
    (s : σ) → (q : L.Q) → WT sch t v → L.Ok q (toks sch t v) → R s q →
    HasDepth.depth s ≤ 64 → 64 < HasDepth.depth s + structDepth v → size v ≤ fuel →
    RaisesOn L (readVal rd sch .gen fuel t) s q (toks sch t v) TProtocolException.DEPTH_LIMIT := by
  intro v t fuel s q hwt hok hR h64 hd hf
  cases fuel with
  | zero => cases v <;> simp only [size] at hf <;> omega
  | succ fuel =>
  cases v with
  | list vs =>
    cases t <;> simp only [WT] at hwt
    case list e =>
    simp only [toks, Lang.Ok_cons, Lang.Ok_append] at hok ⊢
    rw [readVal]
    simp only [structDepth] at hd
    simp only [size] at hf
    refine RaisesOn.after (xs := [_]) (H.listBegin s q _ _ hR hok.1) fun s1 r1 d1 => ?_
    simp only [Int.toNat_natCast]
    exact RaisesOn.first (readElems_deep H vs e fuel s1 _ (readVal rd sch .gen fuel e)
      (fun _ _ h => h) (fun _ _ v h => ⟨v, h⟩) hwt.2 hok.2.1 r1 (by omega) (by omega) (by omega))
  | set vs =>
    cases t <;> simp only [WT] at hwt
    case set e =>
    simp only [toks, Lang.Ok_cons, Lang.Ok_append] at hok ⊢
    rw [readVal]
    simp only [structDepth] at hd
    simp only [size] at hf
    refine RaisesOn.after (xs := [_]) (H.setBegin s q _ _ hR hok.1) fun s1 r1 d1 => ?_
    simp only [Int.toNat_natCast]
    refine RaisesOn.first (readElems_deep H vs e fuel s1 _ (readHashed (readVal rd sch .gen fuel) e)
      ?_ ?_ hwt.2.2 hok.2.1 r1 (by omega) (by omega) (by omega))
    · intro s ts h
      have := RaisesOn.first (k := fun v => if e.hashable then pure v else P.raise .typeError)
        (ys := []) h
      rwa [List.append_nil] at this
    · intro s ts v h
      exact ⟨v, ReadsTo.map h (by simp [hwt.2.1])⟩
  | map kvs =>
    cases t <;> simp only [WT] at hwt
    case map k v =>
    simp only [toks, Lang.Ok_cons, Lang.Ok_append] at hok ⊢
    rw [readVal]
    simp only [structDepth] at hd
    simp only [size] at hf
    obtain ⟨k', v', hb, hkv⟩ := H.mapBegin s q _ _ _ hR hok.1
    refine RaisesOn.after (xs := [_]) hb fun s1 r1 d1 => ?_
    simp only [Int.toNat_natCast]
    exact RaisesOn.first (readPairs_deep H kvs k v fuel s1 _ hwt.2.1 hwt.2.2 hok.2.1 r1 (by omega)
      (by omega) (by omega))
  | struct as =>
    cases t <;> simp only [WT] at hwt
    case struct sid =>
    simp only [toks, Lang.Ok_cons, Lang.Ok_append] at hok ⊢
    rw [readVal]
    simp only [structDepth] at hd
    simp only [size] at hf
    by_cases hfull : 64 ≤ HasDepth.depth s
    · exact bracket_full hfull
    · refine bracket_raises H (by omega) hR fun s' hR' hd' => ?_
      refine RaisesOn.after (xs := [_]) (H.structBegin s' q hR' hok.1) fun s1 r1 d1 => ?_
      exact RaisesOn.first (readFields_deep H as (sch sid) (sch sid) fuel fuel _ s1 _ hwt hok.2.1 r1
        (fun f hf => hf) (hs sid).1 (by omega) (by omega) (by omega) (by omega))
  | _ => simp only [structDepth] at hd; omega
theorem readElems_deep (H : ReaderLaws (decRel σ) L rd R text) : (vs : List Val) → (e : Ty) →
    (fuel : Nat) → (s : σ) → (q : L.Q) → (m : P σ Val) →
    (∀ (s : σ) (x : L.Q × List Tok), RaisesOn L (readVal rd sch .gen fuel e) s x.1 x.2
      TProtocolException.DEPTH_LIMIT → RaisesOn L m s x.1 x.2 TProtocolException.DEPTH_LIMIT) →
    (∀ (s : σ) (x : L.Q × List Tok) v, ReadsTo (decRel σ) L R (readVal rd sch .gen fuel e) s x.1 x.2 v →
      ∃ w, ReadsTo (decRel σ) L R m s x.1 x.2 w) →
    WTs sch e vs → L.Ok q (toksE sch e vs) → R s q →
    HasDepth.depth s ≤ 64 → 64 < HasDepth.depth s + structDepths vs → sizes vs ≤ fuel →
    RaisesOn L (P.repeatN vs.length m) s q (toksE sch e vs) TProtocolException.DEPTH_LIMIT := by
  intro vs e fuel s q m hm1 hm2 hwt hok hR h64 hd hf
  cases vs with
  | nil => simp only [structDepths] at hd; omega
  | cons v vs =>
    simp only [WTs] at hwt
    simp only [toksE, Lang.Ok_append] at hok ⊢
    simp only [structDepths] at hd
    simp only [sizes] at hf
    by_cases h : 64 < HasDepth.depth s + structDepth v
    · exact RaisesOn.first (m := m)
        (hm1 s (q, _) (read_deep H v e fuel s q hwt.1 hok.1 hR h64 h (by omega)))
    · obtain ⟨w, hw⟩ := hm2 s (q, _) _ (read_ok sch sch .gen H hs hs (compatible_self hs) v e fuel s q hwt.1
        hok.1 hR (by omega) (fun _ => by omega) (Unknowns_self _ sch v e))
      refine RaisesOn.after (m := m) hw fun s1 r1 d1 => ?_
      have := RaisesOn.first (k := fun as => P.pure (w :: as)) (ys := [])
        (readElems_deep H vs e fuel s1 _ m hm1 hm2 hwt.2 hok.2 r1 (by omega) (by omega) (by omega))
      rwa [List.append_nil] at this
theorem readPairs_deep (H : ReaderLaws (decRel σ) L rd R text) : (kvs : List (Val × Val)) →
    (k v : Ty) → (fuel : Nat) → (s : σ) → (q : L.Q) → k.hashable = true → WTp sch k v kvs →
    L.Ok q (toksP sch k v kvs) → R s q →
    HasDepth.depth s ≤ 64 → 64 < HasDepth.depth s + structDepthp kvs → sizep kvs ≤ fuel →
    RaisesOn L (P.repeatN kvs.length (readPair (readVal rd sch .gen fuel) k v)) s q
      (toksP sch k v kvs) TProtocolException.DEPTH_LIMIT := by
  intro kvs k v fuel s q hk hwt hok hR h64 hd hf
  match kvs with
  | [] => simp only [structDepthp] at hd; omega
  | (a, b) :: kvs =>
    simp only [WTp] at hwt
    simp only [toksP, Lang.Ok_append] at hok ⊢
    simp only [structDepthp] at hd
    simp only [sizep] at hf
    by_cases ha : 64 < HasDepth.depth s + structDepth a
    · refine RaisesOn.first (m := readPair (readVal rd sch .gen fuel) k v) (xs := toks sch k a) ?_
      have := RaisesOn.first (k := fun a => do
          let b ← readVal rd sch .gen fuel v
          if k.hashable then pure (a, b) else P.raise .typeError) (ys := [])
        (read_deep H a k fuel s q hwt.1 hok.1 hR h64 ha (by omega))
      rwa [List.append_nil] at this
    · have hra := read_ok sch sch .gen H hs hs (compatible_self hs) a k fuel s q hwt.1
        hok.1 hR (by omega) (fun _ => by omega) (Unknowns_self _ sch a k)
      by_cases hb : 64 < HasDepth.depth s + structDepth b
      · rw [← List.append_assoc]
        refine RaisesOn.first (m := readPair (readVal rd sch .gen fuel) k v) ?_
        refine RaisesOn.after hra fun s1 r1 d1 => ?_
        have := RaisesOn.first (k := fun b => if k.hashable then
            (pure (project sch sch k a, b) : P σ (Val × Val)) else P.raise .typeError) (ys := [])
          (read_deep H b v fuel s1 _ hwt.2.1 hok.2.1 r1 (by omega) (by omega) (by omega))
        rwa [List.append_nil] at this
      · rw [← List.append_assoc]
        refine RaisesOn.after (m := readPair (readVal rd sch .gen fuel) k v)
          (a := (project sch sch k a, project sch sch v b)) (R := R) ?_ fun s1 r1 d1 => ?_
        · refine ReadsTo.seq hra fun s1 r1 d1 => ?_
          exact ReadsTo.map (read_ok sch sch .gen H hs hs (compatible_self hs) b v fuel s1 _ hwt.2.1
            hok.2.1 r1 (by omega) (fun _ => by omega) (Unknowns_self _ sch b v)) (by simp [hk])
        · simp only [Lang.steps_append] at r1 ⊢
          have := RaisesOn.first (k := fun as => P.pure ((project sch sch k a, project sch sch v b) :: as))
            (ys := [])
            (readPairs_deep H kvs k v fuel s1 _ hk hwt.2.2 hok.2.2 r1 (by omega) (by omega) (by omega))
          rwa [List.append_nil] at this
theorem readFields_deep (H : ReaderLaws (decRel σ) L rd R text) : (as : List (Option Val)) →
    (fs gs : List Field) → (loop fuel : Nat) → (attrs : List (Option Val)) → (s : σ) → (q : L.Q) →
    WTf sch fs as → L.Ok q (toksF sch fs as) → R s q → (∀ f ∈ fs, f ∈ gs) → FieldsOK gs →
    HasDepth.depth s ≤ 64 → 64 < HasDepth.depth s + structDepthf as →
    sizef as + 1 ≤ loop → sizef as ≤ fuel →
    RaisesOn L (P.whileTrue loop (readStructBody rd .gen gs (readVal rd sch .gen fuel)
      (skip rd fuel skipDepth)) attrs) s q (toksF sch fs as) TProtocolException.DEPTH_LIMIT := by
  intro as fs gs loop fuel attrs s q hwt hok hR hfg hgs h64 hd hl hf
  cases loop with
  | zero => omega
  | succ loop =>
  match as with
  | [] => simp only [structDepthf] at hd; omega
  | none :: as =>
    cases fs with
    | nil => simp only [WTf] at hwt
    | cons f fs =>
      simp only [WTf] at hwt
      simp only [toksF] at hok ⊢
      simp only [structDepthf] at hd
      simp only [sizef] at hl hf
      exact readFields_deep H as fs gs (loop + 1) fuel attrs s q hwt.2 hok hR
        (fun g hg => hfg g (by simp [hg])) hgs h64 hd (by omega) (by omega)
  | some v :: as =>
    cases fs with
    | nil => simp only [WTf] at hwt
    | cons f fs =>
      simp only [WTf] at hwt
      simp only [toksF, Lang.Ok_append, Lang.Ok_cons] at hok ⊢
      simp only [structDepthf] at hd
      simp only [sizef] at hl hf
      by_cases hv : 64 < HasDepth.depth s + structDepth v
      · -- this field is too deep
        have hb : f.ty ≠ .bool := by
          intro hb
          rw [hb] at hwt
          cases v <;> simp only [WT, false_and] at hwt
          simp only [structDepth] at hv
          omega
        refine RaisesOn.first (m := readStructBody rd .gen gs (readVal rd sch .gen fuel)
          (skip rd fuel skipDepth) attrs) ?_
        unfold readStructBody
        rw [toksField_ne_bool hb] at hok ⊢
        simp only [Lang.Ok_cons] at hok
        refine RaisesOn.after (xs := [_]) (H.fieldBegin s q _ _ hR hok.1.1) fun s1 r1 d1 => ?_
        simp only
        rw [if_neg (ttype_ne_stop _)]
        have hlk : lookupField .gen gs f.fid = gs.findIdx? (fun g => g.fid == f.fid) :=
          lookupField_eq hgs (fun h => by cases h)
        obtain ⟨i, hi, hgi⟩ : ∃ i, gs.findIdx? (fun g => g.fid == f.fid) = some i ∧ gs[i]? = some f := by
          cases hfi : gs.findIdx? (fun g => g.fid == f.fid) with
          | none =>
            rw [List.findIdx?_eq_none_iff] at hfi
            have := hfi f (hfg f (by simp))
            simp at this
          | some i =>
            obtain ⟨g, hg, hgf⟩ := findIdx_some hfi
            refine ⟨i, rfl, ?_⟩
            rw [hg, eq_of_fid hgs.1 (List.mem_of_getElem? hg) (hfg f (by simp)) hgf]
        rw [hlk, hi]
        simp only [hgi]
        rw [if_pos trivial]
        have := RaisesOn.first (k := fun v => do
            rd.readFieldEnd
            pure (Sum.inl (attrs.set i (some v)) : List (Option Val) ⊕ List (Option Val))) (ys := [])
          (read_deep H v f.ty fuel s1 _ hwt.1 hok.1.2 r1 (by omega) (by omega) (by omega))
        rwa [List.append_nil] at this
      · rw [show toksField f.fid (toks sch f.ty v) f.ty v ++ Tok.fieldEnd :: toksF sch fs as
          = (toksField f.fid (toks sch f.ty v) f.ty v ++ [Tok.fieldEnd]) ++ toksF sch fs as by simp]
        obtain ⟨a', ha'⟩ := readField_step sch H hgs (hfg f (by simp)) attrs hwt.1 (s := s) (q := q)
          (fuel := fuel) (skipF := skip rd fuel skipDepth)
          (by simp only [Lang.Ok_append, Lang.Ok_cons, Lang.Ok_nil, and_true]; exact ⟨hok.1, hok.2.1⟩) hR
          (fun s1 q' hnb r1 d1 ho => ⟨_, read_ok sch sch .gen H hs hs (compatible_self hs) v f.ty fuel s1 q'
            hwt.1 ho r1 (by omega) (fun _ => by omega) (Unknowns_self _ sch v f.ty)⟩)
        refine RaisesOn.after (m := readStructBody rd .gen gs (readVal rd sch .gen fuel)
          (skip rd fuel skipDepth) attrs) ha' fun s1 r1 d1 => ?_
        simp only [Lang.steps_append, Lang.steps_cons, Lang.steps_nil] at r1 ⊢
        exact readFields_deep H as fs gs loop fuel a' s1 _ hwt.2 hok.2.2 r1
          (fun g hg => hfg g (by simp [hg])) hgs (by omega) (by omega) (by omega) (by omega)
end
end
end Thrift
