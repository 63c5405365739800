import Verif.Proofs.Keys
import Verif.Proofs.TokenRead
/-
Decoding with a (possibly different) schema, from laws about single tokens.
-/

namespace Thrift
open Spec

/-! ### Sets, maps and attributes -/

theorem project_hashable {sch₁ sch₂ : Schema} {e : Ty} (h : e.hashable = true) (v : Val) :
    project sch₁ sch₂ e v = v := by
  cases e <;> simp [Ty.hashable] at h <;> cases v <;> simp [project]

theorem projects_hashable {sch₁ sch₂ : Schema} {e : Ty} (h : e.hashable = true) (vs : List Val) :
    projects sch₁ sch₂ e vs = vs := by
  induction vs with
  | nil => simp [projects]
  | cons v vs ih => simp [projects, ih, project_hashable h]

theorem projectp_keys {sch₁ sch₂ : Schema} {k v : Ty} (h : k.hashable = true)
    (kvs : List (Val × Val)) :
    (projectp sch₁ sch₂ k v kvs).map (·.1) = kvs.map (·.1) := by
  induction kvs with
  | nil => simp [projectp]
  | cons x kvs ih => obtain ⟨a, b⟩ := x; simp [projectp, ih, project_hashable h]

theorem attrOf_append_ne {done : List (Int × Int × Val)} {fid tt : Int} {x : Val} {g : Field}
    (h : ¬ (fid = g.fid ∧ tt = g.ty.ttype)) :
    attrOf (done ++ [(fid, tt, x)]) g = attrOf done g := by
  unfold attrOf
  rw [List.find?_append]
  have : [(fid, tt, x)].find? (fun x => x.1 == g.fid && x.2.1 == g.ty.ttype) = none := by
    rw [List.find?_eq_none]
    intro y hy
    simp only [List.mem_singleton] at hy
    subst hy
    simpa using h
  rw [this]
  simp

theorem attrOf_append_eq {done : List (Int × Int × Val)} {x : Val} {g : Field}
    (h : ∀ y ∈ done, y.1 ≠ g.fid) :
    attrOf (done ++ [(g.fid, g.ty.ttype, x)]) g = some x := by
  unfold attrOf
  rw [List.find?_append]
  have : done.find? (fun x => x.1 == g.fid && x.2.1 == g.ty.ttype) = none := by
    rw [List.find?_eq_none]
    intro y hy
    have := h y hy
    simp [this]
  rw [this]
  simp

theorem attrs_set {gs : List Field} {done : List (Int × Int × Val)} {i : Nat} {g : Field} {x : Val}
    (hg : gs[i]? = some g) (hs : gs.Pairwise (fun f g => f.fid < g.fid))
    (h : ∀ y ∈ done, y.1 ≠ g.fid) :
    (gs.map (attrOf done)).set i (some x)
      = gs.map (attrOf (done ++ [(g.fid, g.ty.ttype, x)])) := by
  apply List.ext_getElem?
  intro j
  rw [List.getElem?_set]
  by_cases hij : i = j
  · subst hij
    have hlt : i < gs.length := by
      rw [List.getElem?_eq_some_iff] at hg; exact hg.1
    simp only [if_true, List.length_map, hlt, List.getElem?_map, hg, Option.map_some]
    rw [attrOf_append_eq h]
  · rw [if_neg hij]
    simp only [List.getElem?_map]
    cases hj : gs[j]? with
    | none => rfl
    | some g' =>
      simp only [Option.map_some]
      rw [attrOf_append_ne]
      rintro ⟨e, _⟩
      have hne : g.fid ≠ g'.fid := by
        rw [List.getElem?_eq_some_iff] at hg hj
        obtain ⟨hi, rfl⟩ := hg
        obtain ⟨hj', rfl⟩ := hj
        rw [List.pairwise_iff_getElem] at hs
        rcases Nat.lt_or_gt_of_ne hij with h | h
        · have := hs i j hi hj' h; omega
        · have := hs j i hj' hi h; omega
      exact hne e

theorem attrs_keep {gs : List Field} {done : List (Int × Int × Val)} {fid tt : Int} {x : Val}
    (h : Known gs fid tt = false) :
    gs.map (attrOf done) = gs.map (attrOf (done ++ [(fid, tt, x)])) := by
  apply List.map_congr_left
  intro g hg
  rw [attrOf_append_ne]
  rintro ⟨rfl, rfl⟩
  unfold Known at h
  rw [List.any_eq_false] at h
  have := h g hg
  simp at this

/-! ### Decoding -/

section
variable {σ : Type} [HasDepth σ] {D : DecRel σ} {L : Lang} {rd : RdOps σ} {R : σ → L.Q → Prop}
  {text : Bytes → Prop}

/-- What a reader can skip: at most 64 levels, strings that are text. -/
def Skippable (text : Bytes → Prop) (v : Val) : Prop := nesting v ≤ 64 ∧ BinariesAreText text v

variable (sch₁ sch₂ : Schema) (mode : Mode)

mutual
theorem read_ok (H : ReaderLaws D L rd R text) (h1 : SchemaOK mode sch₁) (h2 : SchemaOK mode sch₂)
    (hc : Compatible sch₁ sch₂) : (v : Val) → (t : Ty) → (fuel : Nat) → (s : σ) → (q : L.Q) →
    WT sch₁ t v → L.Ok q (toks sch₁ t v) → R s q → size v ≤ fuel →
    (mode = .gen → HasDepth.depth s + structDepth v ≤ 64) →
    Unknowns (Skippable text) sch₁ sch₂ t v →
    ReadsTo D L R (readVal rd sch₂ mode fuel t) s q (toks sch₁ t v) (project sch₁ sch₂ t v) := by
  intro v t fuel s q hwt hok hR hf hd hu
  cases fuel with
  | zero => cases v <;> simp only [size] at hf <;> omega
  | succ fuel =>
  cases v with
  | bool b =>
    cases t <;> simp only [WT] at hwt <;> simp only [toks, Lang.Ok_cons] at hok ⊢ <;>
      rw [readVal, project]
    · exact ReadsTo.map (H.bool s q b hR hok.1) rfl
    all_goals simp
  | int i =>
    cases t <;> simp only [WT] at hwt <;> simp only [toks, Lang.Ok_cons] at hok ⊢ <;>
      rw [readVal, project]
    · exact ReadsTo.map (H.byte s q i hR hok.1) rfl
    any_goals simp
    · exact ReadsTo.map (H.i16 s q i hR hok.1) rfl
    · exact ReadsTo.map (H.i32 s q i hR hok.1) rfl
    · exact ReadsTo.map (H.i64 s q i hR hok.1) rfl
  | double x =>
    cases t <;> simp only [WT] at hwt <;> simp only [toks, Lang.Ok_cons] at hok ⊢ <;>
      rw [readVal, project]
    · exact ReadsTo.map (H.double s q x hR hok.1) rfl
    all_goals simp
  | str x =>
    cases t <;> simp only [WT] at hwt <;> simp only [toks, Lang.Ok_cons] at hok ⊢ <;>
      rw [readVal, project]
    · exact ReadsTo.map (H.str s q x hR hok.1) rfl
    all_goals simp
  | bin x =>
    cases t <;> simp only [WT] at hwt <;> simp only [toks, Lang.Ok_cons] at hok ⊢ <;>
      rw [readVal, project]
    · exact ReadsTo.map (H.bin s q x hR hok.1) rfl
    all_goals simp
  | uuid x =>
    cases t <;> simp only [WT] at hwt <;> simp only [toks, Lang.Ok_cons] at hok ⊢ <;>
      rw [readVal, project]
    · exact ReadsTo.map (H.uuid s q x hR hok.1) rfl
    all_goals simp
  | list vs =>
    cases t <;> simp only [WT] at hwt
    case list e =>
    simp only [toks, Lang.Ok_cons, Lang.Ok_append] at hok ⊢
    rw [readVal, project]
    simp only [size] at hf
    simp only [structDepth] at hd
    simp only [Unknowns] at hu
    refine ReadsTo.seq (xs := [_]) (H.listBegin s q _ _ hR hok.1) fun s1 r1 d1 => ?_
    simp only [Int.toNat_natCast]
    refine ReadsTo.seq (readElems_ok H h1 h2 hc vs e fuel s1 _ hwt.2 hok.2.1 r1 (by omega) ?_ hu)
      fun s2 r2 d2 => ?_
    · intro hm; have := hd hm; omega
    exact ReadsTo.map (H.listEnd s2 _ r2 hok.2.2.1) rfl
  | set vs =>
    cases t <;> simp only [WT] at hwt
    case set e =>
    simp only [toks, Lang.Ok_cons, Lang.Ok_append] at hok ⊢
    rw [readVal, project]
    simp only [size] at hf
    simp only [structDepth] at hd
    simp only [Unknowns] at hu
    refine ReadsTo.seq (xs := [_]) (H.setBegin s q _ _ hR hok.1) fun s1 r1 d1 => ?_
    simp only [Int.toNat_natCast]
    have hrh : readHashed (readVal rd sch₂ mode fuel) e =
        (readVal rd sch₂ mode fuel e >>= fun v => Pure.pure v) := by
      unfold readHashed
      simp [hwt.2.1]
    refine ReadsTo.seq (a := projects sch₁ sch₂ e vs) (xs := toksE sch₁ e vs) ?_ fun s2 r2 d2 => ?_
    · rw [hrh]
      exact readElemsH_ok H h1 h2 hc vs e fuel s1 _ hwt.2.2 hok.2.1 r1 (by omega)
        (by intro hm; have := hd hm; omega) hu
    · refine ReadsTo.map (H.setEnd s2 _ r2 hok.2.2.1) ?_
      rw [pySet_firsts]
  | map kvs =>
    cases t <;> simp only [WT] at hwt
    case map k v =>
    simp only [toks, Lang.Ok_cons, Lang.Ok_append] at hok ⊢
    rw [readVal, project]
    simp only [size] at hf
    simp only [structDepth] at hd
    simp only [Unknowns] at hu
    obtain ⟨k', v', hb, -⟩ := H.mapBegin s q _ _ _ hR hok.1
    refine ReadsTo.seq (xs := [_]) hb fun s1 r1 d1 => ?_
    simp only [Int.toNat_natCast]
    refine ReadsTo.seq (a := projectp sch₁ sch₂ k v kvs) (xs := toksP sch₁ k v kvs) ?_
      fun s2 r2 d2 => ?_
    · exact readPairs_ok H h1 h2 hc kvs k v fuel s1 _ hwt.2.1 hwt.2.2 hok.2.1 r1 (by omega)
        (by intro hm; have := hd hm; omega) hu
    · refine ReadsTo.map (H.mapEnd s2 _ r2 hok.2.2.1) ?_
      rw [pyDict_merged]
  | struct as =>
    cases t <;> simp only [WT] at hwt
    case struct sid =>
    simp only [toks, Lang.Ok_cons, Lang.Ok_append] at hok ⊢
    rw [project]
    simp only [size] at hf
    simp only [structDepth] at hd
    simp only [Unknowns] at hu
    have body : ∀ s', R s' q → (mode = .gen → HasDepth.depth s' + structDepthf as ≤ 64) →
        ReadsTo D L R (readStructCore rd mode fuel (sch₂ sid) (readVal rd sch₂ mode fuel)
          (skip rd fuel skipDepth)) s' q
          (.structBegin :: (toksF sch₁ (sch₁ sid) as ++ [.fieldStop, .structEnd]))
          (.struct ((sch₂ sid).map (attrOf (sentFields sch₁ sch₂ (sch₁ sid) as)))) := by
      intro s' hR' hd'
      rw [show toksF sch₁ (sch₁ sid) as ++ [Tok.fieldStop, Tok.structEnd]
        = (toksF sch₁ (sch₁ sid) as ++ [Tok.fieldStop]) ++ [Tok.structEnd] by simp]
      refine ReadsTo.seq (xs := [_]) (H.structBegin s' q hR' hok.1) fun s1 r1 d1 => ?_
      refine ReadsTo.seq (readFields_ok H h1 h2 hc as (sch₁ sid) (sch₂ sid) [] fuel fuel s1 _ hwt ?_ r1
        (by omega) (by omega) ?_ hu (h2 sid).1 (h1 sid).1.1 (by simp)
        (fun hm => ⟨(h2 sid).2 hm, (h1 sid).2 hm⟩) (hc sid)) fun s2 r2 d2 => ?_
      · simp only [Lang.steps_cons, Lang.steps_nil, Lang.Ok_append, Lang.Ok_cons, Lang.Ok_nil,
          and_true]
        exact ⟨hok.2.1, hok.2.2.1⟩
      · intro hm; have := hd' hm; omega
      · simp only [Lang.steps_append, Lang.steps_cons, Lang.steps_nil] at r2 ⊢
        exact ReadsTo.map (H.structEnd s2 _ r2 hok.2.2.2.1) rfl
    cases hm : mode with
    | gen =>
      subst hm
      have hd := hd rfl
      rw [readVal]
      exact ReadsTo.bracket H (by omega) hR fun s' r d => body s' r (fun _ => by omega)
    | dyn =>
      subst hm
      rw [readVal]
      exact body s hR (fun h => by cases h)
theorem readElems_ok (H : ReaderLaws D L rd R text) (h1 : SchemaOK mode sch₁)
    (h2 : SchemaOK mode sch₂) (hc : Compatible sch₁ sch₂) : (vs : List Val) → (e : Ty) →
    (fuel : Nat) → (s : σ) → (q : L.Q) → WTs sch₁ e vs → L.Ok q (toksE sch₁ e vs) → R s q →
    sizes vs ≤ fuel → (mode = .gen → HasDepth.depth s + structDepths vs ≤ 64) →
    Unknownss (Skippable text) sch₁ sch₂ e vs →
    ReadsTo D L R (P.repeatN vs.length (readVal rd sch₂ mode fuel e)) s q (toksE sch₁ e vs)
      (projects sch₁ sch₂ e vs) := by
  intro vs e fuel s q hwt hok hR hf hd hu
  cases vs with
  | nil => simp only [toksE, projects]; exact ReadsTo.ret [] hR
  | cons v vs =>
    simp only [WTs] at hwt
    simp only [toksE, Lang.Ok_append] at hok ⊢
    simp only [structDepths] at hd
    simp only [sizes] at hf
    simp only [Unknownss] at hu
    simp only [projects]
    refine ReadsTo.seq (read_ok H h1 h2 hc v e fuel s q hwt.1 hok.1 hR (by omega) ?_ hu.1)
      fun s1 r1 d1 => ?_
    · intro hm; have := hd hm; omega
    · exact ReadsTo.map (m := P.repeatN vs.length (readVal rd sch₂ mode fuel e))
        (readElems_ok H h1 h2 hc vs e fuel s1 _ hwt.2 hok.2 r1 (by omega)
        (by intro hm; have := hd hm; omega) hu.2) rfl
theorem readElemsH_ok (H : ReaderLaws D L rd R text) (h1 : SchemaOK mode sch₁)
    (h2 : SchemaOK mode sch₂) (hc : Compatible sch₁ sch₂) : (vs : List Val) → (e : Ty) →
    (fuel : Nat) → (s : σ) → (q : L.Q) → WTs sch₁ e vs → L.Ok q (toksE sch₁ e vs) → R s q →
    sizes vs ≤ fuel → (mode = .gen → HasDepth.depth s + structDepths vs ≤ 64) →
    Unknownss (Skippable text) sch₁ sch₂ e vs →
    ReadsTo D L R (P.repeatN vs.length (readVal rd sch₂ mode fuel e >>= fun v => Pure.pure v)) s q
      (toksE sch₁ e vs) (projects sch₁ sch₂ e vs) := by
  intro vs e fuel s q hwt hok hR hf hd hu
  cases vs with
  | nil => simp only [toksE, projects]; exact ReadsTo.ret [] hR
  | cons v vs =>
    simp only [WTs] at hwt
    simp only [toksE, Lang.Ok_append] at hok ⊢
    simp only [structDepths] at hd
    simp only [sizes] at hf
    simp only [Unknownss] at hu
    simp only [projects]
    refine ReadsTo.seq (ReadsTo.map (read_ok H h1 h2 hc v e fuel s q hwt.1 hok.1 hR (by omega) ?_ hu.1)
      rfl) fun s1 r1 d1 => ?_
    · intro hm; have := hd hm; omega
    · exact ReadsTo.map (m := P.repeatN vs.length (readVal rd sch₂ mode fuel e >>= fun v => Pure.pure v))
        (readElemsH_ok H h1 h2 hc vs e fuel s1 _ hwt.2 hok.2 r1 (by omega)
        (by intro hm; have := hd hm; omega) hu.2) rfl
theorem readPairs_ok (H : ReaderLaws D L rd R text) (h1 : SchemaOK mode sch₁)
    (h2 : SchemaOK mode sch₂) (hc : Compatible sch₁ sch₂) : (kvs : List (Val × Val)) → (k v : Ty) →
    (fuel : Nat) → (s : σ) → (q : L.Q) → k.hashable = true → WTp sch₁ k v kvs →
    L.Ok q (toksP sch₁ k v kvs) → R s q → sizep kvs ≤ fuel →
    (mode = .gen → HasDepth.depth s + structDepthp kvs ≤ 64) →
    Unknownsp (Skippable text) sch₁ sch₂ k v kvs →
    ReadsTo D L R (P.repeatN kvs.length (readPair (readVal rd sch₂ mode fuel) k v)) s q
      (toksP sch₁ k v kvs) (projectp sch₁ sch₂ k v kvs) := by
  intro kvs k v fuel s q hk hwt hok hR hf hd hu
  match kvs with
  | [] => simp only [toksP, projectp]; exact ReadsTo.ret [] hR
  | (a, b) :: kvs =>
    simp only [WTp] at hwt
    simp only [toksP, Lang.Ok_append] at hok ⊢
    simp only [structDepthp] at hd
    simp only [sizep] at hf
    simp only [Unknownsp] at hu
    simp only [projectp]
    rw [← List.append_assoc]
    refine ReadsTo.seq (m := readPair (readVal rd sch₂ mode fuel) k v) (xs := toks sch₁ k a ++ toks sch₁ v b)
      (a := (project sch₁ sch₂ k a, project sch₁ sch₂ v b)) ?_ fun s1 r1 d1 => ?_
    · unfold readPair
      refine ReadsTo.seq (read_ok H h1 h2 hc a k fuel s q hwt.1 hok.1 hR (by omega) ?_ hu.1)
        fun s1 r1 d1 => ?_
      · intro hm; have := hd hm; omega
      refine ReadsTo.map (read_ok H h1 h2 hc b v fuel s1 _ hwt.2.1 hok.2.1 r1 (by omega) ?_ hu.2.1) ?_
      · intro hm; have := hd hm; omega
      · simp [hk]
    · simp only [Lang.steps_append] at r1 ⊢
      exact ReadsTo.map (m := P.repeatN kvs.length (readPair (readVal rd sch₂ mode fuel) k v))
        (readPairs_ok H h1 h2 hc kvs k v fuel s1 _ hk hwt.2.2 hok.2.2 r1 (by omega)
        (by intro hm; have := hd hm; omega) hu.2.2) rfl
theorem readFields_ok (H : ReaderLaws D L rd R text) (h1 : SchemaOK mode sch₁)
    (h2 : SchemaOK mode sch₂) (hc : Compatible sch₁ sch₂) : (as : List (Option Val)) →
    (fs gs : List Field) → (done : List (Int × Int × Val)) → (loop fuel : Nat) → (s : σ) →
    (q : L.Q) → WTf sch₁ fs as → L.Ok q (toksF sch₁ fs as ++ [.fieldStop]) → R s q →
    sizef as + 1 ≤ loop → sizef as ≤ fuel →
    (mode = .gen → HasDepth.depth s + structDepthf as ≤ 64) →
    Unknownsf (Skippable text) sch₁ sch₂ gs fs as →
    FieldsOK gs → fs.Pairwise (fun f g => f.fid < g.fid) →
    (∀ y ∈ done, ∀ f ∈ fs, y.1 < f.fid) →
    (mode = .dyn → (∀ f ∈ gs, 0 ≤ f.fid) ∧ (∀ f ∈ fs, 0 ≤ f.fid)) →
    (∀ f ∈ fs, ∀ g ∈ gs, f.fid = g.fid → f.ty.ttype = g.ty.ttype → f.ty = g.ty) →
    ReadsTo D L R (P.whileTrue loop (readStructBody rd mode gs (readVal rd sch₂ mode fuel)
        (skip rd fuel skipDepth)) (gs.map (attrOf done))) s q
      (toksF sch₁ fs as ++ [.fieldStop])
      (gs.map (attrOf (done ++ sentFields sch₁ sch₂ fs as))) := by
  intro as fs gs done loop fuel s q hwt hok hR hl hf hd hu hgs hfs hdone hdyn hcf
  cases loop with
  | zero => omega
  | succ loop =>
  match as with
  | [] =>
    cases fs with
    | cons f fs => simp only [WTf] at hwt
    | nil =>
      simp only [toksF, List.nil_append, Lang.Ok_cons] at hok ⊢
      obtain ⟨x, hx⟩ := H.fieldStop s q hR hok.1
      simp only [sentFields, List.append_nil]
      exact ReadsTo.loopEnd (ReadsTo.map (m := rd.readFieldBegin) hx rfl)
  | none :: as =>
    cases fs with
    | nil => simp only [WTf] at hwt
    | cons f fs =>
      simp only [WTf] at hwt
      simp only [toksF] at hok ⊢
      simp only [structDepthf] at hd
      simp only [sizef] at hl hf
      simp only [Unknownsf] at hu
      simp only [sentFields]
      exact readFields_ok H h1 h2 hc as fs gs done (loop + 1) fuel s q hwt.2 hok hR (by omega)
        (by omega) hd hu hgs (List.pairwise_cons.mp hfs).2
        (fun y hy g hg => hdone y hy g (by simp [hg]))
        (fun hm => ⟨(hdyn hm).1, fun g hg => (hdyn hm).2 g (by simp [hg])⟩)
        (fun f hf => hcf f (by simp [hf]))
  | some v :: as =>
    cases fs with
    | nil => simp only [WTf] at hwt
    | cons f fs =>
      simp only [WTf] at hwt
      simp only [toksF, List.append_assoc, List.cons_append, Lang.Ok_append, Lang.Ok_cons] at hok ⊢
      simp only [structDepthf] at hd
      simp only [sizef] at hl hf
      simp only [Unknownsf] at hu
      simp only [sentFields]
      have hlk : lookupField mode gs f.fid = gs.findIdx? (fun g => g.fid == f.fid) :=
        lookupField_eq hgs (fun hm => ⟨(hdyn hm).1, (hdyn hm).2 f (by simp)⟩)
      rw [show toksField f.fid (toks sch₁ f.ty v) f.ty v ++
          Tok.fieldEnd :: (toksF sch₁ fs as ++ [Tok.fieldStop])
        = (toksField f.fid (toks sch₁ f.ty v) f.ty v ++ [Tok.fieldEnd]) ++
          (toksF sch₁ fs as ++ [Tok.fieldStop]) by simp]
      rw [show done ++ (f.fid, f.ty.ttype, project sch₁ sch₂ f.ty v) :: sentFields sch₁ sch₂ fs as
        = (done ++ [(f.fid, f.ty.ttype, project sch₁ sch₂ f.ty v)]) ++ sentFields sch₁ sch₂ fs as
          by simp]
      refine ReadsTo.loop
        (a' := gs.map (attrOf (done ++ [(f.fid, f.ty.ttype, project sch₁ sch₂ f.ty v)])))
        (xs := toksField f.fid (toks sch₁ f.ty v) f.ty v ++ [Tok.fieldEnd])
        ?_ fun s1 r1 d1 => ?_
      · by_cases hk : Known gs f.fid f.ty.ttype = true
        · -- the reader knows the field
          rw [if_pos hk] at hu
          obtain ⟨g, hg, hgf, hgt⟩ : ∃ g ∈ gs, g.fid = f.fid ∧ g.ty.ttype = f.ty.ttype := by
            unfold Known at hk
            rw [List.any_eq_true] at hk
            obtain ⟨g, hg, h⟩ := hk
            simp only [Bool.and_eq_true, beq_iff_eq] at h
            exact ⟨g, hg, h.1, h.2⟩
          have hty : f.ty = g.ty := hcf f (by simp) g hg hgf.symm hgt.symm
          obtain ⟨i, hi, hgi⟩ : ∃ i, gs.findIdx? (fun g => g.fid == f.fid) = some i ∧ gs[i]? = some g := by
            cases hfi : gs.findIdx? (fun g => g.fid == f.fid) with
            | none =>
              rw [List.findIdx?_eq_none_iff] at hfi
              have := hfi g hg
              simp [hgf] at this
            | some i =>
              refine ⟨i, rfl, ?_⟩
              obtain ⟨g', hg', hgf'⟩ := findIdx_some hfi
              rw [hg']
              congr 1
              obtain ⟨j, hj⟩ := List.mem_iff_getElem?.mp hg
              by_cases hij : i = j
              · subst hij; rw [hg'] at hj; exact Option.some.inj hj
              · exfalso
                have hs := hgs.1
                rw [List.getElem?_eq_some_iff] at hg' hj
                obtain ⟨hi', rfl⟩ := hg'
                obtain ⟨hj', rfl⟩ := hj
                rw [List.pairwise_iff_getElem] at hs
                rcases Nat.lt_or_gt_of_ne hij with h | h
                · have := hs i j hi' hj' h; omega
                · have := hs j i hj' hi' h; omega
          have hne : ∀ y ∈ done, y.1 ≠ g.fid := by
            intro y hy e
            have := hdone y hy f (by simp)
            omega
          have hset : ∀ x, (gs.map (attrOf done)).set i (some x)
              = gs.map (attrOf (done ++ [(f.fid, f.ty.ttype, x)])) := by
            intro x
            rw [attrs_set hgi hgs.1 hne, hgf, hgt]
          refine ReadsTo.field sch₁ H (k := fun x => _) hwt.1 hok.1 hR ?_ ?_
          · rintro b s1 s2 b2 q' htb rfl hb r2 d2 rfl
            obtain ⟨s3, h3, r3, d3⟩ := H.fieldEnd s2 _ r2 hok.2.1
            refine ⟨s3, ?_, r3, by omega⟩
            simp only
            rw [if_neg (by decide), hlk, hi]
            simp only [hgi, ← hty, htb]
            rw [if_pos (by rfl)]
            rw [readVal]
            simp only [project] at *
            have hs' := hset (Val.bool b)
            have e1 := D.bind (k := fun b => Pure.pure (Val.bool b)) hb (D.pure (Val.bool b) s2)
            have e2 := D.bind (c := (Sum.inl ((gs.map (attrOf done)).set i (some (Val.bool b))) :
                  List (Option Val) ⊕ List (Option Val)))
              (k := fun v => rd.readFieldEnd >>= fun _ =>
                Pure.pure (Sum.inl ((gs.map (attrOf done)).set i (some v)))) e1
              (D.bind h3 (D.pure _ s3))
            rw [hs', htb] at e2
            simpa using e2
          · intro s1 q' hnb r1 d1 ho e
            simp only
            rw [if_neg (ttype_ne_stop _), hlk, hi]
            simp only [hgi, ← hty]
            rw [if_pos trivial]
            refine ReadsTo.seq (read_ok H h1 h2 hc v f.ty fuel s1 q' hwt.1 ho r1 (by omega) ?_ hu.1)
              fun s2 r2 d2 => ?_
            · intro hm; have := hd hm; omega
            · exact ReadsTo.map (H.fieldEnd s2 _ r2 (by rw [e]; exact hok.2.1)) (by rw [hset])
        · -- the reader skips the field
          rw [if_neg hk] at hu
          obtain ⟨⟨hn, htx⟩, hu⟩ := hu
          have hk' : Known gs f.fid f.ty.ttype = false := by simpa using hk
          rw [← attrs_keep hk']
          -- whatever the lookup finds, the field is skipped
          have hskip : ∀ (k : P σ (List (Option Val) ⊕ List (Option Val))),
              (match lookupField mode gs f.fid with
                | none => (do
                  skip rd fuel skipDepth f.ty.ttype
                  rd.readFieldEnd
                  Pure.pure (Sum.inl (gs.map (attrOf done))) : P σ (List (Option Val) ⊕ List (Option Val)))
                | some i =>
                  match gs[i]? with
                  | none => P.raise .indexError
                  | some g =>
                    if f.ty.ttype = g.ty.ttype then do
                      let v ← readVal rd sch₂ mode fuel g.ty
                      rd.readFieldEnd
                      Pure.pure (.inl ((gs.map (attrOf done)).set i (some v)))
                    else do
                      skip rd fuel skipDepth f.ty.ttype
                      rd.readFieldEnd
                      Pure.pure (.inl (gs.map (attrOf done)))) = k →
              k = (do
                  skip rd fuel skipDepth f.ty.ttype
                  rd.readFieldEnd
                  Pure.pure (Sum.inl (gs.map (attrOf done)))) := by
            rintro k rfl
            rw [hlk]
            cases hfi : gs.findIdx? (fun g => g.fid == f.fid) with
            | none => rfl
            | some i =>
              obtain ⟨g, hg, hgf⟩ := findIdx_some hfi
              simp only [hg]
              rw [if_neg]
              intro e
              apply hk
              unfold Known
              rw [List.any_eq_true]
              exact ⟨g, List.mem_of_getElem? hg, by simp [hgf, e]⟩
          refine ReadsTo.field sch₁ H (k := fun x => _) hwt.1 hok.1 hR ?_ ?_
          · rintro b s1 s2 b2 q' htb rfl hb r2 d2 rfl
            obtain ⟨s3, h3, r3, d3⟩ := H.fieldEnd s2 _ r2 hok.2.1
            refine ⟨s3, ?_, r3, by omega⟩
            simp only
            rw [if_neg (by decide)]
            have := hskip _ rfl
            rw [htb] at this
            refine Eq.mp (congrArg (fun k => D.holds k s1 _ _ s3) this.symm) ?_
            rw [show skip rd fuel skipDepth Ty.bool.ttype = (rd.readBool >>= fun _ => pure ()) from
              skipBool fuel 63 rd]
            have e1 := D.bind (k := fun _ => Pure.pure ()) hb (D.pure () s2)
            have e2 := D.bind (c := (Sum.inl (gs.map (attrOf done)) :
                  List (Option Val) ⊕ List (Option Val)))
              (k := fun _ => rd.readFieldEnd >>= fun _ =>
                Pure.pure (Sum.inl (gs.map (attrOf done)))) e1
              (D.bind h3 (D.pure _ s3))
            simpa using e2
          · intro s1 q' hnb r1 d1 ho e
            simp only
            rw [if_neg (ttype_ne_stop _)]
            refine Eq.mp (congrArg (fun k => ReadsTo D L R k s1 q' _ _) (hskip _ rfl).symm) ?_
            refine ReadsTo.seq (skip_ok sch₁ H v f.ty fuel skipDepth s1 q' hwt.1 ho r1 hn (by omega) htx)
              fun s2 r2 d2 => ?_
            exact ReadsTo.map (H.fieldEnd s2 _ r2 (by rw [e]; exact hok.2.1)) rfl
      · simp only [Lang.steps_append, Lang.steps_cons, Lang.steps_nil] at r1 ⊢
        exact readFields_ok H h1 h2 hc as fs gs _ loop fuel s1 _ hwt.2
          (by simp only [Lang.Ok_append, Lang.Ok_cons]; exact hok.2.2) r1 (by omega) (by omega)
          (fun hm => by have := hd hm; omega) hu.2 hgs (List.pairwise_cons.mp hfs).2
          (by
            intro y hy g hg
            simp only [List.mem_append, List.mem_singleton] at hy
            rcases hy with hy | rfl
            · exact hdone y hy g (by simp [hg])
            · exact (List.pairwise_cons.mp hfs).1 g hg)
          (fun hm => ⟨(hdyn hm).1, fun g hg => (hdyn hm).2 g (by simp [hg])⟩)
          (fun f hf => hcf f (by simp [hf]))
end

end
end Thrift
