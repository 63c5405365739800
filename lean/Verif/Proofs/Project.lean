import Verif.Proofs.TokenDecode
/-
Reading with the writer's own schema.
-/

namespace Thrift
open Spec

theorem eq_of_fid {fs : List Field} (h : fs.Pairwise (fun f g => f.fid < g.fid)) {f g : Field}
    (hf : f ∈ fs) (hg : g ∈ fs) (e : f.fid = g.fid) : f = g := by
  induction fs with
  | nil => cases hf
  | cons x xs ih =>
    rw [List.pairwise_cons] at h
    cases hf with
    | head =>
      cases hg with
      | head => rfl
      | tail _ hg => have := h.1 g hg; omega
    | tail _ hf =>
      cases hg with
      | head => have := h.1 f hf; omega
      | tail _ hg => exact ih h.2 hf hg

theorem compatible_self {mode : Mode} {sch : Schema} (h : SchemaOK mode sch) : Compatible sch sch := by
  intro sid f hf g hg e _
  rw [eq_of_fid (h sid).1.1 hf hg e]

section
variable (p : Val → Prop) (sch : Schema)

mutual
theorem Unknowns_self : (v : Val) → (t : Ty) → Unknowns p sch sch t v := by
  intro v t
  cases v with
  | list vs =>
    cases t <;> simp only [Unknowns]
    exact Unknownss_self vs _
  | set vs =>
    cases t <;> simp only [Unknowns]
    exact Unknownss_self vs _
  | map kvs =>
    cases t <;> simp only [Unknowns]
    exact Unknownsp_self kvs _ _
  | struct as =>
    cases t <;> simp only [Unknowns]
    exact Unknownsf_self as _ _ (fun f h => h)
  | _ => cases t <;> simp only [Unknowns]
theorem Unknownss_self : (vs : List Val) → (e : Ty) → Unknownss p sch sch e vs := by
  intro vs e
  cases vs with
  | nil => simp only [Unknownss]
  | cons v vs =>
    simp only [Unknownss]
    exact ⟨Unknowns_self v e, Unknownss_self vs e⟩
theorem Unknownsp_self : (kvs : List (Val × Val)) → (k v : Ty) → Unknownsp p sch sch k v kvs := by
  intro kvs k v
  match kvs with
  | [] => simp only [Unknownsp]
  | (a, b) :: kvs =>
    simp only [Unknownsp]
    exact ⟨Unknowns_self a k, Unknowns_self b v, Unknownsp_self kvs k v⟩
theorem Unknownsf_self : (as : List (Option Val)) → (gs fs : List Field) → (∀ f ∈ fs, f ∈ gs) →
    Unknownsf p sch sch gs fs as := by
  intro as gs fs h
  match as with
  | [] => cases fs <;> simp only [Unknownsf]
  | none :: as =>
    cases fs with
    | nil => simp only [Unknownsf]
    | cons f fs =>
      simp only [Unknownsf]
      exact Unknownsf_self as gs fs (fun g hg => h g (by simp [hg]))
  | some v :: as =>
    cases fs with
    | nil => simp only [Unknownsf]
    | cons f fs =>
      simp only [Unknownsf]
      have hk : Known gs f.fid f.ty.ttype = true := by
        unfold Known
        rw [List.any_eq_true]
        exact ⟨f, h f (by simp), by simp⟩
      rw [if_pos hk]
      exact ⟨Unknowns_self v f.ty, Unknownsf_self as gs fs (fun g hg => h g (by simp [hg]))⟩
end
end

theorem sentFields_fid {sch₁ sch₂ : Schema} {fs : List Field} {as : List (Option Val)}
    {x : Int × Int × Val} (h : x ∈ sentFields sch₁ sch₂ fs as) : ∃ f ∈ fs, x.1 = f.fid := by
  induction fs generalizing as with
  | nil => cases as <;> simp [sentFields] at h
  | cons f fs ih =>
    match as with
    | [] => simp [sentFields] at h
    | none :: as =>
      simp only [sentFields] at h
      obtain ⟨g, hg, e⟩ := ih h
      exact ⟨g, by simp [hg], e⟩
    | some v :: as =>
      simp only [sentFields, List.mem_cons] at h
      rcases h with rfl | h
      · exact ⟨f, by simp, rfl⟩
      · obtain ⟨g, hg, e⟩ := ih h
        exact ⟨g, by simp [hg], e⟩

theorem attrOf_none {sent : List (Int × Int × Val)} {g : Field} (h : ∀ x ∈ sent, x.1 ≠ g.fid) :
    attrOf sent g = g.dflt := by
  unfold attrOf
  have : sent.find? (fun x => x.1 == g.fid && x.2.1 == g.ty.ttype) = none := by
    rw [List.find?_eq_none]
    intro y hy
    simp [h y hy]
  rw [this]

section
variable (sch : Schema)

mutual
theorem project_self (hs : ∀ sid, FieldsOK (sch sid)) : (v : Val) → (t : Ty) → WT sch t v →
    NoHiddenDefault sch t v → NoDuplicates v → project sch sch t v = v := by
  intro v t hwt hn hu
  cases v with
  | list vs =>
    cases t <;> simp only [WT] at hwt
    simp only [NoHiddenDefault] at hn
    simp only [project]
    simp only [NoDuplicates] at hu
    rw [projects_self hs vs _ hwt.2 hn hu]
  | set vs =>
    cases t <;> simp only [WT] at hwt
    simp only [NoHiddenDefault] at hn
    simp only [project]
    simp only [NoDuplicates] at hu
    rw [projects_self hs vs _ hwt.2.2 hn hu.2, firsts_distinct hu.1]
  | map kvs =>
    cases t <;> simp only [WT] at hwt
    simp only [NoHiddenDefault] at hn
    simp only [project]
    simp only [NoDuplicates] at hu
    rw [projectp_self hs kvs _ _ hwt.2.2 hn hu.2, merged_distinct hu.1]
  | struct as =>
    cases t <;> simp only [WT] at hwt
    simp only [NoHiddenDefault] at hn
    simp only [project]
    simp only [NoDuplicates] at hu
    have := projectf_self hs as _ [] (hs _).1 (by simp) hwt hn hu
    simp only [List.nil_append] at this
    rw [this]
  | _ => cases t <;> simp only [project]
theorem projects_self (hs : ∀ sid, FieldsOK (sch sid)) : (vs : List Val) → (e : Ty) → WTs sch e vs →
    NoHiddenDefaults sch e vs → NoDuplicatess vs → projects sch sch e vs = vs := by
  intro vs e hwt hn hu
  cases vs with
  | nil => simp only [projects]
  | cons v vs =>
    simp only [WTs] at hwt
    simp only [NoHiddenDefaults] at hn
    simp only [projects]
    simp only [NoDuplicatess] at hu
    rw [project_self hs v e hwt.1 hn.1 hu.1, projects_self hs vs e hwt.2 hn.2 hu.2]
theorem projectp_self (hs : ∀ sid, FieldsOK (sch sid)) : (kvs : List (Val × Val)) → (k v : Ty) →
    WTp sch k v kvs → NoHiddenDefaultp sch k v kvs → NoDuplicatesp kvs →
    projectp sch sch k v kvs = kvs := by
  intro kvs k v hwt hn hu
  match kvs with
  | [] => simp only [projectp]
  | (a, b) :: kvs =>
    simp only [WTp] at hwt
    simp only [NoHiddenDefaultp] at hn
    simp only [projectp]
    simp only [NoDuplicatesp] at hu
    rw [project_self hs a k hwt.1 hn.1 hu.1, project_self hs b v hwt.2.1 hn.2.1 hu.2.1,
      projectp_self hs kvs k v hwt.2.2 hn.2.2 hu.2.2]
theorem projectf_self (hs : ∀ sid, FieldsOK (sch sid)) : (as : List (Option Val)) →
    (fs : List Field) → (done : List (Int × Int × Val)) → fs.Pairwise (fun f g => f.fid < g.fid) →
    (∀ y ∈ done, ∀ f ∈ fs, y.1 < f.fid) → WTf sch fs as → NoHiddenDefaultf sch fs as → NoDuplicatesf as →
    fs.map (attrOf (done ++ sentFields sch sch fs as)) = as := by
  intro as fs done hp hd hwt hn hu
  match as with
  | [] =>
    cases fs with
    | nil => rfl
    | cons f fs => simp only [WTf] at hwt
  | none :: as =>
    cases fs with
    | nil => simp only [WTf] at hwt
    | cons f fs =>
      simp only [WTf] at hwt
      simp only [NoHiddenDefaultf] at hn
      rw [List.pairwise_cons] at hp
      simp only [NoDuplicatesf] at hu
      simp only [sentFields, List.map_cons]
      rw [projectf_self hs as fs done hp.2 (fun y hy g hg => hd y hy g (by simp [hg])) hwt.2 hn.2 hu]
      rw [attrOf_none, hn.1]
      intro x hx
      rw [List.mem_append] at hx
      rcases hx with hx | hx
      · have := hd x hx f (by simp); omega
      · obtain ⟨g, hg, e⟩ := sentFields_fid hx
        have := hp.1 g hg
        omega
  | some v :: as =>
    cases fs with
    | nil => simp only [WTf] at hwt
    | cons f fs =>
      simp only [WTf] at hwt
      simp only [NoHiddenDefaultf] at hn
      rw [List.pairwise_cons] at hp
      simp only [NoDuplicatesf] at hu
      simp only [sentFields, List.map_cons]
      rw [project_self hs v f.ty hwt.1 hn.1 hu.1]
      rw [show done ++ (f.fid, f.ty.ttype, v) :: sentFields sch sch fs as
        = (done ++ [(f.fid, f.ty.ttype, v)]) ++ sentFields sch sch fs as by simp]
      rw [projectf_self hs as fs (done ++ [(f.fid, f.ty.ttype, v)]) hp.2 (by
        intro y hy g hg
        rw [List.mem_append, List.mem_singleton] at hy
        rcases hy with hy | rfl
        · exact hd y hy g (by simp [hg])
        · exact hp.1 g hg) hwt.2 hn.2 hu.2]
      congr 1
      unfold attrOf
      rw [List.append_assoc, List.find?_append]
      have : done.find? (fun x => x.1 == f.fid && x.2.1 == f.ty.ttype) = none := by
        rw [List.find?_eq_none]
        intro y hy
        have := hd y hy f (by simp)
        simp; omega
      rw [this]
      simp
end
end

theorem noHidden_hashable (sch : Schema) {e : Ty} (he : e.hashable = true) {v : Val} (hv : WT sch e v) :
    NoHiddenDefault sch e v ∧ NoDuplicates v := by
  cases e <;> cases v <;> simp_all [Ty.hashable, WT, NoHiddenDefault, NoDuplicates]

theorem projects_hashable' (sch : Schema) {e : Ty} (he : e.hashable = true) :
    ∀ vs, WTs sch e vs → projects sch sch e vs = vs := by
  intro vs
  induction vs with
  | nil => intro _; rfl
  | cons v vs ih =>
    intro hv
    simp only [WTs] at hv
    rw [projects, ih hv.2]
    congr 1
    cases e <;> cases v <;> simp_all [Ty.hashable, WT, project]

theorem project_set_hashable (sch : Schema) {e : Ty} {vs : List Val} (hv : WT sch (.set e) (.set vs)) :
    project sch sch (.set e) (.set vs) = .set (firsts [] vs) := by
  simp only [WT] at hv
  rw [project, projects_hashable' sch hv.2.1 vs hv.2.2]

theorem project_map_hashable (sch : Schema) (hs : ∀ sid, FieldsOK (sch sid)) {k t : Ty}
    {kvs : List (Val × Val)} (hv : WT sch (.map k t) (.map kvs))
    (hn : ∀ x ∈ kvs, NoHiddenDefault sch t x.2) (hq : ∀ x ∈ kvs, NoDuplicates x.2) :
    project sch sch (.map k t) (.map kvs) = .map (merged [] kvs) := by
  simp only [WT] at hv
  rw [project, projectp_self sch hs kvs k t hv.2.2]
  · obtain ⟨-, hk, hv⟩ := hv
    clear hq
    induction kvs with
    | nil => trivial
    | cons x kvs ih =>
      simp only [WTp] at hv
      exact ⟨(noHidden_hashable sch hk hv.1).1, hn x (by simp), ih (fun y hy => hn y (by simp [hy])) hv.2.2⟩
  · obtain ⟨-, hk, hv⟩ := hv
    clear hn
    induction kvs with
    | nil => trivial
    | cons x kvs ih =>
      simp only [WTp] at hv
      exact ⟨(noHidden_hashable sch hk hv.1).2, hq x (by simp), ih (fun y hy => hq y (by simp [hy])) hv.2.2⟩

end Thrift
