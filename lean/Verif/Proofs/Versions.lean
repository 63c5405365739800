import Verif.Spec.Versions
import Verif.Proofs.Project
/-
Reading with another version of the schema.
-/

namespace Thrift
open Spec Rpc

theorem reads_unique {X Y : Schema} {t : Ty} {v u u' : Val} (h : Reads X Y t v u) (h' : Reads X Y t v u') : u = u' := by
  induction h generalizing u' with
  | value t v ht =>
    cases h' with
    | value => rfl
    | _ => simp [Ty.hashable] at ht
  | set e vs =>
    cases h' with
    | value _ _ ht => simp [Ty.hashable] at ht
    | set => rfl
  | list e vs us hl _ ih =>
    cases h' with
    | value _ _ ht => simp [Ty.hashable] at ht
    | list _ _ us' hl' he' =>
      congr 1
      refine List.ext_getElem (by omega) fun i h1 h2 => ?_
      have hv : vs[i]? = some vs[i] := List.getElem?_eq_getElem (by omega)
      exact ih i _ _ hv (List.getElem?_eq_getElem h1) (he' i _ _ hv (List.getElem?_eq_getElem h2))
  | map k t kvs kus hl _ ih =>
    cases h' with
    | value _ _ ht => simp [Ty.hashable] at ht
    | map _ _ _ kus' hl' he' =>
      congr 1
      have l1 := congrArg List.length hl
      have l2 := congrArg List.length hl'
      simp only [List.length_map] at l1 l2
      refine List.ext_getElem (by omega) fun i h1 h2 => ?_
      have hv : kvs[i]? = some kvs[i] := List.getElem?_eq_getElem (by omega)
      have k1 := congrArg (·[i]?) hl
      have k2 := congrArg (·[i]?) hl'
      simp only [List.getElem?_map, hv, List.getElem?_eq_getElem h1, List.getElem?_eq_getElem h2, Option.map_some, Option.some.injEq] at k1 k2
      refine Prod.ext (k1.trans k2.symm) ?_
      exact ih i _ _ _ _ hv (List.getElem?_eq_getElem h1) (he' i _ _ _ _ hv (List.getElem?_eq_getElem h2))
  | struct sid as bs hl hs _ hd ih =>
    cases h' with
    | value _ _ ht => simp [Ty.hashable] at ht
    | struct _ _ bs' hl' hs' hr' hd' =>
      congr 1
      refine List.ext_getElem? fun i => ?_
      by_cases hi : i < (Y sid).length
      · have hg : (Y sid)[i]? = some (Y sid)[i] := List.getElem?_eq_getElem hi
        by_cases hx : ∃ f v, SetTo (X sid) as f v ∧ f.fid = (Y sid)[i].fid ∧ f.ty = (Y sid)[i].ty
        · obtain ⟨f, v, h1, h2, h3⟩ := hx
          obtain ⟨u, hu⟩ := hs i _ f v hg h1 h2 h3
          obtain ⟨u', hu'⟩ := hs' i _ f v hg h1 h2 h3
          rw [hu, hu', ih i _ f v u hg h1 h2 h3 hu (hr' i _ f v u' hg h1 h2 h3 hu')]
        · have : ∀ f v, SetTo (X sid) as f v → ¬ (f.fid = (Y sid)[i].fid ∧ f.ty = (Y sid)[i].ty) := fun f v h1 h2 => hx ⟨f, v, h1, h2⟩
          rw [hd i _ hg this, hd' i _ hg this]
      · rw [List.getElem?_eq_none (by omega), List.getElem?_eq_none (by omega)]

theorem setTo_nil (as : List (Option Val)) (f : Field) (v : Val) : ¬ SetTo [] as f v := by
  rintro ⟨i, h, _⟩; simp at h

theorem setTo_cons {f g : Field} {fs : List Field} {a : Option Val} {as : List (Option Val)} {v : Val} :
    SetTo (f :: fs) (a :: as) g v ↔ (f = g ∧ a = some v) ∨ SetTo fs as g v := by
  constructor
  · rintro ⟨i, h1, h2⟩
    cases i with
    | zero => simp at h1 h2; exact .inl ⟨h1, h2⟩
    | succ i => exact .inr ⟨i, by simpa using h1, by simpa using h2⟩
  · rintro (⟨rfl, rfl⟩ | ⟨i, h1, h2⟩)
    · exact ⟨0, rfl, rfl⟩
    · exact ⟨i + 1, by simpa using h1, by simpa using h2⟩

theorem setTo_mem {fs : List Field} {as : List (Option Val)} {f : Field} {v : Val} (h : SetTo fs as f v) : f ∈ fs := by
  obtain ⟨i, h, _⟩ := h; exact List.mem_of_getElem? h

theorem sentFields_mem (X Y : Schema) : ∀ (fs : List Field) (as : List (Option Val)), fs.length = as.length → ∀ x,
    x ∈ sentFields X Y fs as ↔ ∃ f v, SetTo fs as f v ∧ x = (f.fid, f.ty.ttype, project X Y f.ty v)
  | [], as, _, x => by simp [sentFields, setTo_nil]
  | f :: fs, [], h, x => by simp at h
  | f :: fs, none :: as, h, x => by
    rw [sentFields, sentFields_mem X Y fs as (by simpa using h)]
    constructor
    · rintro ⟨g, v, h1, h2⟩; exact ⟨g, v, setTo_cons.2 (.inr h1), h2⟩
    · rintro ⟨g, v, h1, h2⟩
      rcases setTo_cons.1 h1 with ⟨_, h⟩ | h
      · cases h
      · exact ⟨g, v, h, h2⟩
  | f :: fs, some w :: as, h, x => by
    rw [sentFields, List.mem_cons, sentFields_mem X Y fs as (by simpa using h)]
    constructor
    · rintro (rfl | ⟨g, v, h1, h2⟩)
      · exact ⟨f, w, setTo_cons.2 (.inl ⟨rfl, rfl⟩), rfl⟩
      · exact ⟨g, v, setTo_cons.2 (.inr h1), h2⟩
    · rintro ⟨g, v, h1, h2⟩
      rcases setTo_cons.1 h1 with ⟨rfl, h⟩ | h
      · cases h; exact .inl h2
      · exact .inr ⟨g, v, h, h2⟩

theorem setTo_unique {fs : List Field} (hp : fs.Pairwise (fun f g => f.fid < g.fid)) {as : List (Option Val)} {f g : Field} {v w : Val} (h : SetTo fs as f v) (h' : SetTo fs as g w)
    (e : f.fid = g.fid) : f = g ∧ v = w := by
  obtain ⟨i, h1, h2⟩ := h
  obtain ⟨j, h3, h4⟩ := h'
  have hij : i = j := by
    obtain ⟨hi, rfl⟩ := List.getElem?_eq_some_iff.1 h1
    obtain ⟨hj, rfl⟩ := List.getElem?_eq_some_iff.1 h3
    rw [List.pairwise_iff_getElem] at hp
    rcases Nat.lt_trichotomy i j with h | h | h
    · have := hp i j hi hj h; omega
    · exact h
    · have := hp j i hj hi h; omega
  subst hij
  rw [h1] at h3; rw [h2] at h4
  cases h3; cases h4; exact ⟨rfl, rfl⟩

theorem WTf_length {sch : Schema} : ∀ {fs : List Field} {as : List (Option Val)}, WTf sch fs as → fs.length = as.length
  | [], [], _ => rfl
  | f :: fs, some v :: as, h => by simp only [WTf] at h; simp [WTf_length h.2]
  | f :: fs, none :: as, h => by simp only [WTf] at h; simp [WTf_length h.2]
  | [], _ :: _, h => by simp only [WTf] at h
  | _ :: _, [], h => by simp only [WTf] at h

section
variable (X Y : Schema)

theorem struct_reads (hx : ∀ sid, FieldsOK (X sid)) (hc : Compatible X Y) (sid : Nat) (as : List (Option Val)) (hl : (X sid).length = as.length)
    (h : ∀ f v, SetTo (X sid) as f v → Reads X Y f.ty v (project X Y f.ty v)) : Reads X Y (.struct sid) (.struct as) (project X Y (.struct sid) (.struct as)) := by
  rw [project]
  have get : ∀ (i : Nat) g, (Y sid)[i]? = some g → ((Y sid).map (attrOf (sentFields X Y (X sid) as)))[i]? = some (attrOf (sentFields X Y (X sid) as) g) := by
    intro i g hg; rw [List.getElem?_map, hg]; rfl
  have found : ∀ g f v, SetTo (X sid) as f v → f.fid = g.fid → f.ty = g.ty → attrOf (sentFields X Y (X sid) as) g = some (project X Y f.ty v) := by
    intro g f v h1 h2 h3
    unfold attrOf
    cases e : (sentFields X Y (X sid) as).find? (fun x => x.1 == g.fid && x.2.1 == g.ty.ttype) with
    | none =>
      rw [List.find?_eq_none] at e
      have := e _ ((sentFields_mem X Y _ _ hl _).2 ⟨f, v, h1, rfl⟩)
      simp [h2, h3] at this
    | some x =>
      obtain ⟨f', v', h1', rfl⟩ := (sentFields_mem X Y _ _ hl _).1 (List.mem_of_find?_eq_some e)
      have := List.find?_some e
      simp only [Bool.and_eq_true, beq_iff_eq] at this
      obtain ⟨rfl, rfl⟩ := setTo_unique (hx sid).1 h1 h1' (by omega)
      rfl
  refine .struct sid as _ (by simp) ?_ ?_ ?_
  · intro i g f v hg h1 h2 h3
    exact ⟨_, by rw [get i g hg, found g f v h1 h2 h3]⟩
  · intro i g f v u hg h1 h2 h3 hu
    rw [get i g hg, found g f v h1 h2 h3] at hu
    cases hu
    rw [← h3]
    exact h f v h1
  · intro i g hg hn
    rw [get i g hg]
    congr 1
    unfold attrOf
    rw [List.find?_eq_none.2]
    intro x hxm
    obtain ⟨f, v, h1, rfl⟩ := (sentFields_mem X Y _ _ hl _).1 hxm
    simp only [Bool.and_eq_true, beq_iff_eq]
    rintro ⟨e1, e2⟩
    exact hn f v h1 ⟨e1, hc sid f (setTo_mem h1) g (List.mem_of_getElem? hg) e1 e2⟩

mutual
theorem project_reads (hx : ∀ sid, FieldsOK (X sid)) (hc : Compatible X Y) : (v : Val) → (t : Ty) → WT X t v → NoDuplicates v → Reads X Y t v (project X Y t v) := by
  intro v t hw hd
  cases v with
  | list vs =>
    cases t <;> simp only [WT] at hw
    simp only [NoDuplicates] at hd
    rw [project]
    obtain ⟨h1, h2⟩ := projects_reads hx hc vs _ hw.2 hd
    exact .list _ _ _ h1 h2
  | set vs =>
    cases t <;> simp only [WT] at hw
    simp only [NoDuplicates] at hd
    rw [project, projects_hashable hw.2.1, firsts_distinct hd.1]
    exact .set _ _
  | map kvs =>
    cases t <;> simp only [WT] at hw
    simp only [NoDuplicates] at hd
    rename_i k t
    have hk := projectp_keys (sch₁ := X) (sch₂ := Y) (v := t) hw.2.1 kvs
    rw [project, merged_distinct (by rw [hk]; exact hd.1)]
    exact .map k t _ _ hk (projectp_reads hx hc kvs k t hw.2.2 hd.2)
  | struct as =>
    cases t <;> simp only [WT] at hw
    simp only [NoDuplicates] at hd
    exact struct_reads X Y hx hc _ as (WTf_length hw) (projectf_reads hx hc as _ hw hd)
  | _ => cases t <;> simp only [WT] at hw <;> exact .value _ _ rfl
theorem projects_reads (hx : ∀ sid, FieldsOK (X sid)) (hc : Compatible X Y) : (vs : List Val) → (e : Ty) → WTs X e vs → NoDuplicatess vs →
    (projects X Y e vs).length = vs.length ∧ ∀ (i : Nat) v u, vs[i]? = some v → (projects X Y e vs)[i]? = some u → Reads X Y e v u := by
  intro vs e hw hd
  cases vs with
  | nil => exact ⟨rfl, by simp⟩
  | cons v vs =>
    simp only [WTs] at hw
    simp only [NoDuplicatess] at hd
    have h1 := project_reads hx hc v e hw.1 hd.1
    obtain ⟨hl, h2⟩ := projects_reads hx hc vs e hw.2 hd.2
    rw [projects]
    refine ⟨by simp [hl], fun i v u hv hu => ?_⟩
    cases i with
    | zero => simp at hv hu; subst hv; subst hu; exact h1
    | succ i => exact h2 i v u (by simpa using hv) (by simpa using hu)
theorem projectp_reads (hx : ∀ sid, FieldsOK (X sid)) (hc : Compatible X Y) : (kvs : List (Val × Val)) → (k t : Ty) → WTp X k t kvs → NoDuplicatesp kvs →
    ∀ (i : Nat) k' v k'' u, kvs[i]? = some (k', v) → (projectp X Y k t kvs)[i]? = some (k'', u) → Reads X Y t v u := by
  intro kvs k t hw hd i k' v k'' u hv hu
  match kvs with
  | [] => simp at hv
  | (a, b) :: kvs =>
    simp only [WTp] at hw
    simp only [NoDuplicatesp] at hd
    have h1 := project_reads hx hc b t hw.2.1 hd.2.1
    have h2 := projectp_reads hx hc kvs k t hw.2.2 hd.2.2
    rw [projectp] at hu
    cases i with
    | zero => simp at hv hu; obtain ⟨_, rfl⟩ := hv; obtain ⟨_, rfl⟩ := hu; exact h1
    | succ i => exact h2 i k' v k'' u (by simpa using hv) (by simpa using hu)
theorem projectf_reads (hx : ∀ sid, FieldsOK (X sid)) (hc : Compatible X Y) : (as : List (Option Val)) → (fs : List Field) → WTf X fs as → NoDuplicatesf as →
    ∀ f v, SetTo fs as f v → Reads X Y f.ty v (project X Y f.ty v) := by
  intro as fs hw hd f v hs
  match as with
  | [] => obtain ⟨i, _, h⟩ := hs; simp at h
  | none :: as =>
    cases fs with
    | nil => exact absurd hs (setTo_nil _ _ _)
    | cons g fs =>
      simp only [WTf] at hw
      simp only [NoDuplicatesf] at hd
      rcases setTo_cons.1 hs with ⟨_, h⟩ | h
      · cases h
      · exact projectf_reads hx hc as fs hw.2 hd f v h
  | some w :: as =>
    cases fs with
    | nil => exact absurd hs (setTo_nil _ _ _)
    | cons g fs =>
      simp only [WTf] at hw
      simp only [NoDuplicatesf] at hd
      have h1 := project_reads hx hc w g.ty hw.1 hd.1
      rcases setTo_cons.1 hs with ⟨rfl, h⟩ | h
      · cases h; exact h1
      · exact projectf_reads hx hc as fs hw.2 hd.2 f v h
end
end

section
variable (p : Val → Prop) (X Y : Schema)

mutual
/-- A reader that has all fields of the writer meets no unknown fields. -/
theorem Unknowns_kept (h : ∀ sid, ∀ f ∈ X sid, ∃ g ∈ Y sid, g.fid = f.fid ∧ g.ty = f.ty) : (v : Val) → (t : Ty) → Unknowns p X Y t v := by
  intro v t
  cases v with
  | list vs =>
    cases t <;> simp only [Unknowns]
    exact Unknownss_kept h vs _
  | set vs =>
    cases t <;> simp only [Unknowns]
    exact Unknownss_kept h vs _
  | map kvs =>
    cases t <;> simp only [Unknowns]
    exact Unknownsp_kept h kvs _ _
  | struct as =>
    cases t <;> simp only [Unknowns]
    exact Unknownsf_kept h as _ _ (h _)
  | _ => cases t <;> simp only [Unknowns]
theorem Unknownss_kept (h : ∀ sid, ∀ f ∈ X sid, ∃ g ∈ Y sid, g.fid = f.fid ∧ g.ty = f.ty) : (vs : List Val) → (e : Ty) → Unknownss p X Y e vs := by
  intro vs e
  cases vs with
  | nil => simp only [Unknownss]
  | cons v vs =>
    simp only [Unknownss]
    exact ⟨Unknowns_kept h v e, Unknownss_kept h vs e⟩
theorem Unknownsp_kept (h : ∀ sid, ∀ f ∈ X sid, ∃ g ∈ Y sid, g.fid = f.fid ∧ g.ty = f.ty) : (kvs : List (Val × Val)) → (k v : Ty) → Unknownsp p X Y k v kvs := by
  intro kvs k v
  match kvs with
  | [] => simp only [Unknownsp]
  | (a, b) :: kvs =>
    simp only [Unknownsp]
    exact ⟨Unknowns_kept h a k, Unknowns_kept h b v, Unknownsp_kept h kvs k v⟩
theorem Unknownsf_kept (h : ∀ sid, ∀ f ∈ X sid, ∃ g ∈ Y sid, g.fid = f.fid ∧ g.ty = f.ty) : (as : List (Option Val)) → (gs fs : List Field) →
    (∀ f ∈ fs, ∃ g ∈ gs, g.fid = f.fid ∧ g.ty = f.ty) → Unknownsf p X Y gs fs as := by
  intro as gs fs hf
  match as with
  | [] => cases fs <;> simp only [Unknownsf]
  | none :: as =>
    cases fs with
    | nil => simp only [Unknownsf]
    | cons f fs =>
      simp only [Unknownsf]
      exact Unknownsf_kept h as gs fs (fun g hg => hf g (by simp [hg]))
  | some v :: as =>
    cases fs with
    | nil => simp only [Unknownsf]
    | cons f fs =>
      simp only [Unknownsf]
      have hk : Known gs f.fid f.ty.ttype = true := by
        unfold Known
        rw [List.any_eq_true]
        obtain ⟨g, hg, h1, h2⟩ := hf f (by simp)
        exact ⟨g, hg, by simp [h1, h2]⟩
      rw [if_pos hk]
      exact ⟨Unknowns_kept h v f.ty, Unknownsf_kept h as gs fs (fun g hg => hf g (by simp [hg]))⟩
end
end

end Thrift
