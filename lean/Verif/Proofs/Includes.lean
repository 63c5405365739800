import Verif.Spec.Includes
/-
Lemmas about programs of several files.
-/

namespace Thrift.Includes
open Rpc Spec.Includes
open Audit (Written Base)

/-! ### Parsing -/

theorem parse_some {fs : Files} {k : List Path} {path : Path} {ps : List TProgram} {p : TProgram} (h : parse fs k path = .ok (ps, p)) :
    path ∉ k ∧ ∃ src rs, fs.lookup path = some src ∧ parseAll fs (path :: k) src.includes = .ok rs ∧ program path src (rs.map (·.2)) = .ok p ∧
      ps = rs.flatMap fun r => r.1 ++ [r.2] := by
  rw [parse.eq_def] at h
  split at h
  · cases h
  · rename_i hk
    refine ⟨hk, ?_⟩
    split at h
    · cases h
    · rename_i src hf
      split at h
      · cases h
      · rename_i rs hr
        split at h
        · cases h
        · rename_i p' hp
          cases h
          exact ⟨src, rs, hf, hr, hp, rfl⟩

theorem parseAll_cons {fs : Files} {k : List Path} {i : Path} {is : List Path} {rs : List (List TProgram × TProgram)} (h : parseAll fs k (i :: is) = .ok rs) :
    ∃ r rs', parse fs k i = .ok r ∧ parseAll fs k is = .ok rs' ∧ rs = r :: rs' := by
  rw [parseAll.eq_def] at h
  dsimp only at h
  split at h
  · cases h
  · rename_i r hr
    split at h
    · cases h
    · rename_i rs' hrs
      cases h
      exact ⟨r, rs', hr, hrs, rfl⟩

theorem parseAll_nil {fs : Files} {k : List Path} {rs : List (List TProgram × TProgram)} (h : parseAll fs k [] = .ok rs) : rs = [] := by
  rw [parseAll.eq_def] at h
  cases h
  rfl

theorem parseAll_each {fs : Files} {k : List Path} {is : List Path} {rs : List (List TProgram × TProgram)} (h : parseAll fs k is = .ok rs) :
    (∀ r ∈ rs, ∃ i ∈ is, parse fs k i = .ok r) ∧ ∀ i ∈ is, ∃ r ∈ rs, parse fs k i = .ok r := by
  induction is generalizing rs with
  | nil => rw [parseAll_nil h]; simp
  | cons i is ih =>
    obtain ⟨r, rs', h1, h2, rfl⟩ := parseAll_cons h
    have := ih h2
    refine ⟨fun x hx => ?_, fun x hx => ?_⟩
    · rcases List.mem_cons.1 hx with rfl | hx
      · exact ⟨i, List.mem_cons_self, h1⟩
      · obtain ⟨j, hj, e⟩ := this.1 x hx
        exact ⟨j, List.mem_cons_of_mem _ hj, e⟩
    · rcases List.mem_cons.1 hx with rfl | hx
      · exact ⟨r, List.mem_cons_self, h1⟩
      · obtain ⟨j, hj, e⟩ := this.2 x hx
        exact ⟨j, List.mem_cons_of_mem _ hj, e⟩

theorem parse_induct {fs : Files} (motive : List Path → Path → List TProgram → TProgram → Prop)
    (step : ∀ k path src rs p, path ∉ k → fs.lookup path = some src → parseAll fs (path :: k) src.includes = .ok rs → program path src (rs.map (·.2)) = .ok p →
      (∀ i ∈ src.includes, ∀ r, parse fs (path :: k) i = .ok r → motive (path :: k) i r.1 r.2) → motive k path (rs.flatMap fun r => r.1 ++ [r.2]) p)
    (k : List Path) (path : Path) (ps : List TProgram) (p : TProgram) (h : parse fs k path = .ok (ps, p)) : motive k path ps p := by
  obtain ⟨hk, src, rs, h1, h2, h3, rfl⟩ := parse_some h
  have := filter_lt fs k path src hk h1
  exact step k path src rs p hk h1 h2 h3 fun i _ r hr => parse_induct motive step (path :: k) i r.1 r.2 hr
termination_by (fs.filter fun x => !k.contains x.1).length
decreasing_by assumption

theorem program_file {path : Path} {src : File} {incs : List TProgram} {p : TProgram} (h : program path src incs = .ok p) : p.file = path ∧ p.src = src := by
  unfold program at h
  dsimp only at h
  split at h
  · cases h
  · cases h; exact ⟨rfl, rfl⟩

theorem parse_file {fs : Files} {k : List Path} {path : Path} {ps : List TProgram} {p : TProgram} (h : parse fs k path = .ok (ps, p)) : p.file = path := by
  obtain ⟨_, _, _, _, _, h, _⟩ := parse_some h
  exact (program_file h).1

/-- What a file is parsed to does not depend on where it is included. -/
theorem parse_det {fs : Files} {k k' : List Path} {path : Path} {r r' : List TProgram × TProgram} (h : parse fs k path = .ok r) (h' : parse fs k' path = .ok r') : r = r' := by
  refine parse_induct (fun _ path ps p => ∀ k' r', parse fs k' path = .ok r' → (ps, p) = r') ?_ k path r.1 r.2 h k' r' h'
  intro k path src rs p _ h1 h2 h3 ih k' r' h'
  obtain ⟨ps', p'⟩ := r'
  obtain ⟨_, src', rs', g1, g2, g3, rfl⟩ := parse_some h'
  rw [h1] at g1
  cases g1
  have : ∀ (is : List Path), (∀ i ∈ is, ∀ r, parse fs (path :: k) i = .ok r → ∀ k' r', parse fs k' i = .ok r' → (r.1, r.2) = r') → ∀ rs rs', parseAll fs (path :: k) is = .ok rs →
      parseAll fs (path :: k') is = .ok rs' → rs = rs' := by
    intro is
    induction is with
    | nil => intro _ rs rs' a b; rw [parseAll_nil a, parseAll_nil b]
    | cons i is ih =>
      intro h rs rs' a b
      obtain ⟨r, t, a1, a2, rfl⟩ := parseAll_cons a
      obtain ⟨r', t', b1, b2, rfl⟩ := parseAll_cons b
      rw [ih (fun j hj => h j (List.mem_cons_of_mem _ hj)) t t' a2 b2, ← h i List.mem_cons_self r a1 _ r' b1]
  have e := this src.includes ih rs rs' h2 g2
  subst e
  rw [h3] at g3
  cases g3
  rfl

/-- The programs that are compiled -/
structure Linked (fs : Files) (all : List TProgram) : Prop where
  same : ∀ q ∈ all, ∀ q' ∈ all, q.file = q'.file → q = q'
  made : ∀ q ∈ all, fs.lookup q.file = some q.src ∧ ∃ incs, incs.map TProgram.file = q.src.includes ∧ (∀ i ∈ incs, i ∈ all) ∧ program q.file q.src incs = .ok q

theorem parseAll_files {fs : Files} {k : List Path} {is : List Path} {rs : List (List TProgram × TProgram)} (h : parseAll fs k is = .ok rs) : (rs.map (·.2)).map TProgram.file = is := by
  induction is generalizing rs with
  | nil => rw [parseAll_nil h]; rfl
  | cons i is ih =>
    obtain ⟨r, rs', h1, h2, rfl⟩ := parseAll_cons h
    rw [List.map_cons, List.map_cons, ih h2, parse_file (ps := r.1) (p := r.2) h1]

theorem parse_elems {fs : Files} {k : List Path} {path : Path} {ps : List TProgram} {p : TProgram} (h : parse fs k path = .ok (ps, p)) :
    ∀ q ∈ ps ++ [p], ∃ k' ps', parse fs k' q.file = .ok (ps', q) ∧ ∀ x ∈ ps', x ∈ ps := by
  refine parse_induct (fun k path ps p => parse fs k path = .ok (ps, p) → ∀ q ∈ ps ++ [p], ∃ k' ps', parse fs k' q.file = .ok (ps', q) ∧ ∀ x ∈ ps', x ∈ ps) ?_ k path ps p h h
  intro k path src rs p hk h1 h2 h3 ih h q hq
  rcases List.mem_append.1 hq with hq | hq
  · obtain ⟨r, hr, hq⟩ := List.mem_flatMap.1 hq
    obtain ⟨i, hi, e⟩ := (parseAll_each h2).1 r hr
    obtain ⟨k', ps', e', hs⟩ := ih i hi r e e q hq
    exact ⟨k', ps', e', fun x hx => List.mem_flatMap.2 ⟨r, hr, List.mem_append_left _ (hs x hx)⟩⟩
  · rw [List.mem_singleton.1 hq]
    exact ⟨k, _, (parse_file h).symm ▸ h, fun x hx => hx⟩

theorem parse_linked {fs : Files} {k : List Path} {path : Path} {ps : List TProgram} {p : TProgram} (h : parse fs k path = .ok (ps, p)) : Linked fs (ps ++ [p]) := by
  refine ⟨fun q hq q' hq' e => ?_, fun q hq => ?_⟩
  · obtain ⟨k1, ps1, e1, _⟩ := parse_elems h q hq
    obtain ⟨k2, ps2, e2, _⟩ := parse_elems h q' hq'
    rw [← e] at e2
    have := parse_det e1 e2
    cases this
    rfl
  · obtain ⟨k1, ps1, e1, hs⟩ := parse_elems h q hq
    obtain ⟨_, src, rs, g1, g2, g3, g4⟩ := parse_some e1
    have := (program_file g3).2
    subst this
    refine ⟨g1, rs.map (·.2), parseAll_files g2, fun i hi => ?_, g3⟩
    obtain ⟨r, hr, rfl⟩ := List.mem_map.1 hi
    refine List.mem_append_left _ (hs _ ?_)
    rw [g4]
    exact List.mem_flatMap.2 ⟨r, hr, by simp⟩

theorem compile_some {fs : Files} {path : Path} {all : List TProgram} (h : compile fs path = .ok all) : ∃ ps p, parse fs [] path = .ok (ps, p) ∧ all = ps ++ [p] := by
  unfold compile at h
  split at h
  · cases h
  · rename_i ps p e
    cases h
    exact ⟨ps, p, e, rfl⟩

theorem compile_linked {fs : Files} {path : Path} {all : List TProgram} (h : compile fs path = .ok all) : Linked fs all := by
  obtain ⟨ps, p, e, rfl⟩ := compile_some h
  exact parse_linked e

/-! ### Cycles -/

theorem reaches_snoc {fs : Files} {a b c : Path} (h : Reaches fs a b) (h' : Includes fs b c) : Reaches fs a c := by
  induction h with
  | refl f => exact .step _ _ _ h' (.refl _)
  | step f g x i _ ih => exact .step _ _ _ i (ih h')

theorem reaches_trans {fs : Files} {a b c : Path} (h : Reaches fs a b) (h' : Reaches fs b c) : Reaches fs a c := by
  induction h with
  | refl f => exact h'
  | step f g x i _ ih => exact .step _ _ _ i (ih h')

theorem parse_reach {fs : Files} {a b : Path} (hr : Reaches fs a b) : ∀ {k : List Path} {ps : List TProgram} {p : TProgram}, parse fs k a = .ok (ps, p) →
    ∃ k' ps' p', parse fs k' b = .ok (ps', p') ∧ (∀ x ∈ k, x ∈ k') ∧ (a ≠ b → a ∈ k') := by
  induction hr with
  | refl f => intro k ps p h; exact ⟨k, ps, p, h, fun _ h => h, fun h => absurd rfl h⟩
  | step f g c hi _ ih =>
    intro k ps p h
    obtain ⟨F, hF, hg⟩ := hi
    obtain ⟨_, src, rs, h1, h2, _, _⟩ := parse_some h
    rw [hF] at h1
    cases h1
    obtain ⟨r, _, hr⟩ := (parseAll_each h2).2 g hg
    obtain ⟨k', ps', p', e, h3, _⟩ := ih (ps := r.1) (p := r.2) hr
    exact ⟨k', ps', p', e, fun x hx => h3 x (List.mem_cons_of_mem _ hx), fun _ => h3 f List.mem_cons_self⟩

theorem parse_acyclic {fs : Files} {k : List Path} {a : Path} {ps : List TProgram} {p : TProgram} (h : parse fs k a = .ok (ps, p)) : ¬ Circular fs a := by
  rintro ⟨g, ⟨F, hF, hg⟩, hr⟩
  obtain ⟨_, src, rs, h1, h2, _, _⟩ := parse_some h
  rw [hF] at h1
  cases h1
  obtain ⟨r, _, hr'⟩ := (parseAll_each h2).2 g hg
  obtain ⟨k', ps', p', e, h3, _⟩ := parse_reach hr (ps := r.1) (p := r.2) hr'
  exact (parse_some e).1 (h3 a List.mem_cons_self)

theorem declareAll_not_recursion {file : Path} {src : File} {incs : List TProgram} {oT : List (PyStr × Typ)} {oS : List (PyStr × Svc)} {ds : List Decl} {s : State} :
    declareAll file src incs oT oS ds s ≠ .error .recursion := by
  induction ds generalizing s with
  | nil => intro h; cases h
  | cons d ds ih =>
    intro h
    rw [declareAll] at h
    split at h
    · rename_i e he
      cases h
      unfold declare at he
      dsimp only at he
      repeat' (split at he)
      all_goals first | cases he | skip
    · exact ih h

theorem parse_recursion (fs : Files) (k : List Path) (path : Path) (hk : ∀ x ∈ k, ∃ g, Includes fs x g ∧ Reaches fs g path) (h : parse fs k path = .error .recursion) :
    ∃ f, Reaches fs path f ∧ Circular fs f := by
  rw [parse.eq_def] at h
  split at h
  · rename_i hm
    exact ⟨path, .refl _, hk path hm⟩
  · rename_i hm
    split at h
    · cases h
    · rename_i src hf
      split at h
      · rename_i e he
        cases h
        have : ∀ is : List Path, (∀ i ∈ is, i ∈ src.includes) → parseAll fs (path :: k) is = .error .recursion → ∃ i ∈ src.includes, parse fs (path :: k) i = .error .recursion := by
          intro is
          induction is with
          | nil => intro _ h; rw [parseAll.eq_def] at h; cases h
          | cons i is ih =>
            intro hi h
            rw [parseAll.eq_def] at h
            dsimp only at h
            split at h
            · rename_i e he
              cases h
              exact ⟨i, hi i List.mem_cons_self, he⟩
            · split at h
              · rename_i e he
                cases h
                exact ih (fun j hj => hi j (List.mem_cons_of_mem _ hj)) he
              · cases h
        obtain ⟨i, hi, he⟩ := this src.includes (fun _ h => h) he
        have hinc : Includes fs path i := ⟨src, hf, hi⟩
        have := filter_lt fs k path src hm hf
        obtain ⟨f, h1, h2⟩ := parse_recursion fs (path :: k) i (fun x hx => by
          rcases List.mem_cons.1 hx with rfl | hx
          · exact ⟨i, hinc, .refl _⟩
          · obtain ⟨g, hg, hr⟩ := hk x hx
            exact ⟨g, hg, reaches_snoc hr hinc⟩) he
        exact ⟨f, .step _ _ _ hinc h1, h2⟩
      · rename_i rs hr
        split at h
        · rename_i e he
          cases h
          unfold program at he
          dsimp only at he
          split at he
          · rename_i e' he'
            cases he
            exact absurd he' declareAll_not_recursion
          · cases he
        · cases h
termination_by (fs.filter fun x => !k.contains x.1).length
decreasing_by assumption

/-! ### Declarations -/

theorem lookup_of_mem {α : Type} {l : List (PyStr × α)} {n : PyStr} {x : α} (hn : (l.map (·.1)).Nodup) (h : (n, x) ∈ l) : l.lookup n = some x := by
  induction l with
  | nil => cases h
  | cons y ys ih =>
    rw [List.map_cons, List.nodup_cons] at hn
    rw [List.lookup_cons]
    rcases List.mem_cons.1 h with rfl | h
    · simp
    · have : (n == y.1) = false := by
        rw [beq_eq_false_iff_ne]
        rintro rfl
        exact hn.1 (List.mem_map.2 ⟨_, h, rfl⟩)
      rw [this]
      exact ih hn.2 h

theorem lookup_isSome {α : Type} {l : List (PyStr × α)} {n : PyStr} (h : n ∈ l.map (·.1)) : ∃ x, l.lookup n = some x := by
  induction l with
  | nil => cases h
  | cons y ys ih =>
    rw [List.lookup_cons]
    cases e : n == y.1 with
    | true => exact ⟨_, rfl⟩
    | false =>
      rw [List.map_cons] at h
      rcases List.mem_cons.1 h with h | h
      · simp [h] at e
      · exact ih h

theorem lookup_none {α : Type} {l : List (PyStr × α)} {n : PyStr} (h : n ∉ l.map (·.1)) : l.lookup n = none := by
  cases e : l.lookup n with
  | none => rfl
  | some x => exact absurd (List.mem_map.2 ⟨_, mem_of_lookup e, rfl⟩) h

theorem lookup_append' {α : Type} (a b : List (PyStr × α)) (n : PyStr) : (a ++ b).lookup n = (a.lookup n).or (b.lookup n) := by
  induction a with
  | nil => simp
  | cons y ys ih =>
    rw [List.cons_append, List.lookup_cons, List.lookup_cons]
    split
    · simp
    · exact ih

/-- What is found in `a` is found in `b`. -/
def Sub {α : Type} (a b : List (PyStr × α)) : Prop := ∀ n x, a.lookup n = some x → b.lookup n = some x

theorem Sub.refl {α : Type} (a : List (PyStr × α)) : Sub a a := fun _ _ h => h

theorem Sub.trans {α : Type} {a b c : List (PyStr × α)} (h : Sub a b) (h' : Sub b c) : Sub a c := fun n x e => h' n x (h n x e)

/-- A new name -/
theorem Sub.cons {α : Type} {a b : List (PyStr × α)} {n : PyStr} {x : α} (ha : n ∉ a.map (·.1)) (hb : n ∉ b.map (·.1)) : Sub (a ++ b) ((n, x) :: a ++ b) := by
  intro m y h
  rw [List.cons_append, List.lookup_cons]
  cases e : m == n with
  | false => exact h
  | true =>
    have := eq_of_beq e
    subst this
    rw [lookup_append', lookup_none ha, lookup_none hb] at h
    cases h

def Decl.name : Decl → PyStr
  | .type n _ => n
  | .service n _ _ => n

/-- What a type is declared as, in a scope that has at most what `scope` has -/
def TypFor (file : Path) (scope : List (PyStr × Typ)) (n : PyStr) (b : Body) (t : Typ) : Prop :=
  match b with
  | .typedef w => ∃ sc, Sub sc scope ∧ t = .typedef ⟨file, n⟩ (fieldType sc file w)
  | .enum => t = .enum ⟨file, n⟩
  | .struct _ => t = .struct ⟨file, n⟩

/-- The types of fields or functions -/
def TypesFor (file : Path) (scope : List (PyStr × Typ)) (ws : List Written) (ts : List Typ) : Prop := ∃ sc, Sub sc scope ∧ ts = ws.map (fieldType sc file)

/-- What a service is declared as -/
structure SvcFor (file : Path) (scope : List (PyStr × Typ)) (services : List (PyStr × Svc)) (n : PyStr) (ext : Option PyStr) (fns : List FnDecl) (s : Svc) : Prop where
  id : s.id = ⟨file, n⟩
  made : ∃ sc, Sub sc scope ∧ s.fns = fns.map fun f => (f.1, f.2.map (fieldType sc file))
  once : Includes.distinct fns = true
  base : match ext, s.base with
    | none, none => True
    | some e, some b => services.lookup e = some b ∧ ∀ f ∈ fns, b.has f.1 = false
    | _, _ => False

theorem TypFor.mono {file : Path} {sc sc' : List (PyStr × Typ)} {n : PyStr} {b : Body} {t : Typ} (h : TypFor file sc n b t) (hs : Sub sc sc') : TypFor file sc' n b t := by
  cases b with
  | typedef w => obtain ⟨x, h1, h2⟩ := h; exact ⟨x, h1.trans hs, h2⟩
  | enum => exact h
  | struct ws => exact h

theorem TypesFor.mono {file : Path} {sc sc' : List (PyStr × Typ)} {ws : List Written} {ts : List Typ} (h : TypesFor file sc ws ts) (hs : Sub sc sc') : TypesFor file sc' ws ts := by
  obtain ⟨x, h1, h2⟩ := h
  exact ⟨x, h1.trans hs, h2⟩

theorem SvcFor.mono {file : Path} {sc sc' : List (PyStr × Typ)} {sv sv' : List (PyStr × Svc)} {n : PyStr} {ext : Option PyStr} {fns : List FnDecl} {s : Svc} (h : SvcFor file sc sv n ext fns s)
    (hs : Sub sc sc') (hv : Sub sv sv') : SvcFor file sc' sv' n ext fns s := by
  obtain ⟨a, ⟨x, h1, h2⟩, b, c⟩ := h
  refine ⟨a, ⟨x, h1.trans hs, h2⟩, b, ?_⟩
  revert c
  cases ext <;> cases s.base <;> simp only [imp_self]
  rintro ⟨c1, c2⟩
  exact ⟨hv _ _ c1, c2⟩

/-- A program after the declarations `ds` -/
structure Inv (file : Path) (oT : List (PyStr × Typ)) (oS : List (PyStr × Svc)) (ds : List Decl) (s : State) : Prop where
  nodup : (ds.map Decl.name).Nodup
  simple : ∀ d ∈ ds, Structs.simple d.name = true
  tnodup : (s.types.map (·.1)).Nodup
  snodup : (s.services.map (·.1)).Nodup
  types : ∀ n t, (n, t) ∈ s.types → ∃ b, .type n b ∈ ds ∧ TypFor file (s.types ++ oT) n b t
  types' : ∀ n b, .type n b ∈ ds → ∃ t, (n, t) ∈ s.types ∧ TypFor file (s.types ++ oT) n b t
  enums : ∀ n, n ∈ s.enums ↔ .type n .enum ∈ ds
  objects : ∀ n ts, (n, ts) ∈ s.objects → ∃ ws, .type n (.struct ws) ∈ ds ∧ TypesFor file (s.types ++ oT) ws ts
  objects' : ∀ n ws, .type n (.struct ws) ∈ ds → ∃ ts, (n, ts) ∈ s.objects ∧ TypesFor file (s.types ++ oT) ws ts
  services : ∀ n v, (n, v) ∈ s.services → ∃ e fns, .service n e fns ∈ ds ∧ SvcFor file (s.types ++ oT) (s.services ++ oS) n e fns v
  services' : ∀ n e fns, .service n e fns ∈ ds → ∃ v, (n, v) ∈ s.services ∧ SvcFor file (s.types ++ oT) (s.services ++ oS) n e fns v

theorem unique_true {src : File} {incs : List TProgram} {s : State} {n : PyStr} (h : unique src incs s n = true) : n ∉ s.types.map (·.1) ∧ n ∉ s.services.map (·.1) := by
  simp only [unique, Bool.and_eq_true, Bool.not_eq_true', List.any_eq_false, beq_iff_eq] at h
  exact ⟨fun hm => by obtain ⟨x, hx, rfl⟩ := List.mem_map.1 hm; exact h.1.1 x hx rfl, fun hm => by obtain ⟨x, hx, rfl⟩ := List.mem_map.1 hm; exact h.1.2 x hx rfl⟩

section
variable {file : Path} {src : File} {incs : List TProgram} {oT : List (PyStr × Typ)} {oS : List (PyStr × Svc)}

theorem Inv.fresh {ds : List Decl} {s : State} (h : Inv file oT oS ds s) {n : PyStr} (h1 : n ∉ s.types.map (·.1)) (h2 : n ∉ s.services.map (·.1)) : n ∉ ds.map Decl.name := by
  intro hm
  obtain ⟨d, hd, rfl⟩ := List.mem_map.1 hm
  cases d with
  | type n b =>
    obtain ⟨t, ht, _⟩ := h.types' n b hd
    exact h1 (List.mem_map.2 ⟨_, ht, rfl⟩)
  | service n e fns =>
    obtain ⟨t, ht, _⟩ := h.services' n e fns hd
    exact h2 (List.mem_map.2 ⟨_, ht, rfl⟩)

theorem nodup_snoc {ds : List Decl} {d : Decl} (h : (ds.map Decl.name).Nodup) (h' : d.name ∉ ds.map Decl.name) : ((ds ++ [d]).map Decl.name).Nodup := by
  rw [List.map_append, List.nodup_append]
  refine ⟨h, by simp, fun a ha b hb e => ?_⟩
  rw [List.map_singleton, List.mem_singleton] at hb
  exact h' (hb ▸ e ▸ ha)

theorem Inv.step (hT : ∀ n ∈ oT.map (·.1), Structs.simple n = false) (hS : ∀ n ∈ oS.map (·.1), Structs.simple n = false) {ds : List Decl} {s s' : State} {d : Decl}
    (h : Inv file oT oS ds s) (hd : declare file src incs oT oS s d = .ok s') : Inv file oT oS (ds ++ [d]) s' := by
  cases d with
  | type n b =>
    rw [declare.eq_def] at hd
    dsimp only at hd
    split at hd
    · cases hd
    · rename_i hsimple
      have hsimple : Structs.simple n = true := by simpa using hsimple
      split at hd
      · cases hd
      · rename_i hu
        obtain ⟨h1, h2⟩ := unique_true (by simpa using hu)
        have hfresh := h.fresh h1 h2
        have hnd := nodup_snoc (d := .type n b) h.nodup hfresh
        have ho : n ∉ oT.map (·.1) := fun hm => by rw [hT n hm] at hsimple; cases hsimple
        have hsub : ∀ t : Typ, Sub (s.types ++ oT) ((n, t) :: s.types ++ oT) := fun t => Sub.cons h1 ho
        have hsm : ∀ d ∈ ds ++ [.type n b], Structs.simple d.name = true := fun d hd => by
          rcases List.mem_append.1 hd with hd | hd
          · exact h.simple d hd
          · rw [List.mem_singleton.1 hd]; exact hsimple
        have main : ∀ (t : Typ) (en : List PyStr) (ob : List (PyStr × List Typ)), TypFor file ((n, t) :: s.types ++ oT) n b t →
            (∀ m, m ∈ en ↔ .type m .enum ∈ ds ++ [.type n b]) →
            (∀ m ts, (m, ts) ∈ ob → ∃ ws, .type m (.struct ws) ∈ ds ++ [.type n b] ∧ TypesFor file ((n, t) :: s.types ++ oT) ws ts) →
            (∀ m ws, .type m (.struct ws) ∈ ds ++ [.type n b] → ∃ ts, (m, ts) ∈ ob ∧ TypesFor file ((n, t) :: s.types ++ oT) ws ts) →
            Inv file oT oS (ds ++ [.type n b]) { s with types := (n, t) :: s.types, enums := en, objects := ob } := by
          intro t en ob ht he hob hob'
          refine ⟨hnd, hsm, ?_, h.snodup, fun m x hx => ?_, fun m x hx => ?_, he, hob, hob', fun m v hv => ?_, fun m e fns hx => ?_⟩
          · rw [List.map_cons, List.nodup_cons]; exact ⟨h1, h.tnodup⟩
          · rcases List.mem_cons.1 hx with hx | hx
            · cases hx
              exact ⟨b, by simp, ht⟩
            · obtain ⟨b', h3, h4⟩ := h.types m x hx
              exact ⟨b', List.mem_append_left _ h3, h4.mono (hsub t)⟩
          · rcases List.mem_append.1 hx with hx | hx
            · obtain ⟨t', h3, h4⟩ := h.types' m x hx
              exact ⟨t', List.mem_cons_of_mem _ h3, h4.mono (hsub t)⟩
            · cases List.mem_singleton.1 hx
              exact ⟨t, List.mem_cons_self, ht⟩
          · obtain ⟨e, fns, h3, h4⟩ := h.services m v hv
            exact ⟨e, fns, List.mem_append_left _ h3, h4.mono (hsub t) (.refl _)⟩
          · rcases List.mem_append.1 hx with hx | hx
            · obtain ⟨v, h3, h4⟩ := h.services' m e fns hx
              exact ⟨v, h3, h4.mono (hsub t) (.refl _)⟩
            · cases List.mem_singleton.1 hx
        cases b with
        | typedef w =>
          cases hd
          refine main _ s.enums s.objects ⟨_, hsub _, rfl⟩ (fun m => ?_) (fun m ts hm => ?_) (fun m ws hm => ?_)
          · rw [h.enums]; simp
          · obtain ⟨ws, h3, h4⟩ := h.objects m ts hm
            exact ⟨ws, List.mem_append_left _ h3, h4.mono (hsub _)⟩
          · rcases List.mem_append.1 hm with hm | hm
            · obtain ⟨ts, h3, h4⟩ := h.objects' m ws hm
              exact ⟨ts, h3, h4.mono (hsub _)⟩
            · cases List.mem_singleton.1 hm
        | enum =>
          cases hd
          refine main _ (s.enums ++ [n]) s.objects rfl (fun m => ?_) (fun m ts hm => ?_) (fun m ws hm => ?_)
          · rw [List.mem_append, h.enums]; simp
          · obtain ⟨ws, h3, h4⟩ := h.objects m ts hm
            exact ⟨ws, List.mem_append_left _ h3, h4.mono (hsub _)⟩
          · rcases List.mem_append.1 hm with hm | hm
            · obtain ⟨ts, h3, h4⟩ := h.objects' m ws hm
              exact ⟨ts, h3, h4.mono (hsub _)⟩
            · cases List.mem_singleton.1 hm
        | struct ws0 =>
          cases hd
          refine main _ s.enums (s.objects ++ [_]) rfl (fun m => ?_) (fun m ts hm => ?_) (fun m ws hm => ?_)
          · rw [h.enums]; simp
          · rcases List.mem_append.1 hm with hm | hm
            · obtain ⟨ws, h3, h4⟩ := h.objects m ts hm
              exact ⟨ws, List.mem_append_left _ h3, h4.mono (hsub _)⟩
            · cases List.mem_singleton.1 hm
              exact ⟨ws0, by simp, _, hsub _, rfl⟩
          · rcases List.mem_append.1 hm with hm | hm
            · obtain ⟨ts, h3, h4⟩ := h.objects' m ws hm
              exact ⟨ts, List.mem_append_left _ h3, h4.mono (hsub _)⟩
            · cases List.mem_singleton.1 hm
              exact ⟨_, List.mem_append_right _ List.mem_cons_self, _, hsub _, rfl⟩
  | service n ext fns =>
    have main : ∀ v : Svc, Structs.simple n = true → n ∉ s.types.map (·.1) → n ∉ s.services.map (·.1) →
        (Sub (s.services ++ oS) ((n, v) :: s.services ++ oS) → SvcFor file (s.types ++ oT) ((n, v) :: s.services ++ oS) n ext fns v) →
        Inv file oT oS (ds ++ [.service n ext fns]) { s with services := (n, v) :: s.services } := by
      intro v hsimple h1 h2 hv
      have hfresh := h.fresh h1 h2
      have ho : n ∉ oS.map (·.1) := fun hm => by rw [hS n hm] at hsimple; cases hsimple
      have hsub : Sub (s.services ++ oS) ((n, v) :: s.services ++ oS) := Sub.cons h2 ho
      have hv := hv hsub
      refine ⟨nodup_snoc h.nodup hfresh, fun d hd => ?_, h.tnodup, ?_, fun m x hx => ?_, fun m x hx => ?_, fun m => ?_, fun m ts hm => ?_, fun m ws hm => ?_, fun m x hx => ?_, fun m e f hx => ?_⟩
      · rcases List.mem_append.1 hd with hd | hd
        · exact h.simple d hd
        · rw [List.mem_singleton.1 hd]; exact hsimple
      · rw [List.map_cons, List.nodup_cons]; exact ⟨h2, h.snodup⟩
      · obtain ⟨b', h3, h4⟩ := h.types m x hx
        exact ⟨b', List.mem_append_left _ h3, h4⟩
      · rcases List.mem_append.1 hx with hx | hx
        · exact h.types' m x hx
        · cases List.mem_singleton.1 hx
      · rw [h.enums]; simp
      · obtain ⟨ws, h3, h4⟩ := h.objects m ts hm
        exact ⟨ws, List.mem_append_left _ h3, h4⟩
      · rcases List.mem_append.1 hm with hm | hm
        · exact h.objects' m ws hm
        · cases List.mem_singleton.1 hm
      · rcases List.mem_cons.1 hx with hx | hx
        · cases hx
          exact ⟨ext, fns, by simp, hv⟩
        · obtain ⟨e, f, h3, h4⟩ := h.services m x hx
          exact ⟨e, f, List.mem_append_left _ h3, h4.mono (.refl _) hsub⟩
      · rcases List.mem_append.1 hx with hx | hx
        · obtain ⟨w, h3, h4⟩ := h.services' m e f hx
          exact ⟨w, List.mem_cons_of_mem _ h3, h4.mono (.refl _) hsub⟩
        · cases List.mem_singleton.1 hx
          exact ⟨v, List.mem_cons_self, hv⟩
    rw [declare.eq_def] at hd
    dsimp only at hd
    cases ext with
    | none =>
      dsimp only at hd
      split at hd
      · cases hd
      · rename_i hdis
        split at hd
        · cases hd
        · rename_i hsimple
          split at hd
          · cases hd
          · rename_i hu
            cases hd
            obtain ⟨h1, h2⟩ := unique_true (by simpa using hu)
            exact main _ (by simpa using hsimple) h1 h2 fun _ => ⟨rfl, ⟨_, .refl _, rfl⟩, by simpa using hdis, trivial⟩
    | some e =>
      dsimp only at hd
      split at hd
      · cases hd
      · rename_i b hb
        split at hd
        · cases hd
        · rename_i hdis
          split at hd
          · cases hd
          · rename_i hsimple
            split at hd
            · cases hd
            · rename_i hhas
              split at hd
              · cases hd
              · rename_i hu
                cases hd
                obtain ⟨h1, h2⟩ := unique_true (by simpa using hu)
                exact main _ (by simpa using hsimple) h1 h2 fun hsub => ⟨rfl, ⟨_, .refl _, rfl⟩, by simpa using hdis, hsub _ _ hb, by simpa using hhas⟩

theorem Inv.all (hT : ∀ n ∈ oT.map (·.1), Structs.simple n = false) (hS : ∀ n ∈ oS.map (·.1), Structs.simple n = false) {ds rest : List Decl} {s s' : State}
    (h : Inv file oT oS ds s) (hd : declareAll file src incs oT oS rest s = .ok s') : Inv file oT oS (ds ++ rest) s' := by
  induction rest generalizing ds s with
  | nil => cases hd; simpa using h
  | cons d rest ih =>
    rw [declareAll] at hd
    split at hd
    · cases hd
    · rename_i s1 h1
      have := ih (h.step hT hS h1) hd
      simpa using this

end

theorem Inv.empty (file : Path) (oT : List (PyStr × Typ)) (oS : List (PyStr × Svc)) : Inv file oT oS [] {} := by
  refine ⟨List.nodup_nil, ?_, List.nodup_nil, List.nodup_nil, ?_, ?_, ?_, ?_, ?_, ?_, ?_⟩ <;> simp

theorem exported_dot {α : Type} (incs : List TProgram) (g : TProgram → List (PyStr × α)) : ∀ n ∈ (incs.flatMap fun i => exported i.file (g i)).map (·.1), Structs.simple n = false := by
  intro n hn
  obtain ⟨x, hx, rfl⟩ := List.mem_map.1 hn
  obtain ⟨i, _, hx⟩ := List.mem_flatMap.1 hx
  obtain ⟨y, _, rfl⟩ := List.mem_map.1 hx
  simp [Structs.simple]

/-- A program that was parsed -/
structure Parsed (fs : Files) (all : List TProgram) (q : TProgram) (incs : List TProgram) : Prop where
  src : fs.lookup q.file = some q.src
  files : incs.map TProgram.file = q.src.includes
  mem : ∀ i ∈ incs, i ∈ all
  types : q.outerTypes = incs.reverse.flatMap fun i => exported i.file i.own.types
  services : q.outerServices = incs.reverse.flatMap fun i => exported i.file i.own.services
  inv : Inv q.file q.outerTypes q.outerServices q.src.decls q.own

theorem Linked.parsed {fs : Files} {all : List TProgram} (h : Linked fs all) {q : TProgram} (hq : q ∈ all) : ∃ incs, Parsed fs all q incs := by
  obtain ⟨h1, incs, h2, h3, h4⟩ := h.made q hq
  refine ⟨incs, ?_⟩
  unfold program at h4
  dsimp only at h4
  split at h4
  · cases h4
  · rename_i s hs
    have hi := (Inv.empty q.file _ _).all (exported_dot incs.reverse fun i => i.own.types) (exported_dot incs.reverse fun i => i.own.services) hs
    rw [List.nil_append] at hi
    injection h4 with h4
    have e1 : q.outerTypes = incs.reverse.flatMap fun i => exported i.file i.own.types := by rw [← h4]
    have e2 : q.outerServices = incs.reverse.flatMap fun i => exported i.file i.own.services := by rw [← h4]
    have e3 : q.own = s := by rw [← h4]
    exact ⟨h1, h2, h3, e1, e2, by rw [e1, e2, e3]; exact hi⟩

theorem Linked.progOf {fs : Files} {all : List TProgram} (h : Linked fs all) {q : TProgram} (hq : q ∈ all) : progOf all q.file = some q := by
  unfold Includes.progOf
  cases e : all.find? fun p => p.file == q.file with
  | none => exact (List.find?_eq_none.1 e q hq (by simp)).elim
  | some p =>
    have h1 : p.file = q.file := by simpa using List.find?_some e
    rw [h.same p (List.mem_of_find?_eq_some e) q hq h1]

end Thrift.Includes
