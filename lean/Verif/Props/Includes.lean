import Verif.Proofs.IncludesPython
import Verif.Proofs.IncludesClash
import Verif.Spec.Rpc
/-
C92, and C88 for services of several files.
-/

namespace Thrift.Includes
open Rpc Spec Spec.Includes
open Audit (Written Base)

/-! ### Which files are compiled -/

/-- C92: what is compiled has no circular includes. -/
theorem compile_acyclic {fs : Files} {path : Path} {all : List TProgram} (h : compile fs path = .ok all) (f : Path) (hr : Reaches fs path f) : ¬ Circular fs f := by
  obtain ⟨ps, p, e, rfl⟩ := compile_some h
  obtain ⟨k', ps', p', e', _⟩ := parse_reach hr e
  exact parse_acyclic e'

/-- C92: "recursion detected" is said only if there is a circular include; the same file may be included from several others. -/
theorem recursion_circular {fs : Files} {path : Path} (h : compile fs path = .error .recursion) : ∃ f, Reaches fs path f ∧ Circular fs f := by
  unfold compile at h
  split at h
  · rename_i e he
    cases h
    exact parse_recursion fs [] path (fun x hx => nomatch hx) he
  · cases h

/-- C92: code is generated for the file and for all that it includes, directly or not. -/
theorem compile_files {fs : Files} {path : Path} {all : List TProgram} (h : compile fs path = .ok all) (f : Path) : (∃ q ∈ all, q.file = f) ↔ Reaches fs path f := by
  have hl := compile_linked h
  obtain ⟨ps, p, e, rfl⟩ := compile_some h
  constructor
  · rintro ⟨q, hq, rfl⟩
    refine parse_induct (fun k path ps p => parse fs k path = .ok (ps, p) → ∀ q ∈ ps ++ [p], Reaches fs path q.file) ?_ [] path ps p e e q hq
    intro k path src rs p _ h1 h2 _ ih h q hq
    rcases List.mem_append.1 hq with hq | hq
    · obtain ⟨r, hr, hq⟩ := List.mem_flatMap.1 hq
      obtain ⟨i, hi, e⟩ := (parseAll_each h2).1 r hr
      exact .step _ _ _ ⟨src, h1, hi⟩ (ih i hi r e e q hq)
    · rw [List.mem_singleton.1 hq, parse_file h]
      exact .refl _
  · intro hr
    have : ∀ g f, Reaches fs g f → ∀ q ∈ ps ++ [p], q.file = g → ∃ q' ∈ ps ++ [p], q'.file = f := by
      intro g f hr
      induction hr with
      | refl f => exact fun q hq e => ⟨q, hq, e⟩
      | step f g c hi _ ih =>
        intro q hq hqf
        subst hqf
        obtain ⟨qi, hqi, e⟩ := hl.inc hq hi
        exact ih qi hqi e
    exact this path f hr p (by simp) (parse_file e)

/-! ### Names that clash -/

/-- C92: in what is compiled no file declares a name twice, nor one that a file which it includes also declares, unless their namespaces differ in some language. -/
theorem names_apart {fs : Files} {path : Path} {all : List TProgram} (h : compile fs path = .ok all) {f : Path} (hr : Reaches fs path f) : ¬ Clash fs f := by
  obtain ⟨q, hq, rfl⟩ := (compile_files h f).2 hr
  exact (compile_linked h).no_clash hq

/-- C92: "already defined" is said only if there is such a file. -/
theorem defined_clash {fs : Files} {path : Path} (h : compile fs path = .error .defined) : ∃ f, Reaches fs path f ∧ Clash fs f := by
  unfold compile at h
  split at h
  · rename_i e he
    cases h
    exact parse_defined fs [] path he
  · cases h

/-- C92: the modules of a file are in the package that its namespace for Python names, or that for all languages, or in one called like the file. -/
theorem package_of {fs : Files} {path : Path} {all : List TProgram} (_h : compile fs path = .ok all) {q : TProgram} (_hq : q ∈ all) {x : PyStr} (hx : NamespaceOf q.src.namespaces (pyStr "py") x) :
    (∀ part ∈ q.module, 46 ∉ part) ∧ [46].intercalate q.module = if x = [] then programName q.file else x := by
  rw [TProgram.module, getNamespace_iff.1 hx]
  exact ⟨fun part hp => split_dot _ part hp, split_join _⟩

/-! ### What types are -/

/-- C92: if no file includes two of the same base name, the types of the fields of a struct are what they denote: names without a dot are those of the file itself, `base.name` is what the included
file `base.thrift` declares, and typedefs are followed in the file where they are declared. -/
theorem struct_types {fs : Files} {path : Path} {all : List TProgram} (h : compile fs path = .ok all) (hc : Clear fs) {q : TProgram} (hq : q ∈ all) {n : PyStr} {ws : List Written}
    (hd : Declares fs ⟨q.file, n⟩ (.struct ws)) :
    ∃ ts, (n, ts) ∈ q.own.objects ∧ ts.length = ws.length ∧
      ∀ (j : Nat) w t, ws[j]? = some w → ts[j]? = some t → ∀ m, (∃ k, meaning all k t = some m) ↔ Denotes fs q.file w m := by
  have hl := compile_linked h
  obtain ⟨incs, hp⟩ := hl.parsed hq
  obtain ⟨ts, h1, sc, hs, rfl⟩ := hp.inv.objects' n ws ((hl.declares hq).1 hd)
  refine ⟨_, h1, List.length_map _, fun j w t hw ht m => ?_⟩
  rw [List.getElem?_map, hw] at ht
  cases ht
  exact ⟨fun ⟨k, e⟩ => field_denotes hl hq hs w k e, fun hd => denotes_field hl hc hd hq rfl hs⟩

/-- C92: the same for the types in the declaration of a function. -/
theorem function_types {fs : Files} {path : Path} {all : List TProgram} (h : compile fs path = .ok all) (hc : Clear fs) {q : TProgram} (hq : q ∈ all) {n : PyStr} {e : Option PyStr}
    {fns : List FnDecl} (hd : DeclaresService fs ⟨q.file, n⟩ e fns) :
    ∃ v, (n, v) ∈ q.own.services ∧ v.fns.map (·.1) = fns.map (·.1) ∧
      ∀ (i j : Nat) f g w t, fns[i]? = some f → v.fns[i]? = some g → f.2[j]? = some w → g.2[j]? = some t → ∀ m, (∃ k, meaning all k t = some m) ↔ Denotes fs q.file w m := by
  have hl := compile_linked h
  obtain ⟨incs, hp⟩ := hl.parsed hq
  obtain ⟨v, h1, h2⟩ := hp.inv.services' n e fns ((hl.declaresService hq).1 hd)
  obtain ⟨sc, hs, hm⟩ := h2.made
  refine ⟨v, h1, by rw [hm]; simp, fun i j f g w t hf hg hw ht m => ?_⟩
  rw [hm, List.getElem?_map, hf] at hg
  cases hg
  rw [List.getElem?_map, hw] at ht
  cases ht
  exact ⟨fun ⟨k, e⟩ => field_denotes hl hq hs w k e, fun hd => denotes_field hl hc hd hq rfl hs⟩

/-- C92: a type denotes one thing. -/
theorem denotes_one {fs : Files} {path : Path} {all : List TProgram} (h : compile fs path = .ok all) (hc : Clear fs) {q : TProgram} (hq : q ∈ all) {w : Written} {m m' : Mean}
    (h1 : Denotes fs q.file w m) (h2 : Denotes fs q.file w m') : m = m' := by
  have hl := compile_linked h
  obtain ⟨k, e⟩ := denotes_field hl hc h1 hq rfl (Sub.refl _)
  obtain ⟨k', e'⟩ := denotes_field hl hc h2 hq rfl (Sub.refl _)
  have a := meaning_le e (Nat.le_max_left k k')
  have b := meaning_le e' (Nat.le_max_right k k')
  rw [a] at b
  cases b
  rfl

/-! ### What the generated code finds -/

/-- C92: the generated code of a program finds the class of a type of a struct if and only if the class is of the program itself, or if its module has the same first part as that of a directly
included program and no class of the program is called so. -/
theorem ttypes_reaches {fs : Files} {path : Path} {all : List TProgram} (h : compile fs path = .ok all) (ha : Apart all) {q : TProgram} (hq : q ∈ all) {n : PyStr} {ts : List Typ}
    (ho : (n, ts) ∈ q.own.objects) {t : Typ} (ht : t ∈ ts) {k : Nat} {m : Mean} (hm : meaning all k t = some m) {id : Id} (hid : id ∈ m.classes)
    {loaded : List (List PyStr)} (hi : Imported (generate all) (q.module ++ [pyStr "ttypes"]) loaded) :
    eval (generate all) loaded (q.module ++ [pyStr "ttypes"]) (typeName all q id) = some (.cls id) ↔
      id.file = q.file ∨ ∃ c ∈ all, c.file = id.file ∧ (∃ i ∈ all, i.file ∈ q.src.includes ∧ headOf i = headOf c) ∧
        headOf c ∉ q.classNames ∧ headOf c ≠ pyStr "all_structs" ∧ headOf c ≠ pyStr "TTransport" := by
  have hl := compile_linked h
  obtain ⟨incs, hp⟩ := hl.parsed hq
  obtain ⟨ws, _, sc, hs, rfl⟩ := hp.inv.objects n ts ho
  obtain ⟨w, _, rfl⟩ := List.mem_map.1 ht
  obtain ⟨hr, hd⟩ := denotes_class (field_denotes hl hq hs w k hm) id hid
  obtain ⟨c, hca, hcf, hcl⟩ := loaded_reaches hl ha hi.closed hr hq rfl hi.self
  have hcn : id.name ∈ c.classNames := by
    refine class_name hl hca ?_
    rw [id_eta hcf]
    exact hd
  unfold typeName
  by_cases hf : id.file = q.file
  · rw [if_pos hf, eval]
    have : c = q := hl.same c hca q hq (hcf.trans hf)
    subst this
    rw [ttypes_class hl ha hca hcn, id_eta hcf]
    exact ⟨fun _ => .inl hf, fun _ => rfl⟩
  · rw [if_neg hf, ← hcf, hl.progOf hca]
    obtain ⟨x, r, e⟩ := module_cons c
    have hx : headOf c = x := by rw [headOf, e]; rfl
    have hlhs : ((some c).map TProgram.module).getD [] ++ [pyStr "ttypes", id.name] = x :: (r ++ [pyStr "ttypes", id.name]) := by
      show c.module ++ _ = _
      rw [e]; rfl
    rw [hlhs]
    have hne : r ++ [pyStr "ttypes", id.name] ≠ [] := by cases r <;> simp
    constructor
    · intro he
      obtain ⟨p, hp⟩ := eval_package hne (get_ttypes hl ha hq) (ttypes_no_module q x) he
      obtain ⟨_, h1, h2, h3, h4⟩ := (head_found hl hq x p).1 hp
      exact .inr ⟨c, hca, rfl, by rw [hx]; exact ⟨h4, h1, h2, h3⟩⟩
    · rintro (he | ⟨c', hc', hcf', h4, h1, h2, h3⟩)
      · exact absurd (hcf ▸ he) hf
      · have : c' = c := hl.same c' hc' c hca hcf'
        subst this
        rw [hx] at h1 h2 h3 h4
        rw [eval, get_ttypes hl ha hq, show (some (ttypes all q)).bind (fun y => y.globals.lookup x) = some (.package [x]) from (head_found hl hq x [x]).2 ⟨rfl, h1, h2, h3, h4⟩]
        show attrs (generate all) loaded (.package [x]) (r ++ [pyStr "ttypes", id.name]) = _
        rw [reach_other hl ha hca hcn hcl e, id_eta hcf]

/-- C92: the same in the code of a service. A class of the program itself is found if the module has no such name of its own and the name does not begin with an underscore; one of another file if the
name of its package is found. -/
theorem service_reaches {fs : Files} {path : Path} {all : List TProgram} (h : compile fs path = .ok all) (ha : Apart all) {q : TProgram} (hq : q ∈ all) {n : PyStr} {v : Svc}
    (ho : (n, v) ∈ q.own.services) {f : PyStr × List Typ} (hfn : f ∈ v.fns) {t : Typ} (ht : t ∈ f.2) {k : Nat} {m : Mean} (hm : meaning all k t = some m) {id : Id} (hid : id ∈ m.classes)
    {loaded : List (List PyStr)} (hi : Imported (generate all) (q.module ++ [n]) loaded) :
    eval (generate all) loaded (q.module ++ [n]) (typeName all q id) = some (.cls id) ↔
      (id.file = q.file ∧ id.name ∉ serviceNames (v.fns.map (·.1)) ∧ ¬ Underscore id.name) ∨
      ∃ c ∈ all, c.file = id.file ∧ id.file ≠ q.file ∧ headOf c ∉ serviceNames (v.fns.map (·.1)) ∧
        ((¬ Underscore (headOf c) ∧ headOf c ∉ q.classNames ∧ ∃ i ∈ all, i.file ∈ q.src.includes ∧ headOf i = headOf c) ∨
          ((Underscore (headOf c) ∨ headOf c ∉ q.classNames) ∧ headOf c ∉ imported ∧ ∃ b, v.base = some b ∧ ∃ d ∈ all, d.file = b.id.file ∧ headOf d = headOf c)) := by
  have hl := compile_linked h
  obtain ⟨incs, hp⟩ := hl.parsed hq
  obtain ⟨ex, fds, _, hv⟩ := hp.inv.services n v ho
  obtain ⟨sc, hs, hmade⟩ := hv.made
  rw [hmade] at hfn
  obtain ⟨fd, _, rfl⟩ := List.mem_map.1 hfn
  obtain ⟨w, _, rfl⟩ := List.mem_map.1 ht
  obtain ⟨hr, hd⟩ := denotes_class (field_denotes hl hq hs w k hm) id hid
  have hload : q.module ++ [pyStr "ttypes"] ∈ loaded := hi.closed _ hi.self _ (get_service hl ha hq ho) _ (List.mem_append_right _ (List.mem_singleton.2 rfl))
  obtain ⟨c, hca, hcf, hcl⟩ := loaded_reaches hl ha hi.closed hr hq rfl hload
  have hcn : id.name ∈ c.classNames := by
    refine class_name hl hca ?_
    rw [id_eta hcf]
    exact hd
  have hbase : ∀ x, (∃ b, v.base = some b ∧ (svcModule all b.id).headD [] = x) ↔ ∃ b, v.base = some b ∧ ∃ d ∈ all, d.file = b.id.file ∧ headOf d = x := by
    intro x
    have hb : ∀ b, v.base = some b → ∃ d ∈ all, d.file = b.id.file ∧ (svcModule all b.id).headD [] = headOf d := by
      intro b hb
      obtain ⟨d, hda, hdf⟩ := base_program hl hq ho hb
      refine ⟨d, hda, hdf, ?_⟩
      rw [svcModule, ← hdf, hl.progOf hda]
      obtain ⟨y, r, e⟩ := module_cons d
      show (d.module ++ _).headD [] = _
      rw [headOf, e]
      rfl
    constructor
    · rintro ⟨b, e, rfl⟩
      obtain ⟨d, h1, h2, h3⟩ := hb b e
      exact ⟨b, e, d, h1, h2, h3.symm⟩
    · rintro ⟨b, e, d, h1, h2, rfl⟩
      obtain ⟨d', h1', h2', h3⟩ := hb b e
      exact ⟨b, e, by rw [h3, hl.same d' h1' d h1 (h2'.trans h2.symm)]⟩
  unfold typeName
  by_cases hf : id.file = q.file
  · rw [if_pos hf, eval, get_service hl ha hq ho]
    have : c = q := hl.same c hca q hq (hcf.trans hf)
    subst this
    rw [show (some (service all c v)).bind (fun y => y.globals.lookup id.name) = _ from service_lookup c v id.name]
    constructor
    · intro e
      refine .inl ⟨hf, fun hm => ?_, fun hu => ?_⟩
      · obtain ⟨o, ho'⟩ := lookup_isSome ((svcNames_mem v _).2 hm)
        rw [ho', svcNames_other ho'] at e
        cases e
      · cases h1 : (svcNames v ++ [(pyStr "TTransport", Obj.other), (pyStr "TProcessor", .other)]).lookup id.name with
        | some o =>
          rw [h1, svcNames_other h1] at e
          cases e
        | none =>
          rw [h1, Option.none_or, if_pos hu, Option.none_or] at e
          revert e
          generalize hE : (([(pyStr "logging", Obj.other)].lookup id.name).or (((v.base.map fun b => bound (svcModule all b.id)).toList.lookup id.name).or (libraryNames.lookup id.name))) = E
          intro e
          have hE' : ∀ i, E ≠ some (.cls i) := by
            rintro i rfl
            rw [Option.or_eq_some_iff, Option.or_eq_some_iff] at hE
            rcases hE with e | ⟨_, e | ⟨_, e⟩⟩
            · have := mem_of_lookup e; simp at this
            · have := mem_of_lookup e
              cases hb : v.base with
              | none => rw [hb] at this; cases this
              | some b =>
                rw [hb] at this
                have : (id.name, Obj.cls i) ∈ [bound (svcModule all b.id)] := this
                have := congrArg Prod.snd (List.mem_singleton.1 this)
                cases this
            · cases library_other e
          cases E with
          | none => cases e
          | some o => exact hE' id e
    · rintro (⟨_, h1, h2⟩ | ⟨_, _, _, h1, _⟩)
      · rw [lookup_none (fun hm => h1 ((svcNames_mem v _).1 hm)), Option.none_or, if_neg h2, ttypes_lookup, if_pos hcn, id_eta hcf]
        rfl
      · exact absurd hf h1
  · rw [if_neg hf, ← hcf, hl.progOf hca]
    obtain ⟨x, r, e⟩ := module_cons c
    have hx : headOf c = x := by rw [headOf, e]; rfl
    have hlhs : ((some c).map TProgram.module).getD [] ++ [pyStr "ttypes", id.name] = x :: (r ++ [pyStr "ttypes", id.name]) := by
      show c.module ++ _ = _
      rw [e]; rfl
    rw [hlhs]
    have hne : r ++ [pyStr "ttypes", id.name] ≠ [] := by cases r <;> simp
    constructor
    · intro he
      obtain ⟨p, hp⟩ := eval_package hne (get_service hl ha hq ho) (service_no_module q v x) he
      obtain ⟨_, h1, h2⟩ := (head_service hl hq v x p).1 hp
      rw [hbase] at h2
      exact .inr ⟨c, hca, rfl, hcf ▸ hf, by rw [hx]; exact ⟨h1, h2⟩⟩
    · rintro (⟨he, _⟩ | ⟨c', hc', hcf', _, h1, h2⟩)
      · exact absurd (hcf ▸ he) hf
      · have : c' = c := hl.same c' hc' c hca hcf'
        subst this
        rw [hx] at h1 h2
        rw [← hbase] at h2
        rw [eval, get_service hl ha hq ho, show (some (service all q v)).bind (fun y => y.globals.lookup x) = some (.package [x]) from (head_service hl hq v x [x]).2 ⟨rfl, h1, h2⟩]
        show attrs (generate all) loaded (.package [x]) (r ++ [pyStr "ttypes", id.name]) = _
        rw [reach_other hl ha hca hcn hcl e, id_eta hcf]

/-- C92: the generated code of a service finds the module of the service that it extends, if nothing else is called like its package. -/
theorem extends_reaches {fs : Files} {path : Path} {all : List TProgram} (h : compile fs path = .ok all) (ha : Apart all) {q : TProgram} (hq : q ∈ all) {n : PyStr} {v b : Svc}
    (ho : (n, v) ∈ q.own.services) (hb : v.base = some b) {loaded : List (List PyStr)} (hi : Imported (generate all) (q.module ++ [n]) loaded) :
    ∃ d ∈ all, d.file = b.id.file ∧ (b.id.name, b) ∈ d.own.services ∧ (generate all).get (d.module ++ [b.id.name]) = some (service all d b) ∧
      (headOf d ∉ serviceNames (v.fns.map (·.1)) ∧ (Underscore (headOf d) ∨ headOf d ∉ q.classNames) ∧ headOf d ∉ imported →
        eval (generate all) loaded (q.module ++ [n]) (baseName all b.id) = some (.module (d.module ++ [b.id.name]))) := by
  have hl := compile_linked h
  obtain ⟨d, hda, hdf, hdo⟩ := base_service hl hq ho hb
  refine ⟨d, hda, hdf, hdo, get_service hl ha hda hdo, fun ⟨h1, h2, h3⟩ => ?_⟩
  have hload : d.module ++ [b.id.name] ∈ loaded := by
    refine hi.closed _ hi.self _ (get_service hl ha hq ho) _ ?_
    unfold service
    dsimp only
    rw [hb]
    have : svcModule all b.id = d.module ++ [b.id.name] := by rw [svcModule, ← hdf, hl.progOf hda]; rfl
    exact List.mem_append_left _ (List.mem_singleton.2 this.symm)
  obtain ⟨x, r, e⟩ := module_cons d
  have hx : headOf d = x := by rw [headOf, e]; rfl
  rw [hx] at h1 h2 h3
  rw [baseName, svcModule, ← hdf, hl.progOf hda]
  show eval (generate all) loaded (q.module ++ [n]) (d.module ++ [b.id.name]) = _
  have hl2 : d.module ++ [b.id.name] = x :: (r ++ [b.id.name]) := by rw [e]; rfl
  rw [hl2, eval, get_service hl ha hq ho, show (some (service all q v)).bind (fun y => y.globals.lookup x) = some (.package [x]) from
    (head_service hl hq v x [x]).2 ⟨rfl, h1, .inr ⟨h2, h3, b, hb, by rw [svcModule, ← hdf, hl.progOf hda]; show (d.module ++ _).headD [] = x; rw [e]; rfl⟩⟩]
  rw [← hl2]
  exact attrs_module ha hda (List.mem_append_right _ (List.mem_map.2 ⟨_, hdo, rfl⟩)) hload [] r [x] (by rw [e]; rfl)

/-! ### Services -/

/-- C88: the processor of a service has exactly the functions that the service declares or inherits, also from services of other files. -/
theorem processor_iff {fs : Files} {path : Path} {all : List TProgram} (h : compile fs path = .ok all) (hc : Clear fs) {q : TProgram} (hq : q ∈ all) {n : PyStr} {v : Svc}
    (ho : (n, v) ∈ q.own.services) (mk : Id → PyStr × List Typ → Fn) (hmk : ∀ d f, (mk d f).name = f.1) (name : PyStr) :
    (∃ x ∈ v.processor mk, x.name = name) ↔ ∃ d, Offers fs ⟨q.file, n⟩ d name := by
  have hl := compile_linked h
  have hr : SvcRep all ⟨q.file, n⟩ v := ⟨q, hq, rfl, ho⟩
  unfold Svc.processor
  constructor
  · rintro ⟨x, hx, rfl⟩
    obtain ⟨⟨d, f, ts⟩, hy, rfl⟩ := List.mem_map.1 hx
    rw [hmk]
    exact ⟨d, (functions_offers hl hc v hr d f).1 ⟨ts, hy⟩⟩
  · rintro ⟨d, hd⟩
    obtain ⟨ts, ht⟩ := (functions_offers hl hc v hr d name).2 hd
    exact ⟨mk d (name, ts), List.mem_map.2 ⟨_, ht, rfl⟩, hmk _ _⟩

/-- C88: each of these functions is the one of the service that declares it, and it is the one that is run for its name. -/
theorem processor_runs {fs : Files} {path : Path} {all : List TProgram} (h : compile fs path = .ok all) (hc : Clear fs) {q : TProgram} (hq : q ∈ all) {n : PyStr} {v : Svc}
    (ho : (n, v) ∈ q.own.services) (mk : Id → PyStr × List Typ → Fn) (hmk : ∀ d f, (mk d f).name = f.1) {d : Id} {name : PyStr} (hd : Offers fs ⟨q.file, n⟩ d name) :
    ∃ u ts, (∃ r ∈ all, r.file = d.file ∧ (d.name, u) ∈ r.own.services) ∧ (name, ts) ∈ u.fns ∧ Serves (v.processor mk) name (mk d (name, ts)) := by
  have hl := compile_linked h
  have hr : SvcRep all ⟨q.file, n⟩ v := ⟨q, hq, rfl, ho⟩
  obtain ⟨ts, ht⟩ := (functions_offers hl hc v hr d name).2 hd
  obtain ⟨u, hu, huf⟩ := functions_from hl v hr ht
  refine ⟨u, ts, hu, huf, hmk _ _, ?_⟩
  have hn := functions_nodup hl v hr
  obtain ⟨a, b, hab⟩ := List.append_of_mem ht
  refine ⟨a.map fun x => mk x.1 x.2, b.map fun x => mk x.1 x.2, by unfold Svc.processor; rw [hab]; simp, fun g hg hname => ?_⟩
  obtain ⟨x, hx, rfl⟩ := List.mem_map.1 hg
  rw [hmk] at hname
  rw [hab, List.map_append, List.map_cons, List.nodup_append, List.nodup_cons] at hn
  exact hn.2.1.1 (List.mem_map.2 ⟨x, hx, hname⟩)

/-- C88: what a service runs for a name, the services that extend it run too, in any file. -/
theorem extends_serves {fs : Files} {path : Path} {all : List TProgram} (h : compile fs path = .ok all) {q : TProgram} (hq : q ∈ all) {n : PyStr} {v b : Svc}
    (ho : (n, v) ∈ q.own.services) (hb : v.base = some b) (mk : Id → PyStr × List Typ → Fn) (hmk : ∀ d f, (mk d f).name = f.1) {name : PyStr} {fn : Fn}
    (hs : Serves (b.processor mk) name fn) : Serves (v.processor mk) name fn := by
  have hl := compile_linked h
  have hr : SvcRep all ⟨q.file, n⟩ v := ⟨q, hq, rfl, ho⟩
  obtain ⟨e, pre, post, h1, h2⟩ := hs
  cases v with
  | root => cases hb
  | child i fns b' =>
    cases hb
    have hn := functions_nodup hl _ hr
    refine ⟨e, pre, post ++ fns.map fun f => mk i f, ?_, ?_⟩
    · unfold Svc.processor at h1 ⊢
      rw [Svc.functions, List.map_append, h1]
      simp
    · intro g hg
      rcases List.mem_append.1 hg with hg | hg
      · exact h2 g hg
      · obtain ⟨f, hf, rfl⟩ := List.mem_map.1 hg
        rw [hmk]
        intro e'
        rw [Svc.functions, List.map_append, List.nodup_append] at hn
        have hfn : fn ∈ b.processor mk := by rw [h1]; simp
        obtain ⟨x, hx, rfl⟩ := List.mem_map.1 hfn
        refine hn.2.2 x.2.1 (List.mem_map.2 ⟨x, hx, rfl⟩) f.1 (List.mem_map.2 ⟨(i, f), List.mem_map.2 ⟨f, hf, rfl⟩, rfl⟩) ?_
        rw [← hmk x.1 x.2, e, e']

/-- C88: the service that is extended is the one that the name in the file means. -/
theorem extends_named {fs : Files} {path : Path} {all : List TProgram} (h : compile fs path = .ok all) (hc : Clear fs) {q : TProgram} (hq : q ∈ all) {n : PyStr} {e : PyStr} {fns : List FnDecl}
    (hd : DeclaresService fs ⟨q.file, n⟩ (some e) fns) {bid : Id} (hb : NamesService fs q.file e bid) : ∃ v b, (n, v) ∈ q.own.services ∧ v.base = some b ∧ b.id = bid := by
  have hl := compile_linked h
  obtain ⟨incs, hp⟩ := hl.parsed hq
  obtain ⟨v, h1, h2⟩ := hp.inv.services' n (some e) fns ((hl.declaresService hq).1 hd)
  have hbase := h2.base
  cases v with
  | root => exact hbase.elim
  | child i fs' b =>
    obtain ⟨hk, -⟩ : q.services.lookup e = some b ∧ _ := hbase
    obtain ⟨bid', hbn, hbr⟩ := hl.lookupS hq hk
    cases hl.namesService_one hc hq hb hbn
    refine ⟨_, b, h1, rfl, ?_⟩
    obtain ⟨r, _, hrf, _, _, _, hv⟩ := hbr.made hl
    exact hv.id.trans (id_eta hrf)

/-! ### What goes wrong -/

/-- The names of all generated modules -/
def everything (all : List TProgram) : List (List PyStr) := (generate all).map (·.1)

/-- After everything was imported, code of the module does not find the class. -/
def Lost (all : List TProgram) (q : TProgram) (m : List PyStr) (id : Id) : Prop :=
  Imported (generate all) m (everything all) ∧ eval (generate all) (everything all) m (typeName all q id) ≠ some (.cls id)

theorem clear_of {fs : Files} (h : ∀ x ∈ fs, ∀ i ∈ x.2.includes, ∀ j ∈ x.2.includes, programName i = programName j → i = j) : Clear fs := by
  rintro f i j ⟨F, h1, h2⟩ ⟨G, h3, h4⟩ e
  rw [h1] at h3
  cases h3
  exact h _ (mem_of_lookup h1) i h2 j h4 e

theorem imported_of {w : World} {m : List PyStr} {l : List (List PyStr)} (h1 : m ∈ l) (h2 : ∀ x ∈ l, ∀ z ∈ ((w.get x).map PyModule.imports).getD [], z ∈ l) : Imported w m l :=
  ⟨h1, fun x hx y hy z hz => h2 x hx z (by rw [hy]; exact hz)⟩

theorem apart_of {ps : List TProgram} (h1 : ∀ p ∈ ps, ∀ q ∈ ps, p.module = q.module → p.file = q.file) (h2 : ∀ p ∈ ps, ∀ q ∈ ps, ∀ l ∈ leaves p, ¬ (p.module ++ [l]) <+: q.module)
    (h3 : ∀ p ∈ ps, ∀ s ∈ p.own.services, s.1 ≠ pyStr "ttypes" ∧ s.1 ≠ pyStr "constants") : Apart ps := ⟨h1, h2, h3⟩

abbrev fileA : Path := pyStr "/d/a.thrift"
abbrev fileB : Path := pyStr "/d/b.thrift"
abbrev fileC : Path := pyStr "/d/c.thrift"

/-- Three files; `a` uses what `b` declares, among it a typedef for a type of `c`, and a service that extends one of `c` -/
def three : Files :=
  [(fileA, { includes := [fileB], decls :=
      [.type (pyStr "S") (.struct [.named (pyStr "b.T"), .list (.named (pyStr "S")), .named (pyStr "b.C2"), .named (pyStr "later")]), .type (pyStr "later") (.typedef (.named (pyStr "b.E"))),
       .service (pyStr "V") (some (pyStr "b.W")) [(pyStr "f", [.named (pyStr "S"), .named (pyStr "b.T")])]] }),
   (fileB, { namespaces := [(pyStr "py", pyStr "x.b")], includes := [fileC], decls :=
      [.type (pyStr "T") (.struct [.base .string]), .type (pyStr "E") .enum, .type (pyStr "C2") (.typedef (.named (pyStr "c.C"))), .service (pyStr "W") (some (pyStr "c.U")) [(pyStr "g", [.named (pyStr "T")])]] }),
   (fileC, { decls := [.type (pyStr "C") (.struct []), .service (pyStr "U") none [(pyStr "h", [])]] })]

def progA : TProgram := (compiled three fileA)[2]'(by decide +kernel)
def svcV : Svc := ((progA.own.services)[0]'(by decide +kernel)).2

theorem three_ok : compile three fileA = .ok (compiled three fileA) := compiled_eq (by decide +kernel)
theorem three_clear : Clear three := clear_of (by decide +kernel)
theorem three_apart : Apart (compiled three fileA) := apart_of (by decide +kernel) (by decide +kernel) (by decide +kernel)
theorem progA_mem : progA ∈ compiled three fileA := List.getElem_mem _

/-- C92 is false of types that are named through a typedef of an included file: the module of the type is not imported. -/
theorem typedef_unreached : ∃ (fs : Files) (path : Path) (all : List TProgram) (q : TProgram) (n : PyStr) (ts : List Typ) (t : Typ) (k : Nat) (id : Id),
    compile fs path = .ok all ∧ Clear fs ∧ Apart all ∧ q ∈ all ∧ (n, ts) ∈ q.own.objects ∧ t ∈ ts ∧ meaning all k t = some (.struct id) ∧ Lost all q (q.module ++ [pyStr "ttypes"]) id :=
  ⟨three, fileA, compiled three fileA, progA, pyStr "S", [.struct ⟨fileB, pyStr "T"⟩, .list (.forward fileA (pyStr "S")), .typedef ⟨fileB, pyStr "C2"⟩ (.struct ⟨fileC, pyStr "C"⟩), .forward fileA (pyStr "later")],
    .typedef ⟨fileB, pyStr "C2"⟩ (.struct ⟨fileC, pyStr "C"⟩), 2, ⟨fileC, pyStr "C"⟩, three_ok, three_clear, three_apart, progA_mem, by decide +kernel, by decide +kernel, by decide +kernel,
    imported_of (by decide +kernel) (by decide +kernel), by decide +kernel⟩

/-- The hypotheses of the theorems above are met, also where the classes are found. -/
example : Imported (generate (compiled three fileA)) (progA.module ++ [pyStr "V"]) (everything (compiled three fileA)) := imported_of (by decide +kernel) (by decide +kernel)
example : eval (generate (compiled three fileA)) (everything (compiled three fileA)) (progA.module ++ [pyStr "ttypes"]) (typeName (compiled three fileA) progA ⟨fileB, pyStr "T"⟩) = some (.cls ⟨fileB, pyStr "T"⟩) := by
  decide +kernel
example : eval (generate (compiled three fileA)) (everything (compiled three fileA)) (progA.module ++ [pyStr "V"]) (typeName (compiled three fileA) progA ⟨fileA, pyStr "S"⟩) = some (.cls ⟨fileA, pyStr "S"⟩) := by
  decide +kernel
example : eval (generate (compiled three fileA)) (everything (compiled three fileA)) (progA.module ++ [pyStr "V"]) (baseName (compiled three fileA) ⟨fileB, pyStr "W"⟩) =
    some (.module [pyStr "x", pyStr "b", pyStr "W"]) := by decide +kernel
example : (pyStr "V", svcV) ∈ progA.own.services ∧ svcV.base.map Svc.id = some ⟨fileB, pyStr "W"⟩ ∧ (pyStr "f", [.struct ⟨fileA, pyStr "S"⟩, .struct ⟨fileB, pyStr "T"⟩]) ∈ svcV.fns := by decide +kernel
example : Declares three ⟨progA.file, pyStr "S"⟩ (.struct [.named (pyStr "b.T"), .list (.named (pyStr "S")), .named (pyStr "b.C2"), .named (pyStr "later")]) ∧
    meaning (compiled three fileA) 3 (.forward fileA (pyStr "later")) = some (.enum ⟨fileB, pyStr "E"⟩) := ⟨⟨_, rfl, by decide +kernel⟩, by decide +kernel⟩
example : DeclaresService three ⟨progA.file, pyStr "V"⟩ (some (pyStr "b.W")) [(pyStr "f", [.named (pyStr "S"), .named (pyStr "b.T")])] ∧ NamesService three progA.file (pyStr "b.W") ⟨fileB, pyStr "W"⟩ :=
  ⟨⟨_, rfl, by decide +kernel⟩, .included _ fileB (pyStr "W") (some (pyStr "c.U")) [(pyStr "g", [.named (pyStr "T")])] ⟨_, rfl, by decide +kernel⟩ ⟨_, rfl, by decide +kernel⟩⟩
/-- An inherited function of the third file -/
example : Offers three ⟨progA.file, pyStr "V"⟩ ⟨fileC, pyStr "U"⟩ (pyStr "h") :=
  .inherits _ ⟨fileB, pyStr "W"⟩ _ (pyStr "b.W") [(pyStr "f", [.named (pyStr "S"), .named (pyStr "b.T")])] _ ⟨_, rfl, by decide +kernel⟩
    (.included _ fileB (pyStr "W") (some (pyStr "c.U")) [(pyStr "g", [.named (pyStr "T")])] ⟨_, rfl, by decide +kernel⟩ ⟨_, rfl, by decide +kernel⟩)
    (.inherits _ ⟨fileC, pyStr "U"⟩ _ (pyStr "c.U") [(pyStr "g", [.named (pyStr "T")])] _ ⟨_, rfl, by decide +kernel⟩
      (.included _ fileC (pyStr "U") none [(pyStr "h", [])] ⟨_, rfl, by decide +kernel⟩ ⟨_, rfl, by decide +kernel⟩)
      (.own _ none [(pyStr "h", [])] (pyStr "h", []) ⟨_, rfl, by decide +kernel⟩ (by decide +kernel)))
example : Reaches three fileA fileC := .step _ fileB _ ⟨_, rfl, by decide +kernel⟩ (.step _ fileC _ ⟨_, rfl, by decide +kernel⟩ (.refl _))

/-- A file that includes itself through another one -/
def circle : Files := [(fileA, { includes := [fileB] }), (fileB, { includes := [fileA] })]
example : compile circle fileA = .error .recursion := by
  unfold compile
  rw [parseN_eq (fs := circle) 9 [] fileA (.error .recursion) (by rfl)]
/-- Two ways to the same file are no circle. -/
def diamond : Files := [(fileA, { includes := [fileB, fileC] }), (fileB, { includes := [pyStr "/e.thrift"] }), (fileC, { includes := [pyStr "/e.thrift"] }), (pyStr "/e.thrift", { decls := [.type (pyStr "E") .enum] })]
example : compile diamond fileA = .ok (compiled diamond fileA) := compiled_eq (by decide +kernel)

/-- Two files that declare the same name; `py` is declared twice. -/
def twice (x y : String) : Files :=
  [(fileA, { namespaces := [(pyStr "py", pyStr "z"), (pyStr "py", pyStr x)], includes := [fileB], decls := [.type (pyStr "S") .enum] }),
   (fileB, { namespaces := [(pyStr "*", pyStr y)], decls := [.type (pyStr "S") .enum] })]
example : compile (twice "p" "q") fileA = .ok (compiled (twice "p" "q") fileA) := compiled_eq (by decide +kernel)
example : NamespaceOf [(pyStr "py", pyStr "z"), (pyStr "py", pyStr "p")] (pyStr "py") (pyStr "p") := .inl ⟨[(pyStr "py", pyStr "z")], [], rfl, fun _ h => nomatch h⟩
example : ((compiled (twice "p" "q") fileA).map TProgram.module) = [[pyStr "q"], [pyStr "p"]] := by decide +kernel
/-- If the namespace is the same in every language, then they clash. -/
def clashing : Files :=
  [(fileA, { namespaces := [(pyStr "py", pyStr "p")], includes := [fileB], decls := [.type (pyStr "S") .enum] }),
   (fileB, { namespaces := [(pyStr "py", pyStr "p")], decls := [.service (pyStr "S") none []] })]
example : compile clashing fileA = .error .defined := by
  unfold compile
  rw [parseN_eq (fs := clashing) 9 [] fileA (.error .defined) (by rfl)]
example : Reaches (twice "p" "q") fileA fileB := .step _ fileB _ ⟨_, rfl, by decide +kernel⟩ (.refl _)

abbrev fileS1 : Path := pyStr "/x/s.thrift"
abbrev fileS2 : Path := pyStr "/y/s.thrift"

/-- Two included files of the same base name -/
def sameBase : Files :=
  [(fileA, { includes := [fileS1, fileS2], decls := [.type (pyStr "S") (.struct [.named (pyStr "s.T")])] }), (fileS1, { decls := [.type (pyStr "T") (.struct [])] }),
   (fileS2, { namespaces := [(pyStr "py", pyStr "y.s")], decls := [.type (pyStr "T") (.struct [])] })]

/-- C92 is false if two included files have the same base name: a name that means a type of one is silently taken for that of the other. -/
theorem same_base_name : ∃ (fs : Files) (path : Path) (all : List TProgram) (q : TProgram) (n : PyStr) (w : Written) (t : Typ) (m : Mean),
    compile fs path = .ok all ∧ Apart all ∧ q ∈ all ∧ Declares fs ⟨q.file, n⟩ (.struct [w]) ∧ (n, [t]) ∈ q.own.objects ∧ Denotes fs q.file w m ∧ ∀ k, meaning all k t ≠ some m := by
  refine ⟨sameBase, fileA, compiled sameBase fileA, (compiled sameBase fileA)[2]'(by decide +kernel), pyStr "S", .named (pyStr "s.T"), .struct ⟨fileS2, pyStr "T"⟩, .struct ⟨fileS1, pyStr "T"⟩,
    compiled_eq (by decide +kernel), apart_of (by decide +kernel) (by decide +kernel) (by decide +kernel), List.getElem_mem _, ⟨_, rfl, by decide +kernel⟩, by decide +kernel, ?_, ?_⟩
  · exact .struct _ _ _ [] (.included _ fileS1 (pyStr "T") (.struct []) ⟨_, rfl, by decide +kernel⟩ ⟨_, rfl, by decide +kernel⟩) ⟨_, rfl, by decide +kernel⟩
  · intro k
    cases k with
    | zero => exact fun h => nomatch h
    | succ k =>
      intro h
      rw [meaning] at h
      exact absurd h (by decide +kernel)

/-- Two files with the same namespace -/
def sameModule : Files :=
  [(fileA, { namespaces := [(pyStr "py", pyStr "p")], includes := [fileB], decls := [.type (pyStr "S") (.struct [.named (pyStr "b.T")])] }),
   (fileB, { namespaces := [(pyStr "py", pyStr "p")], decls := [.type (pyStr "T") (.struct [])] })]

/-- C92 is false if two files have the same namespace: the compiler does not complain, and the second `ttypes.py` replaces the first one. -/
theorem same_namespace : ∃ (fs : Files) (path : Path) (all : List TProgram) (q : TProgram) (n : PyStr) (ts : List Typ) (t : Typ) (k : Nat) (id : Id),
    compile fs path = .ok all ∧ Clear fs ∧ q ∈ all ∧ (n, ts) ∈ q.own.objects ∧ t ∈ ts ∧ meaning all k t = some (.struct id) ∧ Lost all q (q.module ++ [pyStr "ttypes"]) id :=
  ⟨sameModule, fileA, compiled sameModule fileA, (compiled sameModule fileA)[1]'(by decide +kernel), pyStr "S", [.struct ⟨fileB, pyStr "T"⟩], .struct ⟨fileB, pyStr "T"⟩, 1, ⟨fileB, pyStr "T"⟩,
    compiled_eq (by decide +kernel), clear_of (by decide +kernel), List.getElem_mem _, by decide +kernel, by decide +kernel, by decide +kernel,
    imported_of (by decide +kernel) (by decide +kernel), by decide +kernel⟩

/-- A type that is called like an included file, and a service that extends one of that file -/
def hidden : Files :=
  [(fileA, { includes := [fileB], decls :=
      [.type (pyStr "b") (.struct [.named (pyStr "b.T")]), .type (pyStr "Client") (.struct []), .type (pyStr "_p") (.struct []),
       .service (pyStr "V") (some (pyStr "b.W")) [(pyStr "f", [.named (pyStr "Client"), .named (pyStr "_p")])]] }),
   (fileB, { decls := [.type (pyStr "T") (.struct []), .service (pyStr "W") none []] })]

def hidingA : TProgram := (compiled hidden fileA)[1]'(by decide +kernel)
def hidingV : Svc := ((hidingA.own.services)[0]'(by decide +kernel)).2

/-- C92 is false of a type that is called like the package of an included file: it hides the package, from the other types and from the service that extends one of there. -/
theorem package_hidden : ∃ (fs : Files) (path : Path) (all : List TProgram) (q : TProgram) (n : PyStr) (ts : List Typ) (t : Typ) (k : Nat) (id : Id),
    compile fs path = .ok all ∧ Clear fs ∧ Apart all ∧ q ∈ all ∧ (n, ts) ∈ q.own.objects ∧ t ∈ ts ∧ meaning all k t = some (.struct id) ∧ id.file ∈ q.src.includes ∧
    Lost all q (q.module ++ [pyStr "ttypes"]) id :=
  ⟨hidden, fileA, compiled hidden fileA, hidingA, pyStr "b", [.struct ⟨fileB, pyStr "T"⟩], .struct ⟨fileB, pyStr "T"⟩, 1, ⟨fileB, pyStr "T"⟩,
    compiled_eq (by decide +kernel), clear_of (by decide +kernel), apart_of (by decide +kernel) (by decide +kernel) (by decide +kernel), List.getElem_mem _, by decide +kernel, by decide +kernel,
    by decide +kernel, by decide +kernel, imported_of (by decide +kernel) (by decide +kernel), by decide +kernel⟩

theorem base_hidden : ∃ (fs : Files) (path : Path) (all : List TProgram) (q : TProgram) (n : PyStr) (v b : Svc),
    compile fs path = .ok all ∧ Clear fs ∧ Apart all ∧ q ∈ all ∧ (n, v) ∈ q.own.services ∧ v.base = some b ∧ Imported (generate all) (q.module ++ [n]) (everything all) ∧
    eval (generate all) (everything all) (q.module ++ [n]) (baseName all b.id) = none :=
  ⟨hidden, fileA, compiled hidden fileA, hidingA, pyStr "V", hidingV, .root ⟨fileB, pyStr "W"⟩ [],
    compiled_eq (by decide +kernel), clear_of (by decide +kernel), apart_of (by decide +kernel) (by decide +kernel) (by decide +kernel), List.getElem_mem _, by decide +kernel, by decide +kernel,
    imported_of (by decide +kernel) (by decide +kernel), by decide +kernel⟩

/-- C92 is false of types that are called `Client`, `Iface`, `Processor`, or as the classes for the arguments, and of types whose name begins with an underscore, when they are used in a service. -/
theorem service_hides : ∃ (fs : Files) (path : Path) (all : List TProgram) (q : TProgram) (n : PyStr) (v : Svc) (f : PyStr × List Typ) (t u : Typ) (k : Nat) (id id' : Id),
    compile fs path = .ok all ∧ Clear fs ∧ Apart all ∧ q ∈ all ∧ (n, v) ∈ q.own.services ∧ f ∈ v.fns ∧ t ∈ f.2 ∧ u ∈ f.2 ∧ meaning all k t = some (.struct id) ∧ meaning all k u = some (.struct id') ∧
    id.file = q.file ∧ id'.file = q.file ∧ id ≠ id' ∧ ¬ Underscore id.name ∧ Underscore id'.name ∧ Lost all q (q.module ++ [n]) id ∧ Lost all q (q.module ++ [n]) id' :=
  ⟨hidden, fileA, compiled hidden fileA, hidingA, pyStr "V", hidingV, (pyStr "f", [.struct ⟨fileA, pyStr "Client"⟩, .struct ⟨fileA, pyStr "_p"⟩]), .struct ⟨fileA, pyStr "Client"⟩,
    .struct ⟨fileA, pyStr "_p"⟩, 1, ⟨fileA, pyStr "Client"⟩, ⟨fileA, pyStr "_p"⟩,
    compiled_eq (by decide +kernel), clear_of (by decide +kernel), apart_of (by decide +kernel) (by decide +kernel) (by decide +kernel), List.getElem_mem _, by decide +kernel, by decide +kernel,
    by decide +kernel, by decide +kernel, by decide +kernel, by decide +kernel, by decide +kernel, by decide +kernel, by decide +kernel, by decide +kernel, by decide +kernel,
    ⟨imported_of (by decide +kernel) (by decide +kernel), by decide +kernel⟩, ⟨imported_of (by decide +kernel) (by decide +kernel), by decide +kernel⟩⟩

end Thrift.Includes
