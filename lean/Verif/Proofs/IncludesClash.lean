import Verif.Proofs.IncludesPython
/-
Which names clash, for C92.
-/

namespace Thrift.Includes
open Rpc Spec Spec.Includes

theorem declared_name (d : Decl) : declared d = d.name := by cases d <;> rfl

theorem declared_map (ds : List Decl) : ds.map declared = ds.map Decl.name := List.map_congr_left fun d _ => declared_name d

theorem lookup_last {ns : List (PyStr × PyStr)} {lang x : PyStr} : ns.reverse.lookup lang = some x ↔ LastFor ns lang x := by
  induction ns with
  | nil => exact ⟨fun h => (nomatch h), fun ⟨a, b, h, _⟩ => by cases a <;> cases h⟩
  | cons y ns ih =>
    rw [List.reverse_cons, lookup_append']
    constructor
    · intro h
      cases e : ns.reverse.lookup lang with
      | some z =>
        rw [e] at h
        cases h
        obtain ⟨a, b, rfl, hb⟩ := ih.1 e
        exact ⟨y :: a, b, rfl, hb⟩
      | none =>
        rw [e, Option.none_or, List.lookup_cons] at h
        split at h
        · rename_i hy
          cases h
          have := eq_of_beq hy
          subst this
          refine ⟨[], ns, rfl, fun z hz hl => ?_⟩
          obtain ⟨w, hw⟩ := lookup_isSome (l := ns.reverse) (n := y.1) (List.mem_map.2 ⟨z, List.mem_reverse.2 hz, hl⟩)
          rw [e] at hw
          cases hw
        · cases h
    · rintro ⟨a, b, h, hb⟩
      cases a with
      | nil =>
        cases h
        rw [lookup_none, Option.none_or, List.lookup_cons, beq_self_eq_true]
        intro hm
        obtain ⟨z, hz, hl⟩ := List.mem_map.1 hm
        exact hb z (List.mem_reverse.1 hz) hl
      | cons z a =>
        cases h
        rw [ih.2 ⟨a, b, rfl, hb⟩]
        rfl

theorem lookup_not {ns : List (PyStr × PyStr)} {lang : PyStr} : ns.reverse.lookup lang = none ↔ lang ∉ ns.map (·.1) := by
  constructor
  · intro h hm
    obtain ⟨x, hx⟩ := lookup_isSome (l := ns.reverse) (n := lang) (by rw [List.map_reverse]; exact List.mem_reverse.2 hm)
    rw [h] at hx
    cases hx
  · intro h
    exact lookup_none (by rw [List.map_reverse]; exact fun hm => h (List.mem_reverse.1 hm))

theorem getNamespace_iff {ns : List (PyStr × PyStr)} {lang x : PyStr} : NamespaceOf ns lang x ↔ getNamespace ns lang = x := by
  unfold NamespaceOf getNamespace
  rw [← lookup_last, ← lookup_not, ← lookup_last, ← lookup_not]
  cases ns.reverse.lookup lang with
  | some y => simp
  | none => cases ns.reverse.lookup (pyStr "*") <;> simp [eq_comm]

theorem lookup_get {ns : List (PyStr × PyStr)} {lang : PyStr} (h : lang ∈ ns.map (·.1)) : ns.reverse.lookup lang = some (getNamespace ns lang) := by
  unfold getNamespace
  cases e : ns.reverse.lookup lang with
  | some y => rfl
  | none => exact absurd h (lookup_not.1 e)

theorem common_iff {a b : List (PyStr × PyStr)} : commonNamespace a b = true ↔ SameNamespaces a b := by
  have half : ∀ c d : List (PyStr × PyStr), (c.all fun x => c.reverse.lookup x.1 == some (getNamespace d x.1)) = true ↔ ∀ lang ∈ c.map (·.1), getNamespace c lang = getNamespace d lang := by
    intro c d
    rw [List.all_eq_true]
    constructor
    · intro h lang hl
      obtain ⟨x, hx, rfl⟩ := List.mem_map.1 hl
      have := eq_of_beq (h x hx)
      rw [lookup_get hl] at this
      exact Option.some.inj this
    · intro h x hx
      have hm : x.1 ∈ c.map (·.1) := List.mem_map.2 ⟨x, hx, rfl⟩
      rw [lookup_get hm, h _ hm, beq_self_eq_true]
  unfold commonNamespace SameNamespaces
  rw [Bool.and_eq_true, half, half]
  simp only [getNamespace_iff, exists_eq_left', List.mem_append]
  constructor
  · rintro ⟨h1, h2⟩ lang (hl | hl)
    · exact (h1 lang hl).symm
    · exact h2 lang hl
  · intro h
    exact ⟨fun l hl => (h l (.inl hl)).symm, fun l hl => h l (.inr hl)⟩

theorem names_iff {fs : Files} {all : List TProgram} {q : TProgram} {incs : List TProgram} (h : Parsed fs all q incs) (n : PyStr) : n ∈ q.names ↔ n ∈ q.src.decls.map Decl.name := by
  unfold TProgram.names
  rw [List.mem_append, List.mem_map, List.mem_map, List.mem_map]
  constructor
  · rintro (⟨⟨m, t⟩, hx, rfl⟩ | ⟨⟨m, t⟩, hx, rfl⟩)
    · obtain ⟨b, hb, _⟩ := h.inv.types _ _ hx
      exact ⟨_, hb, rfl⟩
    · obtain ⟨e, fns, hb, _⟩ := h.inv.services _ _ hx
      exact ⟨_, hb, rfl⟩
  · rintro ⟨d, hd, rfl⟩
    cases d with
    | type n b =>
      obtain ⟨t, ht, _⟩ := h.inv.types' n b hd
      exact .inl ⟨_, ht, rfl⟩
    | service n e fns =>
      obtain ⟨t, ht, _⟩ := h.inv.services' n e fns hd
      exact .inr ⟨_, ht, rfl⟩

/-- A declaration is accepted only with a unique name. -/
theorem declare_unique {file : Path} {src : File} {incs : List TProgram} {oT : List (PyStr × Typ)} {oS : List (PyStr × Svc)} {s s' : State} {d : Decl}
    (h : declare file src incs oT oS s d = .ok s') : unique src incs s d.name = true := by
  unfold declare at h
  dsimp only at h
  repeat' (split at h)
  all_goals cases h
  all_goals simp_all [Decl.name]

/-- A declaration is rejected as defined only if its name is not unique. -/
theorem declare_defined {file : Path} {src : File} {incs : List TProgram} {oT : List (PyStr × Typ)} {oS : List (PyStr × Svc)} {s : State} {d : Decl}
    (h : declare file src incs oT oS s d = .error .defined) : unique src incs s d.name = false := by
  unfold declare at h
  dsimp only at h
  repeat' (split at h)
  all_goals cases h
  all_goals simp_all [Decl.name]

section
variable {file : Path} {src : File} {incs : List TProgram} {oT : List (PyStr × Typ)} {oS : List (PyStr × Svc)}

theorem declareAll_unique {ds : List Decl} {s s' : State} (h : declareAll file src incs oT oS ds s = .ok s') : ∀ d ∈ ds, ∃ s, unique src incs s d.name = true := by
  induction ds generalizing s with
  | nil => exact fun d hd => nomatch hd
  | cons d ds ih =>
    rw [declareAll] at h
    split at h
    · cases h
    · rename_i s1 h1
      intro x hx
      rcases List.mem_cons.1 hx with rfl | hx
      · exact ⟨s, declare_unique h1⟩
      · exact ih h x hx

theorem declareAll_defined (hT : ∀ n ∈ oT.map (·.1), Structs.simple n = false) (hS : ∀ n ∈ oS.map (·.1), Structs.simple n = false) {pre ds : List Decl} {s : State}
    (hi : Inv file oT oS pre s) (h : declareAll file src incs oT oS ds s = .error .defined) :
    ¬ ((pre ++ ds).map Decl.name).Nodup ∨ ∃ i ∈ incs, commonNamespace i.src.namespaces src.namespaces = true ∧ ∃ n, n ∈ ds.map Decl.name ∧ n ∈ i.names := by
  induction ds generalizing pre s with
  | nil => cases h
  | cons d ds ih =>
    rw [declareAll] at h
    split at h
    · rename_i e he
      cases h
      have hu := declare_defined he
      unfold unique at hu
      rw [Bool.and_eq_false_iff, Bool.and_eq_false_iff] at hu
      have twice : d.name ∈ pre.map Decl.name → ¬ ((pre ++ d :: ds).map Decl.name).Nodup := by
        intro hm hn
        rw [List.map_append, List.nodup_append] at hn
        exact hn.2.2 _ hm d.name (by simp) rfl
      rcases hu with (hu | hu) | hu
      · simp only [Bool.not_eq_false', List.any_eq_true, beq_iff_eq] at hu
        obtain ⟨⟨m, t⟩, hx, e⟩ := hu
        obtain ⟨b, hb, _⟩ := hi.types _ _ hx
        exact .inl (twice (e ▸ List.mem_map.2 ⟨_, hb, rfl⟩))
      · simp only [Bool.not_eq_false', List.any_eq_true, beq_iff_eq] at hu
        obtain ⟨⟨m, t⟩, hx, e⟩ := hu
        obtain ⟨b, fns, hb, _⟩ := hi.services _ _ hx
        exact .inl (twice (e ▸ List.mem_map.2 ⟨_, hb, rfl⟩))
      · simp only [Bool.not_eq_false', List.any_eq_true, Bool.and_eq_true, List.contains_iff_mem] at hu
        obtain ⟨i, h1, h2, h3⟩ := hu
        exact .inr ⟨i, h1, h3, d.name, by simp, h2⟩
    · rename_i s1 h1
      rcases ih (hi.step hT hS h1) h with h | ⟨i, h1, h2, n, h3, h4⟩
      · left
        rwa [List.append_assoc, List.singleton_append] at h
      · exact .inr ⟨i, h1, h2, n, List.mem_cons_of_mem _ h3, h4⟩

end

theorem parse_defined (fs : Files) (k : List Path) (path : Path) (h : parse fs k path = .error .defined) : ∃ f, Reaches fs path f ∧ Clash fs f := by
  rw [parse.eq_def] at h
  split at h
  · cases h
  · rename_i hm
    split at h
    · cases h
    · rename_i src hf
      split at h
      · rename_i e he
        cases h
        have : ∀ is : List Path, (∀ i ∈ is, i ∈ src.includes) → parseAll fs (path :: k) is = .error .defined → ∃ i ∈ src.includes, parse fs (path :: k) i = .error .defined := by
          intro is
          induction is with
          | nil => intro _ h; rw [parseAll.eq_def] at h; cases h
          | cons i is ih =>
            intro hi h
            rw [parseAll.eq_def] at h
            dsimp only at h
            split at h
            · rename_i e he
              cases h
              exact ⟨i, hi i List.mem_cons_self, he⟩
            · split at h
              · rename_i e he
                cases h
                exact ih (fun j hj => hi j (List.mem_cons_of_mem _ hj)) he
              · cases h
        obtain ⟨i, hi, he⟩ := this src.includes (fun _ h => h) he
        have := filter_lt fs k path src hm hf
        obtain ⟨f, h1, h2⟩ := parse_defined fs (path :: k) i he
        exact ⟨f, .step _ _ _ ⟨src, hf, hi⟩ h1, h2⟩
      · rename_i rs hr
        split at h
        · rename_i e he
          cases h
          unfold program at he
          dsimp only at he
          split at he
          · rename_i e' he'
            cases he
            refine ⟨path, .refl _, src, hf, ?_⟩
            rw [declared_map]
            rcases declareAll_defined (exported_dot _ fun i => i.own.types) (exported_dot _ fun i => i.own.services) (Inv.empty path _ _) he' with hd | ⟨i, hi, hc, n, hn, hn'⟩
            · exact .inl hd
            · obtain ⟨r, hr', rfl⟩ := List.mem_map.1 hi
              obtain ⟨g, hg, hp⟩ := (parseAll_each hr).1 r hr'
              have hl := parse_linked (ps := r.1) (p := r.2) hp
              have hmem : r.2 ∈ r.1 ++ [r.2] := by simp
              obtain ⟨incs, hp'⟩ := hl.parsed hmem
              refine .inr ⟨g, hg, r.2.src, ?_, common_iff.1 hc, n, hn, ?_⟩
              · rw [← parse_file (ps := r.1) (p := r.2) hp]
                exact hp'.src
              · rw [declared_map]
                exact (names_iff hp' n).1 hn'
          · cases he
        · cases h
termination_by (fs.filter fun x => !k.contains x.1).length
decreasing_by assumption

theorem Linked.no_clash {fs : Files} {all : List TProgram} (h : Linked fs all) {q : TProgram} (hq : q ∈ all) : ¬ Clash fs q.file := by
  rintro ⟨F, hF, hc⟩
  obtain ⟨h1, incs, h2, h3, h4⟩ := h.made q hq
  rw [h1] at hF
  cases hF
  rw [declared_map] at hc
  rcases hc with hc | ⟨i, hi, G, hG, hs, n, hn, hn'⟩
  · obtain ⟨_, hp⟩ := h.parsed hq
    exact hc hp.inv.nodup
  · rw [← h2] at hi
    obtain ⟨qi, hqi, rfl⟩ := List.mem_map.1 hi
    obtain ⟨_, hp⟩ := h.parsed (h3 qi hqi)
    rw [hp.src] at hG
    cases hG
    rw [declared_map] at hn'
    unfold program at h4
    dsimp only at h4
    split at h4
    · cases h4
    · rename_i s hds
      obtain ⟨d, hd, rfl⟩ := List.mem_map.1 hn
      obtain ⟨s', hu⟩ := declareAll_unique hds d hd
      simp only [unique, Bool.and_eq_true, Bool.not_eq_true', List.any_eq_false] at hu
      exact hu.2 qi hqi ⟨List.contains_iff_mem.2 ((names_iff hp _).2 hn'), common_iff.2 hs⟩

theorem split_dot (n : PyStr) : ∀ part ∈ split n, 46 ∉ part := by
  induction n with
  | nil => intro part h; rw [split] at h; simp_all
  | cons c cs ih =>
    intro part h
    rw [split] at h
    split at h
    · rcases List.mem_cons.1 h with rfl | h
      · simp
      · exact ih part h
    · rename_i hc
      split at h
      · rw [List.mem_singleton.1 h]
        simpa using fun e => hc e.symm
      · rename_i x t e
        rcases List.mem_cons.1 h with rfl | h
        · intro hm
          rcases List.mem_cons.1 hm with hm | hm
          · exact hc hm.symm
          · exact ih x (e ▸ List.mem_cons_self) hm
        · exact ih part (e ▸ List.mem_cons_of_mem _ h)

theorem split_join (n : PyStr) : [46].intercalate (split n) = n := by
  induction n with
  | nil => rfl
  | cons c cs ih =>
    rw [split]
    split
    · rename_i hc
      subst hc
      cases e : split cs with
      | nil => exact absurd e (split_ne cs)
      | cons x t => rw [e] at ih; simp only [List.intercalate] at *; rw [← ih]; rfl
    · split
      · rename_i e
        rw [e] at ih
        rw [← ih]
        rfl
      · rename_i x t e
        rw [e] at ih
        simp only [List.intercalate] at *
        rw [← ih]
        cases t <;> rfl

end Thrift.Includes
