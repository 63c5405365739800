import Verif.Proofs.IncludesNames
/-
Services of several files, and the generated modules.
-/

namespace Thrift.Includes
open Rpc Spec.Includes
open Audit (Written Base)

variable {fs : Files} {all : List TProgram}

/-! ### Services -/

/-- The declaration of the service, and what was made of it -/
def SvcRep (all : List TProgram) (id : Id) (v : Svc) : Prop := ∃ q ∈ all, q.file = id.file ∧ (id.name, v) ∈ q.own.services

theorem Linked.lookupS (h : Linked fs all) {q : TProgram} (hq : q ∈ all) {n : PyStr} {v : Svc} (e : q.services.lookup n = some v) : ∃ id, NamesService fs q.file n id ∧ SvcRep all id v := by
  obtain ⟨incs, hp⟩ := h.parsed hq
  unfold TProgram.services at e
  have hm := mem_of_lookup e
  rcases List.mem_append.1 hm with hm | hm
  · obtain ⟨ex, fns, h1, _⟩ := hp.inv.services n v hm
    exact ⟨⟨q.file, n⟩, .own _ _ ex fns ((h.declaresService hq).2 h1), q, hq, rfl, hm⟩
  · rw [hp.services] at hm
    obtain ⟨i, hi, hm⟩ := List.mem_flatMap.1 hm
    obtain ⟨x, hx, e'⟩ := List.mem_map.1 hm
    cases e'
    have hi := List.mem_reverse.1 hi
    obtain ⟨incs', hp'⟩ := h.parsed (hp.mem i hi)
    obtain ⟨ex, fns, h1, _⟩ := hp'.inv.services x.1 x.2 hx
    refine ⟨⟨i.file, x.1⟩, ?_, i, hp.mem i hi, rfl, hx⟩
    rw [← pyDot]
    exact .included _ _ _ ex fns ⟨q.src, hp.src, hp.files ▸ List.mem_map.2 ⟨i, hi, rfl⟩⟩ ((h.declaresService (hp.mem i hi)).2 h1)

theorem Linked.namesService_one (h : Linked fs all) (hc : Clear fs) {q : TProgram} (hq : q ∈ all) {n : PyStr} {id id' : Id} (h1 : NamesService fs q.file n id)
    (h2 : NamesService fs q.file n id') : id = id' := by
  revert h1 h2
  generalize hf : q.file = f
  intro h1 h2
  cases h1 with
  | own _ b fns hd =>
    subst hf
    have hs := h.simple hq ((h.declaresService hq).1 hd)
    revert h2
    generalize hn : n = n'
    intro h2
    cases h2 with
    | own _ b' fns' hd' => rfl
    | included i m b' fns' hi hd' =>
      rw [pyDot] at hn
      exact absurd hn (not_dotted hs)
  | included i m b fns hi hd =>
    subst hf
    revert h2
    generalize hn : programName i ++ pyStr "." ++ m = n'
    intro h2
    obtain ⟨qi, hqi, rfl⟩ := h.inc hq hi
    have hs : 46 ∉ m := h.simple hqi ((h.declaresService hqi).1 hd)
    cases h2 with
    | own _ b' fns' hd' =>
      have hs' : 46 ∉ n' := h.simple hq ((h.declaresService hq).1 hd')
      rw [pyDot] at hn
      exact absurd hn.symm (not_dotted hs')
    | included j m' b' fns' hj hd' =>
      obtain ⟨qj, hqj, rfl⟩ := h.inc hq hj
      have hs' : 46 ∉ m' := h.simple hqj ((h.declaresService hqj).1 hd')
      rw [pyDot, pyDot] at hn
      obtain ⟨e1, e2⟩ := dotted_inj hs hs' hn
      rw [hc _ _ _ hi hj e1, e2]

theorem SvcRep.made (h : Linked fs all) {id : Id} {v : Svc} (hr : SvcRep all id v) :
    ∃ q ∈ all, q.file = id.file ∧ ∃ e fns, DeclaresService fs id e fns ∧ SvcFor q.file q.types q.services id.name e fns v := by
  obtain ⟨q, hq, e, hm⟩ := hr
  obtain ⟨incs, hp⟩ := h.parsed hq
  obtain ⟨ex, fns, h1, h2⟩ := hp.inv.services _ _ hm
  refine ⟨q, hq, e, ex, fns, ?_, h2⟩
  have := (h.declaresService hq).2 h1
  rw [e] at this
  exact this

theorem Linked.service_one (h : Linked fs all) {q : TProgram} (hq : q ∈ all) {id : Id} (e : q.file = id.file) {x x' : Option PyStr} {fns fns' : List FnDecl}
    (h1 : DeclaresService fs id x fns) (h2 : DeclaresService fs id x' fns') : x = x' ∧ fns = fns' := by
  rw [← id_eta e] at h1 h2
  have := h.decl_once hq ((h.declaresService hq).1 h1) ((h.declaresService hq).1 h2) rfl
  cases this
  exact ⟨rfl, rfl⟩

theorem functions_offers (h : Linked fs all) (hc : Clear fs) (v : Svc) : ∀ {id : Id}, SvcRep all id v → ∀ d f, (∃ ts, (d, f, ts) ∈ v.functions) ↔ Offers fs id d f := by
  induction v with
  | root i fns =>
    intro id hr d f
    obtain ⟨q, hq, e, ex, fds, hd, hv⟩ := hr.made h
    have hid : i = id := (hv.id.trans (id_eta e))
    obtain ⟨sc, hs, hm⟩ := hv.made
    have hm : fns = _ := hm
    have hbase := hv.base
    cases ex with
    | some x => exact hbase.elim
    | none =>
      rw [Svc.functions]
      constructor
      · rintro ⟨ts, ht⟩
        obtain ⟨y, hy, e1⟩ := List.mem_map.1 ht
        cases e1
        rw [hm] at hy
        obtain ⟨z, hz, e2⟩ := List.mem_map.1 hy
        cases e2
        rw [hid]
        exact .own _ none fds z hd hz
      · intro ho
        cases ho with
        | own _ e' fns' g hd' hg =>
          obtain ⟨-, rfl⟩ := h.service_one hq e hd hd'
          refine ⟨g.2.map (fieldType sc q.file), List.mem_map.2 ⟨(g.1, g.2.map (fieldType sc q.file)), ?_, by rw [hid]⟩⟩
          rw [hm]
          exact List.mem_map.2 ⟨g, hg, rfl⟩
        | inherits _ _ _ x fns' _ hd' _ _ =>
          obtain ⟨h3, -⟩ := h.service_one hq e hd hd'
          cases h3
  | child i fns b ih =>
    intro id hr d f
    obtain ⟨q, hq, e, ex, fds, hd, hv⟩ := hr.made h
    have hid : i = id := (hv.id.trans (id_eta e))
    obtain ⟨sc, hs, hm⟩ := hv.made
    have hm : fns = _ := hm
    have hbase := hv.base
    cases ex with
    | none => exact hbase.elim
    | some x =>
      obtain ⟨hl, -⟩ : q.services.lookup x = some b ∧ _ := hbase
      obtain ⟨bid, hbn, hbr⟩ := h.lookupS hq hl
      rw [Svc.functions]
      constructor
      · rintro ⟨ts, ht⟩
        rcases List.mem_append.1 ht with ht | ht
        · exact .inherits _ bid _ x fds _ hd (e ▸ hbn) ((ih hbr d f).1 ⟨ts, ht⟩)
        · obtain ⟨y, hy, e1⟩ := List.mem_map.1 ht
          cases e1
          rw [hm] at hy
          obtain ⟨z, hz, e2⟩ := List.mem_map.1 hy
          cases e2
          rw [hid]
          exact .own _ (some x) fds z hd hz
      · intro ho
        cases ho with
        | own _ e' fns' g hd' hg =>
          obtain ⟨-, rfl⟩ := h.service_one hq e hd hd'
          refine ⟨g.2.map (fieldType sc q.file), List.mem_append_right _ (List.mem_map.2 ⟨(g.1, g.2.map (fieldType sc q.file)), ?_, by rw [hid]⟩)⟩
          rw [hm]
          exact List.mem_map.2 ⟨g, hg, rfl⟩
        | inherits _ bid' _ x' fns' _ hd' hn' ho' =>
          obtain ⟨h3, -⟩ := h.service_one hq e hd hd'
          cases h3
          rw [← e] at hn'
          cases h.namesService_one hc hq hbn hn'
          obtain ⟨ts, ht⟩ := (ih hbr d f).2 ho'
          exact ⟨ts, List.mem_append_left _ ht⟩

theorem has_iff (v : Svc) (n : PyStr) : v.has n = true ↔ n ∈ v.functions.map fun x => x.2.1 := by
  induction v with
  | root i fs =>
    rw [Svc.has, Svc.functions, List.any_eq_true]
    simp
  | child i fs b ih =>
    rw [Svc.has, Svc.functions, Bool.or_eq_true, ih, List.any_eq_true, List.map_append, List.mem_append]
    simp

theorem distinct_nodup {fns : List FnDecl} (h : distinct fns = true) : (fns.map (·.1)).Nodup := by
  induction fns with
  | nil => exact List.nodup_nil
  | cons f fs ih =>
    rw [distinct, Bool.and_eq_true] at h
    rw [List.map_cons, List.nodup_cons]
    refine ⟨fun hm => ?_, ih h.2⟩
    obtain ⟨g, hg, e⟩ := List.mem_map.1 hm
    have := h.1
    rw [Bool.not_eq_true', List.any_eq_false] at this
    exact this g hg (by simpa using e)

theorem functions_nodup (h : Linked fs all) (v : Svc) : ∀ {id : Id}, SvcRep all id v → (v.functions.map fun x => x.2.1).Nodup := by
  induction v with
  | root i fns =>
    intro id hr
    obtain ⟨q, hq, e, ex, fds, hd, hv⟩ := hr.made h
    obtain ⟨sc, hs, hm⟩ := hv.made
    have hm : fns = _ := hm
    rw [Svc.functions, hm]
    have := distinct_nodup hv.once
    simpa [List.map_map, Function.comp_def] using this
  | child i fns b ih =>
    intro id hr
    obtain ⟨q, hq, e, ex, fds, hd, hv⟩ := hr.made h
    obtain ⟨sc, hs, hm⟩ := hv.made
    have hm : fns = _ := hm
    have hbase := hv.base
    cases ex with
    | none => exact hbase.elim
    | some x =>
      obtain ⟨hl, hno⟩ : q.services.lookup x = some b ∧ ∀ f ∈ fds, b.has f.1 = false := hbase
      obtain ⟨bid, hbn, hbr⟩ := h.lookupS hq hl
      rw [Svc.functions, List.map_append, List.nodup_append]
      refine ⟨ih hbr, ?_, ?_⟩
      · rw [hm]
        have := distinct_nodup hv.once
        simpa [List.map_map, Function.comp_def] using this
      · rintro a ha c hc rfl
        have := (has_iff b a).2 ha
        rw [hm] at hc
        simp only [List.map_map, Function.comp_def, List.mem_map] at hc
        obtain ⟨f, hf, rfl⟩ := hc
        rw [hno f hf] at this
        cases this

theorem functions_from (h : Linked fs all) (v : Svc) : ∀ {id : Id}, SvcRep all id v → ∀ {d f ts}, (d, f, ts) ∈ v.functions → ∃ u, SvcRep all d u ∧ (f, ts) ∈ u.fns := by
  induction v with
  | root i fns =>
    intro id hr d f ts hm
    obtain ⟨q, hq, e, ex, fds, hd, hv⟩ := hr.made h
    have hid : i = id := (hv.id.trans (id_eta e))
    rw [Svc.functions] at hm
    obtain ⟨y, hy, e1⟩ := List.mem_map.1 hm
    cases e1
    refine ⟨.root i fns, ?_, hy⟩
    rw [← hid] at hr
    exact hr
  | child i fns b ih =>
    intro id hr d f ts hm
    obtain ⟨q, hq, e, ex, fds, hd, hv⟩ := hr.made h
    have hid : i = id := (hv.id.trans (id_eta e))
    have hbase := hv.base
    rw [Svc.functions] at hm
    rcases List.mem_append.1 hm with hm | hm
    · cases ex with
      | none => exact hbase.elim
      | some x =>
        obtain ⟨hl, -⟩ : q.services.lookup x = some b ∧ _ := hbase
        obtain ⟨bid, hbn, hbr⟩ := h.lookupS hq hl
        exact ih hbr hm
    · obtain ⟨y, hy, e1⟩ := List.mem_map.1 hm
      cases e1
      refine ⟨.child i fns b, ?_, hy⟩
      rw [← hid] at hr
      exact hr

theorem base_service (h : Linked fs all) {q : TProgram} (hq : q ∈ all) {n : PyStr} {v b : Svc} (ho : (n, v) ∈ q.own.services) (hb : v.base = some b) :
    ∃ d ∈ all, d.file = b.id.file ∧ (b.id.name, b) ∈ d.own.services := by
  obtain ⟨r, hr, e, ex, fds, hd, hv⟩ := SvcRep.made h (id := ⟨q.file, n⟩) ⟨q, hq, rfl, ho⟩
  have hbase := hv.base
  cases v with
  | root => cases hb
  | child i fns b' =>
    cases hb
    cases ex with
    | none => exact hbase.elim
    | some x =>
      obtain ⟨hl, -⟩ : r.services.lookup x = some b ∧ _ := hbase
      obtain ⟨bid, _, hbr⟩ := h.lookupS hr hl
      obtain ⟨r', hr', e', _, _, _, hv'⟩ := hbr.made h
      have : b.id = bid := hv'.id.trans (id_eta e')
      rw [this]
      exact hbr

theorem base_program (h : Linked fs all) {q : TProgram} (hq : q ∈ all) {n : PyStr} {v b : Svc} (ho : (n, v) ∈ q.own.services) (hb : v.base = some b) : ∃ d ∈ all, d.file = b.id.file := by
  obtain ⟨d, h1, h2, _⟩ := base_service h hq ho hb
  exact ⟨d, h1, h2⟩

/-! ### The files that are written -/

theorem lookup_only {α β : Type} [BEq α] [LawfulBEq α] {l : List (α × β)} {k : α} {v : β} (hall : ∀ x ∈ l, x.1 = k → x.2 = v) (hm : (k, v) ∈ l) : l.lookup k = some v := by
  induction l with
  | nil => cases hm
  | cons y ys ih =>
    rw [List.lookup_cons]
    cases e : k == y.1 with
    | true =>
      have := hall y List.mem_cons_self (eq_of_beq e).symm
      rw [this]
    | false =>
      rcases List.mem_cons.1 hm with rfl | hm
      · simp at e
      · exact ih (fun x hx => hall x (List.mem_cons_of_mem _ hx)) hm

theorem mem_generate {x : List PyStr × PyModule} : x ∈ generate all ↔ ∃ p ∈ all, (∃ s ∈ p.own.services, x = (p.module ++ [s.1], service all p s.2)) ∨
    x = (p.module ++ [pyStr "ttypes"], ttypes all p) ∨ x = (p.module ++ [pyStr "constants"], { imports := [p.module ++ [pyStr "ttypes"]], globals := [] }) := by
  unfold generate written
  rw [List.mem_flatMap]
  refine exists_congr fun p => and_congr_right fun _ => ?_
  rw [List.mem_append, List.mem_map]
  constructor
  · rintro (⟨s, hs, rfl⟩ | h)
    · exact .inl ⟨s, List.mem_reverse.1 hs, rfl⟩
    · simpa using Or.inr h
  · rintro (⟨s, hs, rfl⟩ | h)
    · exact .inl ⟨s, List.mem_reverse.2 hs, rfl⟩
    · exact .inr (by simpa using h)

theorem mem_leaf {x : List PyStr × PyModule} (h : x ∈ generate all) : ∃ p ∈ all, ∃ l ∈ leaves p, x.1 = p.module ++ [l] := by
  obtain ⟨p, hp, ⟨s, hs, rfl⟩ | rfl | rfl⟩ := mem_generate.1 h
  · exact ⟨p, hp, s.1, List.mem_append_right _ (List.mem_map.2 ⟨s, hs, rfl⟩), rfl⟩
  · exact ⟨p, hp, _, List.mem_append_left _ (by simp), rfl⟩
  · exact ⟨p, hp, _, List.mem_append_left _ (by simp), rfl⟩

theorem snoc_inj {α : Type} {a b : List α} {x y : α} (h : a ++ [x] = b ++ [y]) : a = b ∧ x = y := by
  simpa using h

theorem get_ttypes (h : Linked fs all) (ha : Apart all) {p : TProgram} (hp : p ∈ all) : (generate all).get (p.module ++ [pyStr "ttypes"]) = some (ttypes all p) := by
  unfold World.get
  refine lookup_only (fun x hx e => ?_) (List.mem_reverse.2 (mem_generate.2 ⟨p, hp, .inr (.inl rfl)⟩))
  obtain ⟨q, hq, ⟨s, hs, rfl⟩ | rfl | rfl⟩ := mem_generate.1 (List.mem_reverse.1 hx)
  · exact absurd (snoc_inj e).2 (ha.services q hq s hs).1
  · rw [h.same q hq p hp (ha.modules q hq p hp (snoc_inj e).1)]
  · exact absurd (snoc_inj e).2 (by decide)

theorem get_service (h : Linked fs all) (ha : Apart all) {p : TProgram} (hp : p ∈ all) {n : PyStr} {v : Svc} (hv : (n, v) ∈ p.own.services) :
    (generate all).get (p.module ++ [n]) = some (service all p v) := by
  unfold World.get
  refine lookup_only (fun x hx e => ?_) (List.mem_reverse.2 (mem_generate.2 ⟨p, hp, .inl ⟨(n, v), hv, rfl⟩⟩))
  obtain ⟨q, hq, ⟨s, hs, rfl⟩ | rfl | rfl⟩ := mem_generate.1 (List.mem_reverse.1 hx)
  · obtain ⟨e1, e2⟩ := snoc_inj e
    have := h.same q hq p hp (ha.modules q hq p hp e1)
    subst this
    obtain ⟨incs, hpp⟩ := h.parsed hq
    have h1 := lookup_of_mem hpp.inv.snodup hv
    have h2 := lookup_of_mem hpp.inv.snodup (n := s.1) (x := s.2) hs
    rw [show s.1 = n from e2, h1] at h2
    cases h2
    rfl
  · exact absurd (snoc_inj e).2.symm (ha.services p hp _ hv).1
  · exact absurd (snoc_inj e).2.symm (ha.services p hp _ hv).2

theorem dir_leaf (ha : Apart all) {p : TProgram} (hp : p ∈ all) {l : PyStr} (hl : l ∈ leaves p) : (generate all).dir (p.module ++ [l]) = false := by
  unfold World.dir
  rw [List.any_eq_false]
  intro x hx
  obtain ⟨q, hq, l', _, e⟩ := mem_leaf hx
  rw [e, Bool.and_eq_true, List.isPrefixOf_iff_prefix]
  rintro ⟨h1, h2⟩
  rcases List.prefix_concat_iff.1 h1 with h1 | h1
  · rw [h1] at h2
    simp at h2
  · exact ha.nested p hp q hq l hl h1

theorem dir_part {p : TProgram} (hp : p ∈ all) {a : List PyStr} (h : a <+: p.module) : (generate all).dir a = true := by
  unfold World.dir
  rw [List.any_eq_true]
  refine ⟨_, mem_generate.2 ⟨p, hp, .inr (.inl rfl)⟩, ?_⟩
  rw [Bool.and_eq_true, List.isPrefixOf_iff_prefix]
  refine ⟨h.trans (List.prefix_append _ _), ?_⟩
  rw [bne_iff_ne]
  rintro rfl
  have := h.length_le
  simp at this
  omega

/-- Along the packages to a module -/
theorem attrs_module (ha : Apart all) {p : TProgram} (hp : p ∈ all) {l : PyStr} (hl : l ∈ leaves p) {loaded : List (List PyStr)} (hm : p.module ++ [l] ∈ loaded) (more : List PyStr) :
    ∀ (rest pre : List PyStr), pre ++ rest = p.module →
      attrs (generate all) loaded (.package pre) (rest ++ l :: more) = attrs (generate all) loaded (.module (p.module ++ [l])) more := by
  intro rest
  induction rest with
  | nil =>
    intro pre e
    rw [List.append_nil] at e
    subst e
    rw [List.nil_append, attrs, attr, dir_leaf ha hp hl]
    simp [hm]
  | cons r rest ih =>
    intro pre e
    have e' : (pre ++ [r]) ++ rest = p.module := by rw [← e]; simp
    rw [List.cons_append, attrs, attr, dir_part hp ⟨rest, e'⟩, if_pos rfl, if_pos]
    · exact ih _ e'
    · rw [List.any_eq_true]
      refine ⟨_, hm, ?_⟩
      rw [List.isPrefixOf_iff_prefix]
      exact ⟨rest ++ [l], by rw [← e']; simp⟩

theorem split_ne (n : PyStr) : split n ≠ [] := by
  cases n with
  | nil => simp [split]
  | cons c cs =>
    rw [split]
    split
    · simp
    · split <;> simp

theorem module_cons (p : TProgram) : ∃ h t, p.module = h :: t := by
  have : p.module ≠ [] := by unfold TProgram.module; exact split_ne _
  cases e : p.module with
  | nil => exact absurd e this
  | cons h t => exact ⟨h, t, rfl⟩

/-! ### What is imported -/

theorem included_mem (h : Linked fs all) {q : TProgram} (hq : q ∈ all) {x : List PyStr} :
    x ∈ included all q ↔ ∃ i ∈ all, i.file ∈ q.src.includes ∧ x = i.module ++ [pyStr "ttypes"] := by
  unfold included
  rw [List.mem_filterMap]
  constructor
  · rintro ⟨i, hi, e⟩
    obtain ⟨incs, hp⟩ := h.parsed hq
    obtain ⟨qi, hqi, rfl⟩ := h.inc hq ⟨q.src, hp.src, hi⟩
    rw [h.progOf hqi] at e
    cases e
    exact ⟨qi, hqi, hi, rfl⟩
  · rintro ⟨i, hi, hm, rfl⟩
    exact ⟨i.file, hm, by rw [h.progOf hi]; rfl⟩

theorem loaded_reaches (h : Linked fs all) (ha : Apart all) {loaded : List (List PyStr)}
    (hc : ∀ x ∈ loaded, ∀ y, (generate all).get x = some y → ∀ z ∈ y.imports, z ∈ loaded) {f g : Path} (hr : Reaches fs f g) :
    ∀ {q : TProgram}, q ∈ all → q.file = f → q.module ++ [pyStr "ttypes"] ∈ loaded → ∃ q' ∈ all, q'.file = g ∧ q'.module ++ [pyStr "ttypes"] ∈ loaded := by
  induction hr with
  | refl f => intro q hq e hl; exact ⟨q, hq, e, hl⟩
  | step f g c hi _ ih =>
    intro q hq e hl
    subst e
    obtain ⟨qi, hqi, rfl⟩ := h.inc hq hi
    refine ih hqi rfl (hc _ hl _ (get_ttypes h ha hq) _ ?_)
    refine (included_mem h hq).2 ⟨qi, hqi, ?_, rfl⟩
    obtain ⟨incs, hp⟩ := h.parsed hq
    obtain ⟨F, h1, h2⟩ := hi
    rw [hp.src] at h1
    cases h1
    exact h2

theorem denotes_class {f : Path} {w : Written} {m : Mean} (h : Denotes fs f w m) : ∀ id ∈ m.classes, Reaches fs f id.file ∧ (Declares fs id .enum ∨ ∃ ws, Declares fs id (.struct ws)) := by
  have hn : ∀ {f n id}, Names fs f n id → Reaches fs f id.file := by
    intro f n id h
    cases h with
    | own => exact .refl _
    | included _ _ _ hi => exact .step _ _ _ hi (.refl _)
  induction h with
  | base => intro id hid; cases hid
  | list _ _ _ _ ih => exact ih
  | set _ _ _ _ ih => exact ih
  | map _ _ _ _ _ _ _ iha ihb =>
    intro id hid
    rcases List.mem_append.1 hid with hid | hid
    · exact iha id hid
    · exact ihb id hid
  | enum f n i h1 h2 => intro id hid; rw [List.mem_singleton.1 hid]; exact ⟨hn h1, .inl h2⟩
  | struct f n i ws h1 h2 => intro id hid; rw [List.mem_singleton.1 hid]; exact ⟨hn h1, .inr ⟨ws, h2⟩⟩
  | typedef f n i w m h1 _ _ ih =>
    intro id hid
    obtain ⟨a, b⟩ := ih id hid
    exact ⟨reaches_trans (hn h1) a, b⟩

theorem class_name (h : Linked fs all) {q : TProgram} (hq : q ∈ all) {n : PyStr} (hd : Declares fs ⟨q.file, n⟩ .enum ∨ ∃ ws, Declares fs ⟨q.file, n⟩ (.struct ws)) : n ∈ q.classNames := by
  obtain ⟨incs, hp⟩ := h.parsed hq
  unfold TProgram.classNames
  rcases hd with hd | ⟨ws, hd⟩
  · exact List.mem_append_left _ ((hp.inv.enums n).2 ((h.declares hq).1 hd))
  · obtain ⟨ts, h1, _⟩ := hp.inv.objects' n ws ((h.declares hq).1 hd)
    exact List.mem_append_right _ (List.mem_map.2 ⟨_, h1, rfl⟩)

theorem lookup_classes (q : TProgram) (n : PyStr) :
    (q.classNames.reverse.map fun n => (n, Obj.cls ⟨q.file, n⟩)).lookup n = if n ∈ q.classNames then some (.cls ⟨q.file, n⟩) else none := by
  split
  · rename_i h
    refine lookup_only (fun x hx e => ?_) (List.mem_map.2 ⟨n, List.mem_reverse.2 h, rfl⟩)
    obtain ⟨m, _, rfl⟩ := List.mem_map.1 hx
    rw [show m = n from e]
  · rename_i h
    refine lookup_none fun hm => h ?_
    simpa using hm

/-- The class in the module of its own program -/
theorem ttypes_class (h : Linked fs all) (ha : Apart all) {q : TProgram} (hq : q ∈ all) {n : PyStr} (hn : n ∈ q.classNames) :
    ((generate all).get (q.module ++ [pyStr "ttypes"])).bind (fun m => m.globals.lookup n) = some (.cls ⟨q.file, n⟩) := by
  rw [get_ttypes h ha hq]
  show (ttypes all q).globals.lookup n = _
  unfold ttypes
  dsimp only
  rw [List.append_assoc, List.append_assoc, lookup_append', lookup_classes, if_pos hn]
  rfl

/-- The dotted name of a class of another program -/
theorem reach_other (h : Linked fs all) (ha : Apart all) {q : TProgram} (hq : q ∈ all) {n : PyStr} (hn : n ∈ q.classNames) {loaded : List (List PyStr)}
    (hl : q.module ++ [pyStr "ttypes"] ∈ loaded) {x : PyStr} {t : List PyStr} (e : q.module = x :: t) :
    attrs (generate all) loaded (.package [x]) (t ++ [pyStr "ttypes", n]) = some (.cls ⟨q.file, n⟩) := by
  rw [attrs_module ha hq (List.mem_append_left _ (by simp)) hl [n] t [x] (by rw [e]; rfl), attrs, attr, ttypes_class h ha hq hn]
  rfl

theorem cls_none {w : World} {loaded : List (List PyStr)} {i : Id} {r : List PyStr} (h : r ≠ []) : attrs w loaded (.cls i) r = none := by
  cases r with
  | nil => exact absurd rfl h
  | cons a as => rfl

theorem other_none {w : World} {loaded : List (List PyStr)} {r : List PyStr} (h : r ≠ []) : attrs w loaded .other r = none := by
  cases r with
  | nil => exact absurd rfl h
  | cons a as => rfl

/-- What a name is in `ttypes.py` -/
theorem ttypes_lookup (all : List TProgram) (q : TProgram) (x : PyStr) : (ttypes all q).globals.lookup x = ((if x ∈ q.classNames then some (.cls ⟨q.file, x⟩) else none) : Option Obj).or
    (([(pyStr "all_structs", Obj.other), (pyStr "TTransport", .other)].lookup x).or ((((included all q).reverse.map bound).lookup x).or (libraryNames.lookup x))) := by
  unfold ttypes
  dsimp only
  rw [List.append_assoc, List.append_assoc, lookup_append', lookup_classes, lookup_append', lookup_append']

theorem bound_lookup (h : Linked fs all) {q : TProgram} (hq : q ∈ all) {x : PyStr} {o : Obj} (e : ((included all q).reverse.map bound).lookup x = some o) :
    o = .package [x] ∧ ∃ i ∈ all, i.file ∈ q.src.includes ∧ headOf i = x := by
  obtain ⟨z, hz, e⟩ := List.mem_map.1 (mem_of_lookup e)
  obtain ⟨i, hia, hii, rfl⟩ := (included_mem h hq).1 (List.mem_reverse.1 hz)
  obtain ⟨a, b, e'⟩ := module_cons i
  rw [e', bound] at e
  cases e
  exact ⟨rfl, i, hia, hii, by rw [headOf, e']; rfl⟩

theorem bound_found (h : Linked fs all) {q : TProgram} (hq : q ∈ all) {x : PyStr} (hi : ∃ i ∈ all, i.file ∈ q.src.includes ∧ headOf i = x) :
    ((included all q).reverse.map bound).lookup x = some (.package [x]) := by
  obtain ⟨i, hia, hii, hh⟩ := hi
  obtain ⟨o, ho⟩ : ∃ o, ((included all q).reverse.map bound).lookup x = some o := by
    refine lookup_isSome (List.mem_map.2 ⟨bound (i.module ++ [pyStr "ttypes"]), List.mem_map.2 ⟨_, List.mem_reverse.2 ((included_mem h hq).2 ⟨i, hia, hii, rfl⟩), rfl⟩, ?_⟩)
    obtain ⟨a, b, e'⟩ := module_cons i
    rw [← hh, headOf, e', bound]
    rfl
  rw [ho, (bound_lookup h hq ho).1]

theorem library_other {x : PyStr} {o : Obj} (h : libraryNames.lookup x = some o) : o = .other := by
  obtain ⟨y, _, e⟩ := List.mem_map.1 (mem_of_lookup h)
  cases e
  rfl

theorem star_lookup (l : List (PyStr × Obj)) (x : PyStr) : (star l).lookup x = if Underscore x then none else l.lookup x := by
  unfold star
  induction l with
  | nil => simp
  | cons y ys ih =>
    rw [List.filter_cons, List.lookup_cons]
    by_cases h : x = y.1
    · subst h
      by_cases hu : Underscore y.1
      · rw [if_neg (by simpa [Underscore] using hu), ih, if_pos hu, if_pos hu]
      · rw [if_pos (by simpa [Underscore] using hu), List.lookup_cons, if_neg hu]
        simp
    · have hb : (x == y.1) = false := by simpa using h
      rw [hb]
      split
      · rw [List.lookup_cons, hb, ih]
      · exact ih

/-- What the name of a package is in the module of a service -/
theorem service_lookup (q : TProgram) (v : Svc) (x : PyStr) : (service all q v).globals.lookup x = ((svcNames v ++ [(pyStr "TTransport", Obj.other), (pyStr "TProcessor", .other)]).lookup x).or
    ((if Underscore x then none else (ttypes all q).globals.lookup x : Option Obj).or
      (([(pyStr "logging", Obj.other)].lookup x).or (((v.base.map fun b => bound (svcModule all b.id)).toList.lookup x).or (libraryNames.lookup x)))) := by
  unfold service
  dsimp only
  rw [List.append_assoc, List.append_assoc, List.append_assoc, lookup_append', lookup_append', lookup_append', lookup_append', lookup_append', star_lookup]

theorem svcNames_mem (v : Svc) (x : PyStr) : x ∈ (svcNames v ++ [(pyStr "TTransport", Obj.other), (pyStr "TProcessor", .other)]).map (·.1) ↔ x ∈ serviceNames (v.fns.map (·.1)) := by
  unfold svcNames serviceNames
  simp only [List.map_append, List.map_map, List.mem_append, Function.comp_def, List.map_cons, List.map_nil, List.mem_cons, List.not_mem_nil, or_false, List.flatMap_map, List.map_id']
  constructor
  · rintro (((h | h | h | h) | h) | h | h) <;> simp [h]
  · rintro ((h | h | h | h | h | h) | h) <;> simp [h]

theorem svcNames_other {v : Svc} {x : PyStr} {o : Obj} (h : (svcNames v ++ [(pyStr "TTransport", Obj.other), (pyStr "TProcessor", .other)]).lookup x = some o) : o = .other := by
  have := mem_of_lookup h
  rw [List.mem_append] at this
  rcases this with h | h
  · obtain ⟨y, _, e⟩ := List.mem_map.1 h
    cases e
    rfl
  · simp only [List.mem_cons, List.not_mem_nil, or_false, Prod.mk.injEq] at h
    rcases h with h | h <;> exact h.2

/-- When the name of a package is found in `ttypes.py` -/
theorem head_found (h : Linked fs all) {q : TProgram} (hq : q ∈ all) (x : PyStr) (p : List PyStr) :
    (ttypes all q).globals.lookup x = some (.package p) ↔
      p = [x] ∧ x ∉ q.classNames ∧ x ≠ pyStr "all_structs" ∧ x ≠ pyStr "TTransport" ∧ ∃ i ∈ all, i.file ∈ q.src.includes ∧ headOf i = x := by
  rw [ttypes_lookup]
  by_cases h1 : x ∈ q.classNames
  · rw [if_pos h1]
    exact ⟨fun e => by simp at e, fun e => absurd h1 e.2.1⟩
  · rw [if_neg h1, Option.none_or]
    by_cases h2 : x = pyStr "all_structs"
    · subst h2
      exact ⟨fun e => absurd e (by simp [List.lookup]), fun e => absurd rfl e.2.2.1⟩
    · by_cases h3 : x = pyStr "TTransport"
      · subst h3
        exact ⟨fun e => absurd e (by simp [List.lookup, show (pyStr "TTransport" == pyStr "all_structs") = false by decide]), fun e => absurd rfl e.2.2.2.1⟩
      · rw [lookup_none (by simp [h2, h3]), Option.none_or]
        constructor
        · intro e
          cases e1 : ((included all q).reverse.map bound).lookup x with
          | some o =>
            obtain ⟨rfl, hi⟩ := bound_lookup h hq e1
            rw [e1] at e
            cases e
            exact ⟨rfl, h1, h2, h3, hi⟩
          | none =>
            rw [e1, Option.none_or] at e
            cases library_other e
        · rintro ⟨rfl, _, _, _, hi⟩
          rw [bound_found h hq hi]
          rfl

theorem library_mem (x : PyStr) : x ∈ libraryNames.map (·.1) ∨ x = pyStr "logging" ↔ x ∈ Spec.Includes.imported := by
  unfold libraryNames Spec.Includes.imported
  simp only [List.map_cons, List.map_nil, List.mem_cons, List.not_mem_nil, or_false]
  constructor
  · rintro ((h | h | h | h | h | h | h | h | h) | h) <;> simp [h]
  · rintro (h | h | h | h | h | h | h | h | h | h) <;> simp [h]

/-- When the name of a package is found in the module of a service -/
theorem head_service (h : Linked fs all) {q : TProgram} (hq : q ∈ all) (v : Svc) (x : PyStr) (p : List PyStr) :
    (service all q v).globals.lookup x = some (.package p) ↔
      p = [x] ∧ x ∉ serviceNames (v.fns.map (·.1)) ∧
        ((¬ Underscore x ∧ x ∉ q.classNames ∧ ∃ i ∈ all, i.file ∈ q.src.includes ∧ headOf i = x) ∨
          ((Underscore x ∨ x ∉ q.classNames) ∧ x ∉ Spec.Includes.imported ∧ ∃ b, v.base = some b ∧ (svcModule all b.id).headD [] = x)) := by
  rw [service_lookup]
  by_cases h1 : x ∈ serviceNames (v.fns.map (·.1))
  · obtain ⟨o, ho⟩ := lookup_isSome ((svcNames_mem v x).2 h1)
    rw [ho, svcNames_other ho]
    exact ⟨fun e => (by cases e), fun e => absurd h1 e.2.1⟩
  · rw [lookup_none (fun hm => h1 ((svcNames_mem v x).1 hm)), Option.none_or]
    have hst : x ≠ pyStr "all_structs" := fun e => h1 (e ▸ List.mem_append_left _ (by simp))
    have htt : x ≠ pyStr "TTransport" := fun e => h1 (e ▸ List.mem_append_left _ (by simp))
    have hrest : (([(pyStr "logging", Obj.other)].lookup x).or (((v.base.map fun b => bound (svcModule all b.id)).toList.lookup x).or (libraryNames.lookup x))) = some (.package p) ↔
        p = [x] ∧ x ≠ pyStr "logging" ∧ ∃ b, v.base = some b ∧ (svcModule all b.id).headD [] = x := by
      by_cases h4 : x = pyStr "logging"
      · subst h4
        exact ⟨fun e => absurd e (by simp [List.lookup]), fun e => absurd rfl e.2.1⟩
      · rw [lookup_none (by simp [h4]), Option.none_or]
        cases hb : v.base with
        | none =>
          constructor
          · intro e; cases library_other (show libraryNames.lookup x = _ from e)
          · rintro ⟨_, _, b, e, _⟩; cases e
        | some b =>
          by_cases hx : (svcModule all b.id).headD [] = x
          · rw [show (((some b).map fun b => bound (svcModule all b.id)).toList.lookup x) = some (.package [x]) by
              show [bound (svcModule all b.id)].lookup x = _
              rw [bound, hx, List.lookup_cons]
              simp]
            constructor
            · intro e; cases e; exact ⟨rfl, h4, b, rfl, hx⟩
            · rintro ⟨rfl, _⟩; rfl
          · rw [show (((some b).map fun b => bound (svcModule all b.id)).toList.lookup x) = none from
              lookup_none (by show x ∉ [bound (svcModule all b.id)].map (·.1); simp only [bound, List.map_cons, List.map_nil, List.mem_singleton]; exact fun e => hx e.symm), Option.none_or]
            constructor
            · intro e; cases library_other e
            · rintro ⟨_, _, b', e, hx'⟩; cases e; exact absurd hx' hx
    by_cases hu : Underscore x
    · rw [if_pos hu, Option.none_or, hrest]
      have hni : x ∉ Spec.Includes.imported := by
        intro hm
        unfold Spec.Includes.imported at hm
        simp only [List.map_cons, List.map_nil, List.mem_cons, List.not_mem_nil, or_false] at hm
        rcases hm with h | h | h | h | h | h | h | h | h | h <;> subst h <;> revert hu <;> decide
      constructor
      · rintro ⟨hp, _, hb⟩; exact ⟨hp, h1, .inr ⟨.inl hu, hni, hb⟩⟩
      · rintro ⟨hp, _, ⟨hu', _⟩ | ⟨_, _, hb⟩⟩
        · exact absurd hu hu'
        · exact ⟨hp, fun e => hni ((library_mem x).1 (.inr e)), hb⟩
    · rw [if_neg hu]
      cases ht : (ttypes all q).globals.lookup x with
      | some o =>
        rw [Option.some_or]
        constructor
        · intro e
          rw [e] at ht
          obtain ⟨hp, h2, _, _, hi⟩ := (head_found h hq x p).1 ht
          exact ⟨hp, h1, .inl ⟨hu, h2, hi⟩⟩
        · rintro ⟨hp, _, ⟨_, h2, hi⟩ | ⟨h2, h3, hb⟩⟩
          · rw [← ht]
            exact (head_found h hq x p).2 ⟨hp, h2, hst, htt, hi⟩
          · rw [← ht]
            refine (head_found h hq x p).2 ⟨hp, h2.resolve_left hu, hst, htt, ?_⟩
            rw [ttypes_lookup, if_neg (h2.resolve_left hu), Option.none_or, lookup_none (by simp [hst, htt]), Option.none_or] at ht
            cases e1 : ((included all q).reverse.map bound).lookup x with
            | some o' => exact (bound_lookup h hq e1).2
            | none =>
              rw [e1, Option.none_or] at ht
              exact absurd ((library_mem x).1 (.inl (List.mem_map.2 ⟨_, mem_of_lookup ht, rfl⟩))) h3
      | none =>
        rw [Option.none_or, hrest]
        have hnc : x ∉ q.classNames := by
          intro hc
          rw [ttypes_lookup, if_pos hc] at ht
          cases ht
        have hni : x ∉ libraryNames.map (·.1) := by
          intro hm
          obtain ⟨o, ho⟩ := lookup_isSome hm
          rw [ttypes_lookup, if_neg hnc, Option.none_or, lookup_none (by simp [hst, htt]), Option.none_or, ho] at ht
          cases e1 : ((included all q).reverse.map bound).lookup x <;> rw [e1] at ht <;> cases ht
        constructor
        · rintro ⟨hp, h4, hb⟩
          exact ⟨hp, h1, .inr ⟨.inr hnc, fun hm => ((library_mem x).2 hm).elim hni h4, hb⟩⟩
        · rintro ⟨hp, _, ⟨_, h2, hi⟩ | ⟨_, h3, hb⟩⟩
          · rw [(head_found h hq x [x]).2 ⟨rfl, h2, hst, htt, hi⟩] at ht
            cases ht
          · exact ⟨hp, fun e => h3 ((library_mem x).1 (.inr e)), hb⟩

theorem ttypes_no_module (q : TProgram) (x : PyStr) (p : List PyStr) : (ttypes all q).globals.lookup x ≠ some (.module p) := by
  intro e
  have := mem_of_lookup e
  unfold ttypes at this
  simp only [List.mem_append] at this
  rcases this with ((h1 | h1) | h1) | h1
  · obtain ⟨_, _, e⟩ := List.mem_map.1 h1; cases e
  · simp at h1
  · obtain ⟨_, _, e⟩ := List.mem_map.1 h1; cases e
  · obtain ⟨_, _, e⟩ := List.mem_map.1 h1; cases e

theorem service_no_module (q : TProgram) (v : Svc) (x : PyStr) (p : List PyStr) : (service all q v).globals.lookup x ≠ some (.module p) := by
  rw [service_lookup]
  intro e
  rw [Option.or_eq_some_iff, Option.or_eq_some_iff, Option.or_eq_some_iff, Option.or_eq_some_iff] at e
  rcases e with e | ⟨_, e | ⟨_, e | ⟨_, e | ⟨_, e⟩⟩⟩⟩
  · cases svcNames_other e
  · split at e
    · cases e
    · exact ttypes_no_module q x p e
  · have := mem_of_lookup e; simp at this
  · have := mem_of_lookup e
    cases hb : v.base with
    | none => rw [hb] at this; cases this
    | some b =>
      rw [hb] at this
      have : (x, Obj.module p) ∈ [bound (svcModule all b.id)] := this
      cases List.mem_singleton.1 this
  · cases library_other e

/-- What follows the name of a package leads to something only if it is found as a package. -/
theorem eval_package {w : World} {loaded : List (List PyStr)} {m : List PyStr} {x : PyStr} {r : List PyStr} (hr : r ≠ []) {y : PyModule} (hy : w.get m = some y)
    (hnm : ∀ p, y.globals.lookup x ≠ some (.module p)) {o : Obj} (h : eval w loaded m (x :: r) = some o) : ∃ p, y.globals.lookup x = some (.package p) := by
  rw [eval, hy] at h
  cases e : y.globals.lookup x with
  | none => rw [show (some y).bind (fun x_1 => x_1.globals.lookup x) = none from e] at h; cases h
  | some o' =>
    rw [show (some y).bind (fun x_1 => x_1.globals.lookup x) = some o' from e] at h
    cases o' with
    | package p => exact ⟨p, rfl⟩
    | module p => exact absurd e (hnm p)
    | cls i => dsimp only at h; rw [cls_none hr] at h; cases h
    | other => dsimp only at h; rw [other_none hr] at h; cases h

/-! ### Running the parser in examples -/

def parseAllN (f : Path → Option (Except Reject (List TProgram × TProgram))) : List Path → Option (Except Reject (List (List TProgram × TProgram)))
  | [] => some (.ok [])
  | i :: is =>
    match f i with
    | none => none
    | some (.error e) => some (.error e)
    | some (.ok r) =>
      match parseAllN f is with
      | none => none
      | some (.error e) => some (.error e)
      | some (.ok rs) => some (.ok (r :: rs))

/-- `parse`, at most `n` levels of files -/
def parseN (fs : Files) : Nat → List Path → Path → Option (Except Reject (List TProgram × TProgram))
  | 0, _, _ => none
  | n + 1, known, path =>
    if path ∈ known then some (.error .recursion)
    else
      match fs.lookup path with
      | none => some (.error .cannotOpen)
      | some src =>
        match parseAllN (parseN fs n (path :: known)) src.includes with
        | none => none
        | some (.error e) => some (.error e)
        | some (.ok rs) =>
          match program path src (rs.map (·.2)) with
          | .error e => some (.error e)
          | .ok p => some (.ok (rs.flatMap fun r => r.1 ++ [r.2], p))

theorem parseAllN_eq {fs : Files} {n : Nat} {known : List Path} (ih : ∀ i r, parseN fs n known i = some r → parse fs known i = r) :
    ∀ is r, parseAllN (parseN fs n known) is = some r → parseAll fs known is = r := by
  intro is
  induction is with
  | nil => intro r h; cases h; rw [parseAll.eq_def]
  | cons i is ih' =>
    intro r h
    rw [parseAllN] at h
    rw [parseAll.eq_def]
    dsimp only
    split at h
    · cases h
    · rename_i e he
      cases h
      rw [ih _ _ he]
    · rename_i r' hr
      rw [ih _ _ hr]
      dsimp only
      split at h
      · cases h
      · rename_i e he
        cases h
        rw [ih' _ he]
      · rename_i rs hrs
        cases h
        rw [ih' _ hrs]

theorem parseN_eq {fs : Files} (n : Nat) : ∀ known path r, parseN fs n known path = some r → parse fs known path = r := by
  induction n with
  | zero => intro _ _ _ h; cases h
  | succ n ih =>
    intro known path r h
    rw [parseN] at h
    rw [parse.eq_def]
    split at h
    · rename_i hk
      cases h
      rw [dif_pos hk]
    · rename_i hk
      rw [dif_neg hk]
      split at h
      · rename_i hf
        cases h
        split
        · rfl
        · rename_i h1; rw [hf] at h1; cases h1
      · rename_i src hf
        split
        · rename_i h1; rw [hf] at h1; cases h1
        · rename_i src' h1
          rw [hf] at h1
          cases h1
          split at h
          · cases h
          · rename_i e he
            cases h
            rw [parseAllN_eq (ih (path :: known)) _ _ he]
          · rename_i rs hrs
            rw [parseAllN_eq (ih (path :: known)) _ _ hrs]
            dsimp only
            split at h
            · rename_i e he; cases h; rw [he]
            · rename_i p hp; cases h; rw [hp]

/-- The programs, if there are at most nine levels of files -/
def compiled (fs : Files) (path : Path) : List TProgram :=
  match parseN fs 9 [] path with
  | some (.ok (ps, p)) => ps ++ [p]
  | _ => []

theorem compiled_eq {fs : Files} {path : Path} (h : compiled fs path ≠ []) : compile fs path = .ok (compiled fs path) := by
  unfold compiled at h ⊢
  split at h
  · rename_i ps p e
    unfold compile
    rw [parseN_eq _ _ _ _ e]
  · exact absurd rfl h

end Thrift.Includes
