import Verif.Proofs.Defaults
/-
C69: default values of struct members belong to the instance. C70: what is declared as default is what a new instance has, and the
generated module can be imported.

Both are false of the code in part; what holds and what does not is proved for every program.
-/

namespace Thrift.Defaults
open Spec.Defaults Rpc

/-- The modules of a program, imported into a fresh interpreter -/
def start : World := { tbl := [], heap := [] }

theorem good_of_import {n : Nat} {ms : List (List Struct)} {w : World} (hk : Distinct ms) (hw : importAll (n + 1) ms start = .ok w) :
    AllImportable ms ∧ Good (ms.flatten.map (·, true)) w.tbl w.heap := by
  have h := importAll_good n [] ms start hk good_empty
  rw [hw] at h
  exact ⟨fun a m b hab => by simpa using h.1 a m b hab, by simpa using h.2⟩

theorem find_struct {ms : List (List Struct)} {tbl : List Cls} {h : Heap} (g : Good (ms.flatten.map (·, true)) tbl h) {c : Nat} {s : Struct}
    (hs : ms.flatten[c]? = some s) : ∃ cls, tbl[c]? = some cls ∧ ClsOK ms.flatten h s true cls := by
  have henv : (ms.flatten.map (·, true))[c]? = some (s, true) := by rw [List.getElem?_map, hs]; rfl
  have hlt : c < tbl.length := by
    rw [g.length]
    exact (List.getElem?_eq_some_iff.mp henv).1
  refine ⟨tbl[c], List.getElem?_eq_getElem hlt, ?_⟩
  have := g.cls c _ s true (List.getElem?_eq_getElem hlt) henv
  simpa [Function.comp_def] using this

/-! ## Importing -/

/-- C70: a program can be imported exactly if every default can be evaluated where the class is defined: a struct in a default is of an
earlier class and, if this class compares its own defaults with `thrift_spec`, of another module. -/
theorem import_iff_partial (n : Nat) (ms : List (List Struct)) (hk : Distinct ms) :
    (∃ w, importAll (n + 1) ms start = .ok w) ↔ AllImportable ms := by
  have h := importAll_good n [] ms start hk good_empty
  constructor
  · rintro ⟨w, hw⟩
    exact (good_of_import hk hw).1
  · intro ha
    rcases he : importAll (n + 1) ms start with e | w
    · rw [he] at h
      exact absurd (fun a m b hab => by simpa using ha a m b hab) h
    · exact ⟨w, rfl⟩

/-- C70 fails: if a member's default is a struct of the same module that itself has a list, set, map or struct as default, the module
cannot be imported, whatever else the program contains. -/
theorem import_fails (n : Nat) (ms : List (List Struct)) (hk : Distinct ms) (a b : List (List Struct)) (m : List Struct) (hm : ms = a ++ m :: b)
    (i j : Nat) (s s' : Struct) (hi : m[i]? = some s) (hj : m[j]? = some s') (f : Member) (hf : f ∈ s.members) (ns : List PyStr) (ls : List Lit)
    (hl : f.dflt = some (.struct (a.flatten.length + j) ns ls)) (f' : Member) (hf' : f' ∈ s'.members) (hc : f'.compound = true)
    (hd : f'.dflt.isSome = true) : ∃ e, importAll (n + 1) ms start = .error e := by
  rcases he : importAll (n + 1) ms start with e | w
  · exact ⟨e, rfl⟩
  · exfalso
    have ha := (import_iff_partial n ms hk).mp ⟨w, he⟩
    have hi' := (List.getElem?_eq_some_iff.mp hi).1
    have hs : m = m.take i ++ s :: m.drop (i + 1) := by
      have h1 := (List.getElem?_eq_some_iff.mp hi).2
      rw [← h1, ← List.drop_eq_getElem_cons hi', List.take_append_drop]
    obtain ⟨_, hu⟩ := ha a m b hm (m.take i) s (m.drop (i + 1)) hs
    have hx := usableAll_iff.mp hu f.lit (List.mem_map_of_mem hf)
    rw [show f.lit = .struct (a.flatten.length + j) ns ls by simp [Member.lit, hl]] at hx
    cases hx with
    | struct h1 h2 _ _ =>
      rename_i s'' done
      rw [List.getElem?_append_right (by rw [List.length_map]; exact Nat.le_add_right _ _)] at h1
      simp only [List.length_map, Nat.add_sub_cancel_left] at h1
      rw [List.getElem?_map] at h1
      rcases ht : (m.take i)[j]? with _ | t
      · rw [ht] at h1; cases h1
      · rw [ht] at h1
        simp at h1
        obtain ⟨rfl, rfl⟩ := h1
        have : m[j]? = some t := getElem?_prefix (List.take_prefix i m) ht
        rw [hj] at this
        cases this
        have := (h2 f' hf' (by simp [Member.compares, hc, hd])).1
        cases this

/-! ## Values of the defaults -/

/-- C70: right after the import, and as long as the program changes in place no object that was made by the import, a new instance shows
the values given and, for the other members, the declared defaults. Needs that no key is negative. -/
theorem default_value_partial (n : Nat) (ms : List (List Struct)) (hk : Distinct ms) (w : World) (hw : importAll (n + 1) ms start = .ok w)
    (ops : List Op) (ho : ∀ op ∈ ops, Spares w.heap.length op) (c : Nat) (s : Struct) (hs : ms.flatten[c]? = some s)
    (hpos : ∀ m ∈ s.members, 0 ≤ m.key) (f : Nat) :
    w.heap <+: steps w.tbl f ops w.heap ∧
    ∃ x h', init w.tbl (f + 1) c [] (steps w.tbl f ops w.heap) = (.ok x, h') ∧ Shows ms.flatten h' x (.struct c [] []) := by
  obtain ⟨_, g⟩ := good_of_import hk hw
  have hpre : w.heap <+: steps w.tbl f ops w.heap := by
    unfold steps
    have : ∀ (ops : List Op) (h : Heap), (∀ op ∈ ops, Spares w.heap.length op) → w.heap <+: h →
        w.heap <+: ops.foldl (fun h op => step w.tbl f op h) h := by
      intro ops
      induction ops with
      | nil => exact fun h _ hp => hp
      | cons op ops ih =>
        intro h ho hp
        refine ih _ (fun op hop => ho op (by simp [hop])) ?_
        have hsp := ho op (by simp)
        have hset : ∀ r o, w.heap.length ≤ r → w.heap <+: h.set r o := by
          intro r o hr
          obtain ⟨t, rfl⟩ := hp
          rw [List.set_append_right _ _ hr]
          exact List.prefix_append _ _
        cases op with
        | new c kw => exact hp.trans (init_prefix _ _ _ _ _)
        | read c given => exact hp.trans (readNew_prefix _ _ _ _ _)
        | setList r xs => simp only [step]; split <;> first | exact hset _ _ hsp | exact hp
        | setSet r xs => simp only [step]; split <;> first | exact hset _ _ hsp | exact hp
        | setMap r xs => simp only [step]; split <;> first | exact hset _ _ hsp | exact hp
        | setAttr r nm x =>
          simp only [step]
          split
          · split
            · split
              · exact hp
              · exact hset _ _ hsp
            · exact hp
          · exact hp
    exact this ops w.heap ho List.prefix_rfl
  refine ⟨hpre, ?_⟩
  obtain ⟨cls, hc, x⟩ := find_struct g hs
  have henv : (ms.flatten.map (·, true))[c]? = some (s, true) := by rw [List.getElem?_map, hs]; rfl
  have g' := g.mono hpre
  have h1 := (init_call g' f hc henv [] (by simp) (steps w.tbl f ops w.heap) (by simp)).1 (fun m hm _ => ⟨rfl, hpos⟩)
  refine ⟨_, _, h1, ?_⟩
  refine .struct (s := s) hs (by simp; rfl) ?_
  have := values_shows (ns := []) (ls := []) (rs := []) (structs := ms.flatten) (h := steps w.tbl f ops w.heap ++
    [.inst c ((s.members.map Member.param).zip (values [] s.members cls.dflts))]) .nil s.members cls.dflts
    (x.dflts.mono List.prefix_rfl (hpre.trans (List.prefix_append _ _)))
  simpa using this

/-- C70 fails for structs with a negative key (fields without a number): if one of their members has a list, set, map or struct as
default, no instance can be made. -/
theorem default_negative (n : Nat) (ms : List (List Struct)) (hk : Distinct ms) (w : World) (hw : importAll (n + 1) ms start = .ok w)
    (c : Nat) (s : Struct) (hs : ms.flatten[c]? = some s) (hneg : ∃ m ∈ s.members, m.key < 0) (m : Member) (hm : m ∈ s.members)
    (hc : m.compound = true) (hd : m.dflt.isSome = true) (f : Nat) (kw : List (PyStr × Ref))
    (hkw : ∀ p ∈ kw, p.1 ∈ s.members.map Member.param) (h : Heap) :
    init w.tbl (f + 1) c kw h = (.error .indexError, h) := by
  obtain ⟨_, g⟩ := good_of_import hk hw
  obtain ⟨cls, hcls, x⟩ := find_struct g hs
  obtain ⟨l, h1, _, _, h4⟩ := x.spec rfl
  rw [h4 hneg] at h1
  have hitem : ∀ k, specItem cls.spec k = .error .indexError := by
    intro k
    rw [h1]
    unfold specItem
    simp
  have hlen : cls.dflts.length = s.members.length := by rw [x.dflts.length]; simp
  unfold init
  rw [hcls]
  simp only
  rw [if_neg, x.members]
  · obtain ⟨e, h5, p, _, _, h6⟩ := initMembers_error (eval (init w.tbl f)) cls.spec kw (s.members.zip cls.dflts) h
      (fun p _ _ r hr => by rw [hitem] at hr; cases hr)
      (by
        obtain ⟨i, hi, rfl⟩ := List.getElem_of_mem hm
        exact ⟨(s.members[i], cls.dflts[i]'(by omega)), List.mem_of_getElem? (i := i)
          (by rw [List.getElem?_zip_eq_some]; exact ⟨List.getElem?_eq_getElem hi, List.getElem?_eq_getElem (by omega)⟩),
          by simp [Member.compares, hc, hd], fun ⟨r, hr⟩ => by rw [hitem] at hr; cases hr⟩)
    rw [hitem] at h6
    cases h6
    rw [h5]
  · simp only [List.any_eq_true, not_exists, not_and, x.members]
    intro a ha
    simpa using hkw a ha

/-! ## Who owns the defaults -/

theorem lookup_zip_values (kw : List (PyStr × Ref)) (ms : List Member) (ds : List Ref) (hl : ds.length = ms.length)
    (hn : (ms.map Member.param).Nodup) (i : Nat) (m : Member) (d : Ref) (hm : ms[i]? = some m) (hd : ds[i]? = some d) :
    ((ms.map Member.param).zip (values kw ms ds)).lookup m.param = some ((kw.lookup m.param).getD d) := by
  induction ms generalizing ds i with
  | nil => simp at hm
  | cons x xs ih =>
    cases ds with
    | nil => simp at hl
    | cons y ys =>
      simp only [values, List.zip_cons_cons, List.map_cons, List.lookup_cons]
      simp only [List.map_cons, List.nodup_cons] at hn
      cases i with
      | zero =>
        simp at hm hd
        subst hm hd
        simp
      | succ i =>
        simp at hm hd
        have hne : (m.param == x.param) = false := by
          rw [beq_eq_false_iff_ne]
          intro h
          exact hn.1 (h ▸ List.mem_map_of_mem (List.mem_of_getElem? hm))
        rw [hne]
        exact ih ys (by simpa using hl) hn.2 i hm hd

/-- C69 fails: all instances made without a value for the member get the same object as default, whenever they are made and whatever
else they are given (except that objects in `thrift_spec` are not passed to the constructor). -/
theorem default_shared (n : Nat) (ms : List (List Struct)) (hk : Distinct ms) (w : World) (hw : importAll (n + 1) ms start = .ok w)
    (c : Nat) (s : Struct) (hs : ms.flatten[c]? = some s) (m : Member) (hm : m ∈ s.members) :
    ∃ r, r < w.heap.length ∧ Shows ms.flatten w.heap r m.lit ∧
      ∀ f h kw x h', (∀ p ∈ kw, p.1 ∈ s.members.map Member.param ∧ w.heap.length ≤ p.2) → kw.lookup m.param = none →
        init w.tbl (f + 1) c kw h = (.ok x, h') → attr h' x m.param = some r := by
  obtain ⟨_, g⟩ := good_of_import hk hw
  obtain ⟨cls, hcls, x⟩ := find_struct g hs
  have henv : (ms.flatten.map (·, true))[c]? = some (s, true) := by rw [List.getElem?_map, hs]; rfl
  have hlen : cls.dflts.length = s.members.length := by rw [x.dflts.length]; simp
  obtain ⟨i, hi, rfl⟩ := List.getElem_of_mem hm
  have hd : cls.dflts[i]? = some (cls.dflts[i]'(by omega)) := List.getElem?_eq_getElem (by omega)
  refine ⟨cls.dflts[i]'(by omega), x.bound _ (List.getElem_mem _), ?_, ?_⟩
  · exact x.dflts.get hd (by rw [List.getElem?_map, List.getElem?_eq_getElem hi]; rfl)
  · intro f h kw y h' hkw hnone hin
    obtain ⟨h1, h2⟩ := init_call g f hcls henv kw (fun p hp => (hkw p hp).1) h (fun p hp => (hkw p hp).2)
    have hcon : Constructible s true := by
      refine Classical.byContradiction fun hno => ?_
      obtain ⟨e, h3, _⟩ := h2 hno
      rw [h3] at hin
      cases hin
    rw [h1 hcon] at hin
    cases hin
    unfold attr
    rw [List.getElem?_append_right (Nat.le_refl _)]
    simp only [Nat.sub_self, List.getElem?_cons_zero]
    have := lookup_zip_values kw s.members cls.dflts hlen x.params i s.members[i] _ (List.getElem?_eq_getElem hi) hd
    rw [hnone] at this
    simpa using this

/-- C69 fails, as it is seen: after the default list of one instance was changed in place, all new instances have the changed list. -/
theorem default_leaks (n : Nat) (ms : List (List Struct)) (hk : Distinct ms) (w : World) (hw : importAll (n + 1) ms start = .ok w)
    (c : Nat) (s : Struct) (hs : ms.flatten[c]? = some s) (hpos : ∀ m' ∈ s.members, 0 ≤ m'.key) (m : Member) (hm : m ∈ s.members)
    (items : List Lit) (hl : m.dflt = some (.list false items)) (f : Nat) (new : List Ref) :
    ∃ x h1 r, init w.tbl (f + 1) c [] w.heap = (.ok x, h1) ∧ attr h1 x m.param = some r ∧
      ∃ y h2, init w.tbl (f + 1) c [] (step w.tbl f (.setList r new) h1) = (.ok y, h2) ∧ y ≠ x ∧
        attr h2 y m.param = some r ∧ h2[r]? = some (.list false new) := by
  obtain ⟨r, hr, hsh, hall⟩ := default_shared n ms hk w hw c s hs m hm
  obtain ⟨_, g⟩ := good_of_import hk hw
  obtain ⟨cls, hcls, x⟩ := find_struct g hs
  have henv : (ms.flatten.map (·, true))[c]? = some (s, true) := by rw [List.getElem?_map, hs]; rfl
  have hi := fun h => (init_call g f hcls henv [] (by simp) h (by simp)).1 (fun m hm _ => ⟨rfl, hpos⟩)
  have h1 := hi w.heap
  refine ⟨_, _, r, h1, hall f _ [] _ _ (by simp) rfl h1, ?_⟩
  rw [show m.lit = .list false items by simp [Member.lit, hl]] at hsh
  have hobj : ∃ rs, w.heap[r]? = some (.list false rs) := by
    cases hsh with
    | list a _ => exact ⟨_, a⟩
  obtain ⟨rs, hobj⟩ := hobj
  generalize hh : w.heap ++ [.inst c ((s.members.map Member.param).zip (values [] s.members cls.dflts))] = h1' at *
  have hobj' : h1'[r]? = some (.list false rs) := by rw [← hh]; exact getElem?_prefix (List.prefix_append _ _) hobj
  have hst : step w.tbl f (.setList r new) h1' = h1'.set r (.list false new) := by
    simp only [step, hobj']
  have h2 := hi (step w.tbl f (.setList r new) h1')
  refine ⟨_, _, h2, ?_, hall f _ [] _ _ (by simp) rfl h2, ?_⟩
  · rw [hst, List.length_set, ← hh]
    simp
  · rw [hst]
    have hlt : r < h1'.length := (List.getElem?_eq_some_iff.mp hobj').1
    rw [List.getElem?_append_left (by simpa using hlt), List.getElem?_set_self hlt]

/-- A value given to the constructor is the attribute, unless it is the object in `thrift_spec`. -/
theorem default_given (n : Nat) (ms : List (List Struct)) (hk : Distinct ms) (w : World) (hw : importAll (n + 1) ms start = .ok w)
    (c : Nat) (s : Struct) (hs : ms.flatten[c]? = some s) (hpos : ∀ m' ∈ s.members, 0 ≤ m'.key) (kw : List (PyStr × Ref))
    (hkw : ∀ p ∈ kw, p.1 ∈ s.members.map Member.param ∧ w.heap.length ≤ p.2) (f : Nat) (h : Heap) :
    ∃ x h', init w.tbl (f + 1) c kw h = (.ok x, h') ∧ ∀ m ∈ s.members, ∀ r, kw.lookup m.param = some r → attr h' x m.param = some r := by
  obtain ⟨_, g⟩ := good_of_import hk hw
  obtain ⟨cls, hcls, x⟩ := find_struct g hs
  have henv : (ms.flatten.map (·, true))[c]? = some (s, true) := by rw [List.getElem?_map, hs]; rfl
  have hlen : cls.dflts.length = s.members.length := by rw [x.dflts.length]; simp
  have h1 := (init_call g f hcls henv kw (fun p hp => (hkw p hp).1) h (fun p hp => (hkw p hp).2)).1 (fun m hm _ => ⟨rfl, hpos⟩)
  refine ⟨_, _, h1, ?_⟩
  intro m hm r hr
  obtain ⟨i, hi, rfl⟩ := List.getElem_of_mem hm
  unfold attr
  rw [List.getElem?_append_right (Nat.le_refl _)]
  simp only [Nat.sub_self, List.getElem?_cons_zero]
  have := lookup_zip_values kw s.members cls.dflts hlen x.params i s.members[i] _ (List.getElem?_eq_getElem hi)
    (List.getElem?_eq_getElem (by omega))
  rw [hr] at this
  simpa using this

/-- No operation changes what an immutable literal shows. -/
theorem step_frozen (structs : List Struct) (tbl : List Cls) (ht : ∀ (c : Nat) cls s, tbl[c]? = some cls → structs[c]? = some s → cls.immutable = s.immutable)
    (hlen : tbl.length = structs.length) (f : Nat) (op : Op) (h : Heap) {r : Ref} {l : Lit} (x : Shows structs h r l) :
    Frozen structs l → Shows structs (step tbl f op h) r l := by
  have keep : ∀ (r : Ref) (o : Obj), h[r]? = some o →
      (match o with
        | .atom _ => True
        | .set i _ => i = true
        | .list i _ => i = true
        | .map i _ => i = true
        | .inst c _ => ∃ s, structs[c]? = some s ∧ s.immutable = true) → (step tbl f op h)[r]? = some o := by
    intro r o hr ho
    have hset : ∀ r' o', h[r']? ≠ some o → (h.set r' o')[r]? = some o := by
      intro r' o' hne
      have : r' ≠ r := fun e => hne (e ▸ hr)
      rw [List.getElem?_set_ne this]
      exact hr
    cases op with
    | new c kw => exact getElem?_prefix (init_prefix _ _ _ _ _) hr
    | read c given => exact getElem?_prefix (readNew_prefix _ _ _ _ _) hr
    | setList r' xs =>
      simp only [step]
      split
      · rename_i y hy
        exact hset _ _ (fun e => by rw [hy] at e; cases e; simp at ho)
      · exact hr
    | setSet r' xs =>
      simp only [step]
      split
      · rename_i y hy
        exact hset _ _ (fun e => by rw [hy] at e; cases e; simp at ho)
      · exact hr
    | setMap r' xs =>
      simp only [step]
      split
      · rename_i y hy
        exact hset _ _ (fun e => by rw [hy] at e; cases e; simp at ho)
      · exact hr
    | setAttr r' nm v =>
      simp only [step]
      split
      · rename_i c as hy
        split
        · rename_i cls hcls
          split
          · exact hr
          · rename_i him
            refine hset _ _ (fun e => ?_)
            rw [hy] at e
            cases e
            obtain ⟨s, h1, h2⟩ := ho
            exact him ((ht c cls s hcls h1).trans h2)
        · exact hr
      · exact hr
  exact Shows.rec (motive_1 := fun r l _ => Frozen structs l → Shows structs (step tbl f op h) r l)
    (motive_2 := fun rs ls _ => FrozenAll structs ls → ShowsAll structs (step tbl f op h) rs ls)
    (fun a _ => .atom (keep _ _ a trivial))
    (fun a hf => by cases hf; exact .set (keep _ _ a rfl))
    (fun a _ b hf => by cases hf with | list d => exact .list (keep _ _ a rfl) (b d))
    (fun a _ b hf => by cases hf with | map d => exact .map (keep _ _ a rfl) (b d))
    (fun a b _ c hf => by
      cases hf with
      | struct e g d =>
        rw [a] at e
        cases e
        exact .struct a (keep _ _ b ⟨_, a, g⟩) (c d))
    (fun _ => .nil)
    (fun _ _ a b hf => by cases hf with | cons d e => exact .cons (a d) (b e)) x

/-- C69, the part that holds: a default that is immutable at every depth (a value of a base type or enum, or containers and structs
annotated as immutable) is shown by every new instance, whatever the program did before. -/
theorem default_frozen_partial (n : Nat) (ms : List (List Struct)) (hk : Distinct ms) (w : World) (hw : importAll (n + 1) ms start = .ok w)
    (c : Nat) (s : Struct) (hs : ms.flatten[c]? = some s) (hpos : ∀ m' ∈ s.members, 0 ≤ m'.key) (m : Member) (hm : m ∈ s.members)
    (hf : Frozen ms.flatten m.lit) (ops : List Op) (f : Nat) :
    ∃ x h' r, init w.tbl (f + 1) c [] (steps w.tbl f ops w.heap) = (.ok x, h') ∧ attr h' x m.param = some r ∧
      Shows ms.flatten h' r m.lit := by
  obtain ⟨r, hr, hsh, hall⟩ := default_shared n ms hk w hw c s hs m hm
  obtain ⟨_, g⟩ := good_of_import hk hw
  obtain ⟨cls, hcls, x⟩ := find_struct g hs
  have henv : (ms.flatten.map (·, true))[c]? = some (s, true) := by rw [List.getElem?_map, hs]; rfl
  have h1 := (init_call g f hcls henv [] (by simp) (steps w.tbl f ops w.heap) (by simp)).1 (fun m hm _ => ⟨rfl, hpos⟩)
  refine ⟨_, _, r, h1, hall f _ [] _ _ (by simp) rfl h1, ?_⟩
  have hlen : w.tbl.length = ms.flatten.length := by rw [g.length, List.length_map]
  have ht : ∀ (c : Nat) cls s, w.tbl[c]? = some cls → ms.flatten[c]? = some s → cls.immutable = s.immutable := by
    intro c cls s h2 h3
    obtain ⟨cls', h4, x'⟩ := find_struct g h3
    rw [h2] at h4
    cases h4
    exact x'.immutable
  have hst : ∀ (ops : List Op) (h : Heap), Shows ms.flatten h r m.lit → Shows ms.flatten (ops.foldl (fun h op => step w.tbl f op h) h) r m.lit := by
    intro ops
    induction ops with
    | nil => exact fun h hx => hx
    | cons op ops ih => exact fun h hx => ih _ (step_frozen ms.flatten w.tbl ht hlen f op h hx hf)
  exact (hst ops w.heap hsh).mono List.prefix_rfl (List.prefix_append _ _)

/-- `read` of an immutable struct makes new default objects each time: every attribute of the result is an object that did not exist
before. (The objects in these may be shared, if they are structs with defaults of their own.) -/
theorem read_fresh (n : Nat) (ms : List (List Struct)) (hk : Distinct ms) (w : World) (hw : importAll (n + 1) ms start = .ok w)
    (c : Nat) (s : Struct) (hs : ms.flatten[c]? = some s) (hpos : ∀ m' ∈ s.members, 0 ≤ m'.key) (given : List (PyStr × Lit))
    (hg : ∀ p ∈ given, p.1 ∈ s.members.map Member.param) (h : Heap) (hh : w.heap <+: h) (f : Nat) (x : Ref) (h' : Heap)
    (hr : readNew w.tbl (f + 1) c given h = (.ok x, h')) (m : Member) (hm : m ∈ s.members) :
    ∃ r, attr h' x m.param = some r ∧ h.length ≤ r := by
  obtain ⟨_, g⟩ := good_of_import hk hw
  obtain ⟨cls, hcls, y⟩ := find_struct g hs
  have henv : (ms.flatten.map (·, true))[c]? = some (s, true) := by rw [List.getElem?_map, hs]; rfl
  have hlen : cls.dflts.length = s.members.length := by rw [y.dflts.length]; simp
  have gh := g.mono hh
  unfold readNew at hr
  rw [hcls] at hr
  simp only at hr
  rw [y.members] at hr
  have e1 := evals_good f (s.members.map Member.lit) h gh
  rcases he1 : evals (init w.tbl (f + 1)) (s.members.map Member.lit) h with ⟨r1, h1⟩
  rw [he1] at e1 hr
  cases r1 with
  | error e => cases hr
  | ok ds =>
    obtain ⟨_, p1, b1, s1⟩ := e1
    simp only at hr
    have e2 := evals_good f (given.map (·.2)) h1 (gh.mono p1)
    rcases he2 : evals (init w.tbl (f + 1)) (given.map (·.2)) h1 with ⟨r2, h2⟩
    rw [he2] at e2 hr
    cases r2 with
    | error e => cases hr
    | ok rs =>
      obtain ⟨_, p2, b2, s2⟩ := e2
      simp only at hr
      have l1 := p1.length_le
      have hkw : ∀ p ∈ (given.map (·.1)).zip rs ++ (s.members.map Member.param).zip ds,
          p.1 ∈ s.members.map Member.param ∧ h.length ≤ p.2 := by
        intro p hp
        rcases List.mem_append.mp hp with hp | hp
        · have := List.of_mem_zip hp
          refine ⟨?_, Nat.le_trans l1 (b2 p.2 this.2).1⟩
          obtain ⟨q, hq, hqe⟩ := List.mem_map.mp this.1
          rw [← hqe]
          exact hg q hq
        · have := List.of_mem_zip hp
          exact ⟨this.1, (b1 p.2 this.2).1⟩
      have h3 := (init_call gh f hcls henv _ (fun p hp => (hkw p hp).1) h2 (fun p hp => (hkw p hp).2)).1 (fun m hm _ => ⟨rfl, hpos⟩)
      rw [h3] at hr
      cases hr
      obtain ⟨i, hi, rfl⟩ := List.getElem_of_mem hm
      unfold attr
      rw [List.getElem?_append_right (Nat.le_refl _)]
      simp only [Nat.sub_self, List.getElem?_cons_zero]
      have h4 := lookup_zip_values ((given.map (·.1)).zip rs ++ (s.members.map Member.param).zip ds) s.members cls.dflts hlen y.params i
        s.members[i] _ (List.getElem?_eq_getElem hi) (List.getElem?_eq_getElem (by omega))
      refine ⟨_, h4, ?_⟩
      have h5 : ∃ v, ((given.map (·.1)).zip rs ++ (s.members.map Member.param).zip ds).lookup s.members[i].param = some v := by
        have hdl : ds.length = s.members.length := by rw [s1.length]; simp
        have : (s.members[i].param, ds[i]'(by omega)) ∈ (given.map (·.1)).zip rs ++ (s.members.map Member.param).zip ds := by
          refine List.mem_append_right _ (List.mem_of_getElem? (i := i) ?_)
          rw [List.getElem?_zip_eq_some]
          exact ⟨by rw [List.getElem?_map, List.getElem?_eq_getElem hi]; rfl, List.getElem?_eq_getElem (by omega)⟩
        rcases hl : ((given.map (·.1)).zip rs ++ (s.members.map Member.param).zip ds).lookup s.members[i].param with _ | v
        · rw [List.lookup_eq_none_iff] at hl
          have := hl _ this
          simp at this
        · exact ⟨v, rfl⟩
      obtain ⟨v, hv⟩ := h5
      rw [hv]
      exact (hkw _ (lookup_mem hv)).2

/-! ## A program that meets the hypotheses -/

/-- `struct Point { 1: i32 x = 3, 4: list<i32> tags = [1, 2], 2: string from }` -/
def point : Struct := { immutable := false, members := [
  { name := pyStr "x", key := 1, dflt := some (.atom (.val 3)), compound := false },
  { name := pyStr "tags", key := 4, dflt := some (.list false [.atom (.val 1), .atom (.val 2)]), compound := true },
  { name := pyStr "from", key := 2, dflt := none, compound := false }] }

/-- `struct Line { 1: Point start = {"x": 5}, 2: list<i32> (python.immutable = "") names = [7] } (python.immutable = "")` -/
def line : Struct := { immutable := true, members := [
  { name := pyStr "start", key := 1, dflt := some (.struct 0 [pyStr "x"] [.atom (.val 5)]), compound := true },
  { name := pyStr "names", key := 2, dflt := some (.list true [.atom (.val 7)]), compound := true }] }

/-- `struct Old { list<i32> a = [] }`, whose member gets the key -1 -/
def old : Struct := { immutable := false, members := [{ name := pyStr "a", key := -1, dflt := some (.list false []), compound := true }] }

/-- `Line` in a module that includes the one of `Point` -/
def sample : List (List Struct) := [[point], [line, old]]

theorem sample_distinct : Distinct sample := by unfold Distinct sample; decide +kernel

theorem ok_of_check {x : Except PyErr World} (h : (match x with | .ok _ => true | .error _ => false) = true) : ∃ w, x = .ok w := by
  cases x with
  | ok w => exact ⟨w, rfl⟩
  | error e => cases h

theorem sample_imports : ∃ w, importAll 1 sample start = .ok w := ok_of_check (by decide +kernel)

theorem point_keys : ∀ m ∈ point.members, 0 ≤ m.key := by decide +kernel

theorem line_keys : ∀ m ∈ line.members, 0 ≤ m.key := by decide +kernel

example : AllImportable sample := (import_iff_partial 0 sample sample_distinct).mp sample_imports

/-- Both structs in one module: it cannot be imported. -/
example : ∃ e, importAll 1 [[point, line]] start = .error e :=
  import_fails 0 [[point, line]] (by unfold Distinct; decide +kernel) [] [] [point, line] rfl 1 0 line point rfl rfl
    { name := pyStr "start", key := 1, dflt := some (.struct 0 [pyStr "x"] [.atom (.val 5)]), compound := true } (by simp [line])
    [pyStr "x"] [.atom (.val 5)] rfl
    { name := pyStr "tags", key := 4, dflt := some (.list false [.atom (.val 1), .atom (.val 2)]), compound := true } (by simp [point]) rfl rfl

example : (match importAll 1 [[point, line]] start with | .ok _ => false | .error e => e == .typeError) = true := by decide +kernel

/-- `Point().tags.append(...)`: the next `Point()` has the longer list. -/
example : ∃ w, importAll 1 sample start = .ok w ∧ ∃ x h1 r, init w.tbl 1 0 [] w.heap = (.ok x, h1) ∧ attr h1 x (pyStr "tags") = some r ∧
    ∃ y h2, init w.tbl 1 0 [] (step w.tbl 0 (.setList r [0, 0, 0]) h1) = (.ok y, h2) ∧ y ≠ x ∧ attr h2 y (pyStr "tags") = some r ∧
      h2[r]? = some (.list false [0, 0, 0]) := by
  obtain ⟨w, hw⟩ := sample_imports
  exact ⟨w, hw, default_leaks 0 sample sample_distinct w hw 0 point rfl point_keys
    { name := pyStr "tags", key := 4, dflt := some (.list false [.atom (.val 1), .atom (.val 2)]), compound := true } (by simp [point])
    _ rfl 0 [0, 0, 0]⟩

example : ∃ w, importAll 1 sample start = .ok w ∧
    ∃ x h', init w.tbl 1 1 [] (steps w.tbl 0 [.new 0 []] w.heap) = (.ok x, h') ∧ Shows sample.flatten h' x (.struct 1 [] []) := by
  obtain ⟨w, hw⟩ := sample_imports
  exact ⟨w, hw, (default_value_partial 0 sample sample_distinct w hw [.new 0 []] (by simp [Spares]) 1 line rfl line_keys 0).2⟩

/-- The tuple in `Line` stays as it is, whatever happens. -/
example (ops : List Op) : ∃ w, importAll 1 sample start = .ok w ∧
    ∃ x h' r, init w.tbl 6 1 [] (steps w.tbl 5 ops w.heap) = (.ok x, h') ∧ attr h' x (pyStr "names") = some r ∧
      Shows sample.flatten h' r (.list true [.atom (.val 7)]) := by
  obtain ⟨w, hw⟩ := sample_imports
  exact ⟨w, hw, default_frozen_partial 0 sample sample_distinct w hw 1 line rfl line_keys
    { name := pyStr "names", key := 2, dflt := some (.list true [.atom (.val 7)]), compound := true } (by simp [line])
    (.list (.cons (.atom _) .nil)) ops 5⟩

example : ∃ w, importAll 1 sample start = .ok w ∧ init w.tbl 1 2 [] w.heap = (.error .indexError, w.heap) := by
  obtain ⟨w, hw⟩ := sample_imports
  exact ⟨w, hw, default_negative 0 sample sample_distinct w hw 2 old rfl
    ⟨{ name := pyStr "a", key := -1, dflt := some (.list false []), compound := true }, by simp [old], by decide⟩
    { name := pyStr "a", key := -1, dflt := some (.list false []), compound := true } (by simp [old]) rfl rfl 0 [] (by simp) w.heap⟩

/-- Two `Line`s that were read: their lists of names are different objects, and the second was given a value. -/
example : (match importAll 1 sample start with
    | .ok w =>
      match readNew w.tbl 1 1 [] w.heap with
      | (.ok x, h) =>
        match readNew w.tbl 1 1 [(pyStr "names", .list true [.atom (.val 8)])] h with
        | (.ok y, h') => attr h' x (pyStr "names") != attr h' y (pyStr "names") && attr h' x (pyStr "start") != attr h' y (pyStr "start")
        | _ => false
      | _ => false
    | .error _ => false) = true := by decide +kernel

end Thrift.Defaults
