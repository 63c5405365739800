import Verif.Spec.Defaults
/-
Lemmas about `Verif.Model.Defaults`.
-/

namespace Thrift.Defaults
open Spec.Defaults

/-! ## The heap only grows -/

section
variable (call : Nat → List (PyStr × Ref) → Heap → Except PyErr Ref × Heap) (hc : ∀ c kw h, h <+: (call c kw h).2)
include hc

mutual
theorem eval_prefix (l : Lit) (h : Heap) : h <+: (eval call l h).2 := by
  cases l with
  | atom a => exact List.prefix_append _ _
  | set i as => exact List.prefix_append _ _
  | list i ls =>
    have := evals_prefix ls h
    unfold eval
    rcases he : evals call ls h with ⟨r, h'⟩
    rw [he] at this
    cases r with
    | error e => exact this
    | ok rs => exact this.trans (List.prefix_append _ _)
  | map i ks ls =>
    have := evals_prefix ls h
    unfold eval
    rcases he : evals call ls h with ⟨r, h'⟩
    rw [he] at this
    cases r with
    | error e => exact this
    | ok rs => exact this.trans (List.prefix_append _ _)
  | struct c ns ls =>
    have := evals_prefix ls h
    unfold eval
    rcases he : evals call ls h with ⟨r, h'⟩
    rw [he] at this
    cases r with
    | error e => exact this
    | ok rs => exact this.trans (hc _ _ _)
termination_by sizeOf l

theorem evals_prefix (ls : List Lit) (h : Heap) : h <+: (evals call ls h).2 := by
  cases ls with
  | nil => exact List.prefix_rfl
  | cons l ls =>
    have h1 := eval_prefix l h
    unfold evals
    rcases he : eval call l h with ⟨r, h'⟩
    rw [he] at h1
    cases r with
    | error e => exact h1
    | ok r =>
      have h2 := evals_prefix ls h'
      simp only
      rcases he2 : evals call ls h' with ⟨r2, h2'⟩
      rw [he2] at h2
      cases r2 <;> exact h1.trans h2
termination_by sizeOf ls
end
end

theorem initMembers_prefix (ev : Lit → Heap → Except PyErr Ref × Heap) (hev : ∀ l h, h <+: (ev l h).2)
    (spec : Option (List (Option Ref))) (kw : List (PyStr × Ref)) (ms : List (Member × Ref)) (h : Heap) :
    h <+: (initMembers ev spec kw ms h).2 := by
  induction ms generalizing h with
  | nil => exact List.prefix_rfl
  | cons p ms ih =>
    obtain ⟨m, d⟩ := p
    unfold initMembers
    simp only
    have h1 : h <+: (if m.compares then
        match specItem spec m.key with
        | .error e => (.error e, h)
        | .ok r => if (kw.lookup m.param).getD d = r then ev m.lit h else (.ok ((kw.lookup m.param).getD d), h)
      else (.ok ((kw.lookup m.param).getD d), h) : Except PyErr Ref × Heap).2 := by
      split
      · split
        · exact List.prefix_rfl
        · split
          · exact hev _ _
          · exact List.prefix_rfl
      · exact List.prefix_rfl
    generalize (if m.compares then
        match specItem spec m.key with
        | .error e => (.error e, h)
        | .ok r => if (kw.lookup m.param).getD d = r then ev m.lit h else (.ok ((kw.lookup m.param).getD d), h)
      else (.ok ((kw.lookup m.param).getD d), h) : Except PyErr Ref × Heap) = x at h1
    obtain ⟨r, h'⟩ := x
    cases r with
    | error e => exact h1
    | ok y =>
      have h2 := ih h'
      simp only
      rcases he2 : initMembers ev spec kw ms h' with ⟨r2, h2'⟩
      rw [he2] at h2
      cases r2 <;> exact h1.trans h2

theorem init_prefix (tbl : List Cls) (n c : Nat) (kw : List (PyStr × Ref)) (h : Heap) : h <+: (init tbl n c kw h).2 := by
  induction n generalizing c kw h with
  | zero => exact List.prefix_rfl
  | succ n ih =>
    unfold init
    split
    · exact List.prefix_rfl
    · rename_i cls _
      split
      · exact List.prefix_rfl
      · have h1 := initMembers_prefix (eval (init tbl n)) (fun l h => eval_prefix _ ih l h) cls.spec kw (cls.members.zip cls.dflts) h
        rcases he : initMembers (eval (init tbl n)) cls.spec kw (cls.members.zip cls.dflts) h with ⟨r, h'⟩
        rw [he] at h1
        cases r with
        | error e => exact h1
        | ok as => exact h1.trans (List.prefix_append _ _)

theorem readNew_prefix (tbl : List Cls) (n c : Nat) (given : List (PyStr × Lit)) (h : Heap) :
    h <+: (readNew tbl n c given h).2 := by
  unfold readNew
  split
  · exact List.prefix_rfl
  · rename_i cls _
    have h1 := evals_prefix (init tbl n) (init_prefix tbl n) (cls.members.map Member.lit) h
    rcases he : evals (init tbl n) (cls.members.map Member.lit) h with ⟨r, h'⟩
    rw [he] at h1
    cases r with
    | error e => exact h1
    | ok ds =>
      simp only
      have h2 := evals_prefix (init tbl n) (init_prefix tbl n) (given.map (·.2)) h'
      rcases he2 : evals (init tbl n) (given.map (·.2)) h' with ⟨r2, h2'⟩
      rw [he2] at h2
      cases r2 with
      | error e => rw [he2]; exact h1.trans h2
      | ok rs => rw [he2]; exact (h1.trans h2).trans (init_prefix _ _ _ _ _)

/-! ## Literals and what they show -/

theorem getElem?_prefix {α : Type} {l l' : List α} (hp : l <+: l') {i : Nat} {x : α} (h : l[i]? = some x) : l'[i]? = some x := by
  obtain ⟨t, rfl⟩ := hp
  have := (List.getElem?_eq_some_iff.mp h).1
  rw [List.getElem?_append_left this]
  exact h

theorem _root_.Thrift.Spec.Defaults.Shows.mono {structs structs' : List Struct} {h h' : Heap} (hs : structs <+: structs') (hh : h <+: h') {r : Ref} {l : Lit}
    (x : Shows structs h r l) : Shows structs' h' r l :=
  Shows.rec (motive_1 := fun r l _ => Shows structs' h' r l) (motive_2 := fun rs ls _ => ShowsAll structs' h' rs ls)
    (fun a => .atom (getElem?_prefix hh a)) (fun a => .set (getElem?_prefix hh a)) (fun a _ b => .list (getElem?_prefix hh a) b)
    (fun a _ b => .map (getElem?_prefix hh a) b) (fun a b _ c => .struct (getElem?_prefix hs a) (getElem?_prefix hh b) c)
    .nil (fun _ _ a b => .cons a b) x

theorem _root_.Thrift.Spec.Defaults.ShowsAll.mono {structs structs' : List Struct} {h h' : Heap} (hs : structs <+: structs') (hh : h <+: h') {rs : List Ref}
    {ls : List Lit} (x : ShowsAll structs h rs ls) : ShowsAll structs' h' rs ls := by
  induction ls generalizing rs with
  | nil => cases x; exact .nil
  | cons l ls ih => cases x with | cons a b => exact .cons (a.mono hs hh) (ih b)

theorem _root_.Thrift.Spec.Defaults.ShowsAll.length {structs : List Struct} {h : Heap} {rs : List Ref} {ls : List Lit} (x : ShowsAll structs h rs ls) :
    rs.length = ls.length := by
  induction ls generalizing rs with
  | nil => cases x; rfl
  | cons l ls ih => cases x with | cons a b => simp [ih b]

theorem _root_.Thrift.Spec.Defaults.ShowsAll.get {structs : List Struct} {h : Heap} {rs : List Ref} {ls : List Lit} (x : ShowsAll structs h rs ls)
    {i : Nat} {r : Ref} {l : Lit} (hr : rs[i]? = some r) (hl : ls[i]? = some l) : Shows structs h r l := by
  induction ls generalizing rs i with
  | nil => simp at hl
  | cons l' ls ih =>
    cases x with
    | cons a b =>
      cases i with
      | zero => simp at hr hl; subst hr hl; exact a
      | succ i => exact ih b (by simpa using hr) (by simpa using hl)

theorem usableAll_iff {env : List (Struct × Bool)} {ls : List Lit} : UsableAll env ls ↔ ∀ l ∈ ls, Usable env l := by
  induction ls with
  | nil => exact ⟨fun _ l h => by simp at h, fun _ => .nil⟩
  | cons l ls ih =>
    constructor
    · intro h
      cases h with
      | cons a b =>
        intro x hx
        rcases List.mem_cons.mp hx with rfl | hx
        · exact a
        · exact ih.mp b x hx
    · intro h
      exact .cons (h l (by simp)) (ih.mpr fun x hx => h x (by simp [hx]))

/-- Later there are more classes, and more of them have their `thrift_spec`. -/
def EnvLe (env env' : List (Struct × Bool)) : Prop :=
  ∀ (c : Nat) s d, env[c]? = some (s, d) → ∃ d', env'[c]? = some (s, d') ∧ (d = true → d' = true)

theorem _root_.Thrift.Spec.Defaults.Constructible.mono {s : Struct} {d d' : Bool} (h : d = true → d' = true) (x : Constructible s d) : Constructible s d' :=
  fun m hm hc => ⟨h (x m hm hc).1, (x m hm hc).2⟩

mutual
theorem _root_.Thrift.Spec.Defaults.Usable.mono {env env' : List (Struct × Bool)} (hl : EnvLe env env') {l : Lit} (x : Usable env l) : Usable env' l := by
  cases x with
  | atom a => exact .atom a
  | set i as => exact .set i as
  | list a => exact .list (a.mono hl)
  | map a => exact .map (a.mono hl)
  | struct a b c d =>
    obtain ⟨d', h1, h2⟩ := hl _ _ _ a
    exact .struct h1 (b.mono h2) c (d.mono hl)

theorem _root_.Thrift.Spec.Defaults.UsableAll.mono {env env' : List (Struct × Bool)} (hl : EnvLe env env') {ls : List Lit} (x : UsableAll env ls) : UsableAll env' ls := by
  cases x with
  | nil => exact .nil
  | cons a b => exact .cons (a.mono hl) (b.mono hl)
end

theorem zip_fst_eq {α β γ : Type} {ns : List α} {rs : List β} {ls : List γ} (h : rs.length = ls.length) :
    (ns.zip rs).map (·.1) = (ns.zip ls).map (·.1) := by
  induction ns generalizing rs ls with
  | nil => simp
  | cons n ns ih =>
    cases rs with
    | nil => cases ls with
      | nil => rfl
      | cons l ls => simp at h
    | cons r rs => cases ls with
      | nil => simp at h
      | cons l ls => simp only [List.zip_cons_cons, List.map_cons]; rw [ih (by simpa using h)]

theorem _root_.Thrift.Spec.Defaults.ShowsAll.lookup {structs : List Struct} {h : Heap} {ns : List PyStr} {rs : List Ref} {ls : List Lit}
    (x : ShowsAll structs h rs ls) (k : PyStr) :
    ((ns.zip rs).lookup k = none ∧ (ns.zip ls).lookup k = none) ∨
    ∃ r l, (ns.zip rs).lookup k = some r ∧ (ns.zip ls).lookup k = some l ∧ Shows structs h r l ∧ r ∈ rs := by
  induction ns generalizing rs ls with
  | nil => exact .inl ⟨rfl, rfl⟩
  | cons n ns ih =>
    cases x with
    | nil => exact .inl ⟨rfl, rfl⟩
    | @cons r l rs ls a b =>
      simp only [List.zip_cons_cons, List.lookup_cons]
      cases hk : k == n with
      | true => exact .inr ⟨r, l, rfl, rfl, a, by simp⟩
      | false =>
        rcases ih b with h | ⟨r', l', h1, h2, h3, h4⟩
        · exact .inl h
        · exact .inr ⟨r', l', h1, h2, h3, by simp [h4]⟩

/-! ## Classes -/

/-- What is known of a class: the default arguments show the defaults, and the objects in `thrift_spec` are others. -/
structure ClsOK (structs : List Struct) (h : Heap) (s : Struct) (done : Bool) (cls : Cls) : Prop where
  members : cls.members = s.members
  immutable : cls.immutable = s.immutable
  params : (s.members.map Member.param).Nodup
  keys : (s.members.map Member.key).Nodup
  dflts : ShowsAll structs h cls.dflts (s.members.map Member.lit)
  bound : ∀ d ∈ cls.dflts, d < h.length
  undone : done = false → cls.spec = none
  spec : done = true → ∃ l, cls.spec = some l ∧ (∀ r, some r ∈ l → r < h.length ∧ ∀ d ∈ cls.dflts, d < r) ∧
    ((∀ m ∈ s.members, 0 ≤ m.key) → ∀ m ∈ s.members, ∃ r, l[m.key.toNat]? = some (some r)) ∧
    ((∃ m ∈ s.members, m.key < 0) → l = [])

theorem prefix_length {α : Type} {l l' : List α} (h : l <+: l') : l.length ≤ l'.length := h.length_le

theorem ClsOK.mono {structs structs' : List Struct} {h h' : Heap} (hs : structs <+: structs') (hh : h <+: h') {s : Struct} {done : Bool} {cls : Cls}
    (x : ClsOK structs h s done cls) : ClsOK structs' h' s done cls where
  members := x.members
  immutable := x.immutable
  params := x.params
  keys := x.keys
  dflts := x.dflts.mono hs hh
  bound := fun d hd => Nat.lt_of_lt_of_le (x.bound d hd) hh.length_le
  undone := x.undone
  spec := fun hd => by
    obtain ⟨l, h1, h2, h3, h4⟩ := x.spec hd
    exact ⟨l, h1, fun r hr => ⟨Nat.lt_of_lt_of_le (h2 r hr).1 hh.length_le, (h2 r hr).2⟩, h3, h4⟩

theorem ClsOK.specItem_bound {structs : List Struct} {h : Heap} {s : Struct} {done : Bool} {cls : Cls} (x : ClsOK structs h s done cls)
    {k : Int} {r : Ref} (hr : specItem cls.spec k = .ok r) : r < h.length ∧ ∀ d ∈ cls.dflts, d < r := by
  cases done with
  | false => rw [x.undone rfl] at hr; cases hr
  | true =>
    obtain ⟨l, h1, h2, _, _⟩ := x.spec rfl
    rw [h1] at hr
    unfold specItem at hr
    simp only at hr
    generalize (if k < 0 then k + (l.length : Int) else k) = i at hr
    split at hr
    · cases hr
    · rcases he : l[i.toNat]? with _ | _ | r'
      · rw [he] at hr; cases hr
      · rw [he] at hr; cases hr
      · rw [he] at hr
        cases hr
        exact h2 _ (List.mem_of_getElem? he)

theorem ClsOK.specItem_ok {structs : List Struct} {h : Heap} {s : Struct} {done : Bool} {cls : Cls} (x : ClsOK structs h s done cls)
    {m : Member} (hm : m ∈ s.members) :
    (∃ r, specItem cls.spec m.key = .ok r) ↔ done = true ∧ ∀ m' ∈ s.members, 0 ≤ m'.key := by
  cases done with
  | false => rw [x.undone rfl]; simp [specItem]
  | true =>
    obtain ⟨l, h1, h2, h3, h4⟩ := x.spec rfl
    rw [h1]
    simp only [true_and]
    constructor
    · rintro ⟨r, hr⟩ m' hm'
      by_cases hn : 0 ≤ m'.key
      · exact hn
      · rw [h4 ⟨m', hm', by omega⟩] at hr
        exfalso
        unfold specItem at hr
        simp only [List.getElem?_nil] at hr
        generalize (if m.key < 0 then m.key + (([] : List (Option Ref)).length : Int) else m.key) = i at hr
        by_cases hi : i < 0
        · rw [if_pos hi] at hr; cases hr
        · rw [if_neg hi] at hr; cases hr
    · intro hk
      obtain ⟨r, hr⟩ := h3 hk m hm
      refine ⟨r, ?_⟩
      unfold specItem
      have := hk m hm
      simp only
      rw [if_neg (show ¬ m.key < 0 by omega), if_neg (show ¬ m.key < 0 by omega), hr]

/-! ## `__init__` -/

theorem initMembers_ok (ev : Lit → Heap → Except PyErr Ref × Heap) (spec : Option (List (Option Ref))) (kw : List (PyStr × Ref))
    (ms : List (Member × Ref)) (h : Heap)
    (hx : ∀ p ∈ ms, p.1.compares = true → ∃ r, specItem spec p.1.key = .ok r ∧ (kw.lookup p.1.param).getD p.2 ≠ r) :
    initMembers ev spec kw ms h = (.ok (ms.map fun p => (p.1.param, (kw.lookup p.1.param).getD p.2)), h) := by
  induction ms with
  | nil => rfl
  | cons p ms ih =>
    obtain ⟨m, d⟩ := p
    unfold initMembers
    simp only
    have := ih (fun p hp => hx p (by simp [hp]))
    by_cases hc : m.compares = true
    · obtain ⟨r, h1, h2⟩ := hx (m, d) (by simp) hc
      simp only [hc, if_true, h1]
      simp only [if_neg h2, this]
      rfl
    · simp only [if_neg hc, this]
      rfl

theorem initMembers_error (ev : Lit → Heap → Except PyErr Ref × Heap) (spec : Option (List (Option Ref))) (kw : List (PyStr × Ref))
    (ms : List (Member × Ref)) (h : Heap)
    (hx : ∀ p ∈ ms, p.1.compares = true → ∀ r, specItem spec p.1.key = .ok r → (kw.lookup p.1.param).getD p.2 ≠ r)
    (he : ∃ p ∈ ms, p.1.compares = true ∧ ¬ ∃ r, specItem spec p.1.key = .ok r) :
    ∃ e, initMembers ev spec kw ms h = (.error e, h) ∧ ∃ p ∈ ms, p.1.compares = true ∧ specItem spec p.1.key = .error e := by
  induction ms with
  | nil => obtain ⟨p, hp, _⟩ := he; simp at hp
  | cons p ms ih =>
    obtain ⟨m, d⟩ := p
    unfold initMembers
    simp only
    by_cases hc : m.compares = true
    · rcases hs : specItem spec m.key with e | r
      · exact ⟨e, by simp [hc], (m, d), by simp, hc, hs⟩
      · have h2 := hx (m, d) (by simp) hc r hs
        have h3 : ∃ p ∈ ms, p.1.compares = true ∧ ¬ ∃ r, specItem spec p.1.key = .ok r := by
          obtain ⟨p, hp, h4, h5⟩ := he
          rcases List.mem_cons.mp hp with rfl | hp
          · exact absurd ⟨r, hs⟩ h5
          · exact ⟨p, hp, h4, h5⟩
        obtain ⟨e, h4, p, hp, h5⟩ := ih (fun p hp => hx p (by simp [hp])) h3
        refine ⟨e, ?_, p, by simp [hp], h5⟩
        simp only [hc, if_true, if_neg h2, h4]
    · have h3 : ∃ p ∈ ms, p.1.compares = true ∧ ¬ ∃ r, specItem spec p.1.key = .ok r := by
        obtain ⟨p, hp, h4, h5⟩ := he
        rcases List.mem_cons.mp hp with rfl | hp
        · exact absurd h4 hc
        · exact ⟨p, hp, h4, h5⟩
      obtain ⟨e, h4, p, hp, h5⟩ := ih (fun p hp => hx p (by simp [hp])) h3
      refine ⟨e, ?_, p, by simp [hp], h5⟩
      simp only [if_neg hc, h4]

/-- The classes of the table are those of `env`. -/
structure Good (env : List (Struct × Bool)) (tbl : List Cls) (h : Heap) : Prop where
  length : tbl.length = env.length
  cls : ∀ (c : Nat) cls s done, tbl[c]? = some cls → env[c]? = some (s, done) → ClsOK (env.map (·.1)) h s done cls

theorem Good.mono {env : List (Struct × Bool)} {tbl : List Cls} {h h' : Heap} (x : Good env tbl h) (hh : h <+: h') : Good env tbl h' :=
  ⟨x.length, fun c cls s done h1 h2 => (x.cls c cls s done h1 h2).mono List.prefix_rfl hh⟩

theorem Good.find {env : List (Struct × Bool)} {tbl : List Cls} {h : Heap} (x : Good env tbl h) {c : Nat} {cls : Cls} (hc : tbl[c]? = some cls) :
    ∃ s done, env[c]? = some (s, done) ∧ ClsOK (env.map (·.1)) h s done cls := by
  have h1 := (List.getElem?_eq_some_iff.mp hc).1
  rw [x.length] at h1
  exact ⟨env[c].1, env[c].2, List.getElem?_eq_getElem h1, x.cls c cls _ _ hc (List.getElem?_eq_getElem h1)⟩

theorem Good.none {env : List (Struct × Bool)} {tbl : List Cls} {h : Heap} (x : Good env tbl h) {c : Nat} (hc : tbl[c]? = .none) : env[c]? = .none := by
  rw [List.getElem?_eq_none_iff] at hc ⊢
  rw [← x.length]
  exact hc

/-- The attribute values that `__init__` sets if no argument is the object in `thrift_spec` -/
def values (kw : List (PyStr × Ref)) (members : List Member) (dflts : List Ref) : List Ref :=
  (members.zip dflts).map fun p => (kw.lookup p.1.param).getD p.2

theorem attrs_eq (kw : List (PyStr × Ref)) (members : List Member) (dflts : List Ref) (hl : dflts.length = members.length) :
    ((members.zip dflts).map fun p => (p.1.param, (kw.lookup p.1.param).getD p.2)) =
      (members.map Member.param).zip (values kw members dflts) := by
  unfold values
  induction members generalizing dflts with
  | nil => rfl
  | cons m ms ih =>
    cases dflts with
    | nil => simp at hl
    | cons d ds =>
      simp only [List.zip_cons_cons, List.map_cons]
      rw [ih ds (by simpa using hl)]

theorem values_shows {structs : List Struct} {h : Heap} {ns : List PyStr} {rs : List Ref} {ls : List Lit} (x : ShowsAll structs h rs ls)
    (members : List Member) (dflts : List Ref) (hd : ShowsAll structs h dflts (members.map Member.lit)) :
    ShowsAll structs h (values (ns.zip rs) members dflts) (members.map fun m => ((ns.zip ls).lookup m.param).getD m.lit) := by
  unfold values
  induction members generalizing dflts with
  | nil => exact .nil
  | cons m ms ih =>
    cases hd with
    | @cons d _ ds _ a b =>
      simp only [List.zip_cons_cons, List.map_cons]
      refine .cons ?_ (ih ds b)
      rcases x.lookup (ns := ns) m.param with ⟨h1, h2⟩ | ⟨r, l, h1, h2, h3, _⟩
      · rw [h1, h2]; exact a
      · rw [h1, h2]; exact h3

theorem lookup_mem {kw : List (PyStr × Ref)} {k : PyStr} {r : Ref} (h : kw.lookup k = some r) : (k, r) ∈ kw := by
  induction kw with
  | nil => simp at h
  | cons p kw ih =>
    obtain ⟨k', r'⟩ := p
    rw [List.lookup_cons] at h
    split at h
    · rename_i he
      simp at h he
      subst h he
      simp
    · exact List.mem_cons_of_mem _ (ih h)

/-- Calling a class with arguments none of which is the object in `thrift_spec`. -/
theorem init_call {env : List (Struct × Bool)} {tbl : List Cls} {h : Heap} (g : Good env tbl h) (n : Nat) {c : Nat} {cls : Cls} {s : Struct} {done : Bool}
    (hc : tbl[c]? = some cls) (he : env[c]? = some (s, done)) (kw : List (PyStr × Ref)) (hp : ∀ p ∈ kw, p.1 ∈ s.members.map Member.param)
    (h' : Heap) (hkw : ∀ p ∈ kw, h.length ≤ p.2) :
    (Constructible s done → init tbl (n + 1) c kw h' =
      (.ok h'.length, h' ++ [.inst c ((s.members.map Member.param).zip (values kw s.members cls.dflts))])) ∧
    (¬ Constructible s done → ∃ e, init tbl (n + 1) c kw h' = (.error e, h') ∧ (e = .typeError ∨ e = .indexError)) := by
  have x := g.cls c cls s done hc he
  have hlen : cls.dflts.length = s.members.length := by rw [x.dflts.length]; simp
  have hne : ∀ p ∈ s.members.zip cls.dflts, p.1.compares = true → ∀ r, specItem cls.spec p.1.key = .ok r →
      (kw.lookup p.1.param).getD p.2 ≠ r := by
    intro p hp _ r hr
    obtain ⟨hb, hd⟩ := x.specItem_bound hr
    rcases hk : kw.lookup p.1.param with _ | v
    · have := hd p.2 (List.of_mem_zip hp).2
      simp only [Option.getD_none]
      exact Nat.ne_of_lt this
    · have := hkw _ (lookup_mem hk)
      simp only [Option.getD_some]
      exact (Nat.ne_of_lt (Nat.lt_of_lt_of_le hb this)).symm
  have hany : ¬ kw.any (fun a => !(cls.members.map Member.param).contains a.1) = true := by
    simp only [List.any_eq_true, not_exists, not_and, x.members]
    intro a ha
    simpa using hp a ha
  unfold init
  rw [hc]
  simp only
  rw [if_neg hany, x.members]
  constructor
  · intro hcon
    rw [initMembers_ok]
    · simp only
      rw [attrs_eq _ _ _ hlen]
    · intro p hp hcmp
      obtain ⟨r, hr⟩ := (x.specItem_ok (List.of_mem_zip hp).1).mpr (hcon _ (List.of_mem_zip hp).1 hcmp)
      exact ⟨r, hr, hne p hp hcmp r hr⟩
  · intro hcon
    have hex : ∃ p ∈ s.members.zip cls.dflts, p.1.compares = true ∧ ¬ ∃ r, specItem cls.spec p.1.key = .ok r := by
      unfold Constructible at hcon
      simp only [Classical.not_forall] at hcon
      obtain ⟨m, hm, hcmp, hno⟩ := hcon
      obtain ⟨i, hi, rfl⟩ := List.getElem_of_mem hm
      refine ⟨(s.members[i], cls.dflts[i]'(by omega)), ?_, hcmp, fun hr => hno ((x.specItem_ok hm).mp hr)⟩
      exact List.mem_of_getElem? (i := i) (by rw [List.getElem?_zip_eq_some]; exact ⟨List.getElem?_eq_getElem hi, List.getElem?_eq_getElem (by omega)⟩)
    obtain ⟨e, h1, p, hp, _, h2⟩ := initMembers_error (eval (init tbl n)) cls.spec kw (s.members.zip cls.dflts) h' hne hex
    rw [h1]
    refine ⟨e, rfl, ?_⟩
    unfold specItem at h2
    split at h2
    · cases h2; simp
    · rename_i l _
      simp only at h2
      generalize (if p.1.key < 0 then p.1.key + (l.length : Int) else p.1.key) = i at h2
      by_cases hi : i < 0
      · rw [if_pos hi] at h2; cases h2; simp
      · rw [if_neg hi] at h2
        split at h2 <;> cases h2 <;> simp

/-! ## Literals -/

mutual
theorem eval_good {env : List (Struct × Bool)} {tbl : List Cls} (n : Nat) (l : Lit) (h : Heap) (g : Good env tbl h) :
    match eval (init tbl (n + 1)) l h with
    | (.ok r, h') => Usable env l ∧ h <+: h' ∧ h.length ≤ r ∧ r < h'.length ∧ Shows (env.map (·.1)) h' r l
    | (.error _, _) => ¬ Usable env l := by
  cases l with
  | atom a => exact ⟨.atom a, List.prefix_append _ _, Nat.le_refl _, by simp, .atom (by simp)⟩
  | set i as => exact ⟨.set i as, List.prefix_append _ _, Nat.le_refl _, by simp, .set (by simp)⟩
  | list i ls =>
    have ih := evals_good n ls h g
    unfold eval
    rcases he : evals (init tbl (n + 1)) ls h with ⟨r, h'⟩
    rw [he] at ih
    cases r with
    | error e => exact fun hu => by cases hu with | list a => exact ih a
    | ok rs =>
      obtain ⟨h1, h2, h3, h4⟩ := ih
      exact ⟨.list h1, h2.trans (List.prefix_append _ _), h2.length_le, by simp, .list (by simp) (h4.mono List.prefix_rfl (List.prefix_append _ _))⟩
  | map i ks ls =>
    have ih := evals_good n ls h g
    unfold eval
    rcases he : evals (init tbl (n + 1)) ls h with ⟨r, h'⟩
    rw [he] at ih
    cases r with
    | error e => exact fun hu => by cases hu with | map a => exact ih a
    | ok rs =>
      obtain ⟨h1, h2, h3, h4⟩ := ih
      exact ⟨.map h1, h2.trans (List.prefix_append _ _), h2.length_le, by simp, .map (by simp) (h4.mono List.prefix_rfl (List.prefix_append _ _))⟩
  | struct c ns ls =>
    have ih := evals_good n ls h g
    unfold eval
    rcases he : evals (init tbl (n + 1)) ls h with ⟨r, h'⟩
    rw [he] at ih
    cases r with
    | error e => exact fun hu => by cases hu with | struct _ _ _ a => exact ih a
    | ok rs =>
      obtain ⟨h1, h2, h3, h4⟩ := ih
      simp only
      rcases hc : tbl[c]? with _ | cls
      · have : init tbl (n + 1) c (ns.zip rs) h' = (.error .nameError, h') := by unfold init; rw [hc]
        rw [this]
        intro hu
        cases hu with
        | struct a _ _ _ => rw [g.none hc] at a; cases a
      · obtain ⟨s, done, hs, x⟩ := g.find hc
        have hfst : (ns.zip rs).map (·.1) = (ns.zip ls).map (·.1) := zip_fst_eq h4.length
        by_cases hp : ∀ p ∈ ns.zip ls, p.1 ∈ s.members.map Member.param
        · have hp' : ∀ p ∈ ns.zip rs, p.1 ∈ s.members.map Member.param := by
            intro p hpm
            have : p.1 ∈ (ns.zip ls).map (·.1) := hfst ▸ List.mem_map_of_mem hpm
            obtain ⟨q, hq, hqe⟩ := List.mem_map.mp this
            rw [← hqe]
            exact hp q hq
          obtain ⟨c1, c2⟩ := init_call g n hc hs (ns.zip rs) hp' h' (fun p hpm => (h3 p.2 (List.of_mem_zip hpm).2).1)
          by_cases hcon : Constructible s done
          · rw [c1 hcon]
            refine ⟨.struct hs hcon hp h1, h2.trans (List.prefix_append _ _), h2.length_le, by simp, ?_⟩
            refine .struct (s := s) (rs := values (ns.zip rs) s.members cls.dflts) ?_ (by simp) ?_
            · rw [List.getElem?_map, hs]; rfl
            · exact values_shows (h4.mono List.prefix_rfl (List.prefix_append _ _)) _ _
                (x.dflts.mono List.prefix_rfl (h2.trans (List.prefix_append _ _)))
          · obtain ⟨e, h5, _⟩ := c2 hcon
            rw [h5]
            intro hu
            cases hu with
            | struct a b _ _ =>
              rw [hs] at a
              cases a
              exact hcon b
        · have : init tbl (n + 1) c (ns.zip rs) h' = (.error .typeError, h') := by
            unfold init
            rw [hc]
            simp only
            rw [if_pos]
            simp only [Classical.not_forall] at hp
            obtain ⟨p, hpm, hno⟩ := hp
            have : p.1 ∈ (ns.zip rs).map (·.1) := hfst ▸ List.mem_map_of_mem hpm
            obtain ⟨q, hq, hqe⟩ := List.mem_map.mp this
            rw [List.any_eq_true]
            refine ⟨q, hq, ?_⟩
            rw [x.members, hqe]
            simpa using hno
          rw [this]
          intro hu
          cases hu with
          | struct a _ b _ =>
            rw [hs] at a
            cases a
            exact hp b
termination_by sizeOf l

theorem evals_good {env : List (Struct × Bool)} {tbl : List Cls} (n : Nat) (ls : List Lit) (h : Heap) (g : Good env tbl h) :
    match evals (init tbl (n + 1)) ls h with
    | (.ok rs, h') => UsableAll env ls ∧ h <+: h' ∧ (∀ r ∈ rs, h.length ≤ r ∧ r < h'.length) ∧ ShowsAll (env.map (·.1)) h' rs ls
    | (.error _, _) => ¬ UsableAll env ls := by
  cases ls with
  | nil => exact ⟨.nil, List.prefix_rfl, by simp, .nil⟩
  | cons l ls =>
    have h1 := eval_good n l h g
    unfold evals
    rcases he : eval (init tbl (n + 1)) l h with ⟨r, h'⟩
    rw [he] at h1
    cases r with
    | error e => exact fun hu => by cases hu with | cons a b => exact h1 a
    | ok r =>
      obtain ⟨u1, p1, b1, b2, s1⟩ := h1
      have h2 := evals_good n ls h' (g.mono p1)
      simp only
      rcases he2 : evals (init tbl (n + 1)) ls h' with ⟨r2, h2'⟩
      rw [he2] at h2
      cases r2 with
      | error e => exact fun hu => by cases hu with | cons a b => exact h2 b
      | ok rs =>
        obtain ⟨u2, p2, b3, s2⟩ := h2
        refine ⟨.cons u1 u2, p1.trans p2, ?_, .cons (s1.mono List.prefix_rfl p2) s2⟩
        intro r' hr'
        have l1 := p1.length_le
        have l2 := p2.length_le
        rcases List.mem_cons.mp hr' with rfl | hr'
        · exact ⟨b1, Nat.lt_of_lt_of_le b2 l2⟩
        · exact ⟨Nat.le_trans l1 (b3 r' hr').1, (b3 r' hr').2⟩
termination_by sizeOf ls
end

/-! ## Import -/

theorem insertMember_perm (m : Member) (ms : List Member) : (insertMember m ms).Perm (m :: ms) := by
  induction ms with
  | nil => exact .refl _
  | cons x xs ih =>
    unfold insertMember
    split
    · exact .refl _
    · exact (ih.cons x).trans (.swap m x xs)

theorem sorted_perm (ms : List Member) : (sorted ms).Perm ms := by
  induction ms with
  | nil => exact .refl _
  | cons m ms ih => exact (insertMember_perm m (sorted ms)).trans (ih.cons m)

theorem insertMember_sorted (m : Member) (ms : List Member) (h : ms.Pairwise (·.key ≤ ·.key)) :
    (insertMember m ms).Pairwise (·.key ≤ ·.key) := by
  induction ms with
  | nil => simp [insertMember]
  | cons x xs ih =>
    unfold insertMember
    rw [List.pairwise_cons] at h
    split
    · rename_i hle
      refine List.pairwise_cons.mpr ⟨?_, List.pairwise_cons.mpr h⟩
      intro y hy
      rcases List.mem_cons.mp hy with rfl | hy
      · exact hle
      · have := h.1 y hy; omega
    · rename_i hle
      refine List.pairwise_cons.mpr ⟨?_, ih h.2⟩
      intro y hy
      rcases List.mem_cons.mp ((insertMember_perm m xs).mem_iff.mp hy) with rfl | hy
      · omega
      · exact h.1 y hy

theorem sorted_sorted (ms : List Member) : (sorted ms).Pairwise (·.key ≤ ·.key) := by
  induction ms with
  | nil => exact .nil
  | cons m ms ih => exact insertMember_sorted m _ ih

theorem sorted_strict (ms : List Member) (hk : (ms.map Member.key).Nodup) : (sorted ms).Pairwise (·.key < ·.key) := by
  have h1 : ((sorted ms).map Member.key).Nodup := ((sorted_perm ms).map Member.key).nodup_iff.mpr hk
  have h2 : (sorted ms).Pairwise (fun a b => a.key ≠ b.key) := by
    have := List.pairwise_map.mp h1
    exact this
  exact (sorted_sorted ms).imp₂ (fun a b h h' => by omega) h2

theorem entries_get (pos : Nat) (ms : List Member) (rs : List Ref) (hl : rs.length = ms.length) (hs : ms.Pairwise (·.key < ·.key))
    (hp : ∀ m ∈ ms, (pos : Int) ≤ m.key) (m : Member) (hm : m ∈ ms) :
    ∃ r, (entries pos (ms.zip rs))[m.key.toNat - pos]? = some (some r) := by
  induction ms generalizing pos rs with
  | nil => simp at hm
  | cons x xs ih =>
    cases rs with
    | nil => simp at hl
    | cons r rs =>
      rw [List.pairwise_cons] at hs
      simp only [List.zip_cons_cons, entries]
      have hx := hp x (by simp)
      rcases List.mem_cons.mp hm with rfl | hm
      · refine ⟨r, ?_⟩
        rw [List.getElem?_append_right (by simp)]
        simp
      · have hlt := hs.1 m hm
        obtain ⟨r', hr'⟩ := ih (x.key.toNat + 1) rs (by simpa using hl) hs.2 (fun y hy => by have := hs.1 y hy; omega) hm
        refine ⟨r', ?_⟩
        rw [List.getElem?_append_right (by simp; omega)]
        rw [List.length_replicate, show m.key.toNat - pos - (x.key.toNat - pos) = (m.key.toNat - (x.key.toNat + 1)) + 1 by omega,
          List.getElem?_cons_succ]
        exact hr'

theorem entries_mem (pos : Nat) (ms : List Member) (rs : List Ref) (r : Ref) (h : some r ∈ entries pos (ms.zip rs)) : r ∈ rs := by
  induction ms generalizing pos rs with
  | nil => simp [entries] at h
  | cons x xs ih =>
    cases rs with
    | nil => simp [entries] at h
    | cons r' rs =>
      simp only [List.zip_cons_cons, entries, List.mem_append, List.mem_replicate, List.mem_cons] at h
      rcases h with h | h | h
      · simp at h
      · simp at h; simp [h]
      · exact List.mem_cons_of_mem _ (ih _ _ h)

theorem defineClass_good {env : List (Struct × Bool)} {w : World} (n : Nat) (s : Struct) (hk : (s.members.map Member.key).Nodup)
    (g : Good env w.tbl w.heap) :
    match defineClass (n + 1) s w with
    | .ok w' => ((s.members.map Member.param).Nodup ∧ UsableAll env (s.members.map Member.lit)) ∧
        Good (env ++ [(s, false)]) w'.tbl w'.heap
    | .error _ => ¬ ((s.members.map Member.param).Nodup ∧ UsableAll env (s.members.map Member.lit)) := by
  unfold defineClass
  by_cases hn : (s.members.map Member.param).Nodup
  · rw [if_pos hn]
    have h1 := evals_good n (s.members.map Member.lit) w.heap g
    rcases he : evals (init w.tbl (n + 1)) (s.members.map Member.lit) w.heap with ⟨r, h'⟩
    rw [he] at h1
    cases r with
    | error e => exact fun hu => h1 hu.2
    | ok rs =>
      obtain ⟨u, p, b, sh⟩ := h1
      refine ⟨⟨hn, u⟩, ?_, ?_⟩
      · simp [g.length]
      · intro c cls s' done hc henv
        simp only at hc ⊢
        rw [List.getElem?_append] at hc henv
        rw [List.map_append]
        rw [g.length] at hc
        by_cases hlt : c < env.length
        · rw [if_pos hlt] at hc henv
          exact (g.cls c cls s' done hc henv).mono (List.prefix_append _ _) p
        · rw [if_neg hlt] at hc henv
          have h0 : c - env.length = 0 := by
            rw [List.getElem?_eq_some_iff] at hc
            obtain ⟨hc, _⟩ := hc
            simp at hc
            omega
          rw [h0] at hc henv
          simp at hc henv
          obtain ⟨rfl, rfl⟩ := henv
          subst hc
          exact { members := rfl, immutable := rfl, params := hn, keys := hk, dflts := sh.mono (List.prefix_append _ _) List.prefix_rfl
                  bound := fun d hd => (b d hd).2, undone := fun _ => rfl, spec := fun h => by cases h }
  · rw [if_neg hn]
    exact fun h => hn h.1

/-- `Importable`, class by class -/
def FromHere (env : List (Struct × Bool)) : List Struct → Prop
  | [] => True
  | s :: ss => ((s.members.map Member.param).Nodup ∧ UsableAll env (s.members.map Member.lit)) ∧ FromHere (env ++ [(s, false)]) ss

theorem fromHere_iff (before a0 m : List Struct) :
    FromHere (before.map (·, true) ++ a0.map (·, false)) m ↔
      ∀ (a : List Struct) (s : Struct) (b : List Struct), m = a ++ s :: b →
        (s.members.map Member.param).Nodup ∧
        UsableAll (before.map (·, true) ++ (a0 ++ a).map (·, false)) (s.members.map Member.lit) := by
  induction m generalizing a0 with
  | nil => simp [FromHere]
  | cons s ss ih =>
    have e : before.map (fun x => (x, true)) ++ a0.map (fun x => (x, false)) ++ [(s, false)] =
        before.map (fun x => (x, true)) ++ (a0 ++ [s]).map (fun x => (x, false)) := by simp
    simp only [FromHere]
    rw [e, ih (a0 ++ [s])]
    constructor
    · rintro ⟨h1, h2⟩ a s' b hab
      cases a with
      | nil => simp at hab; obtain ⟨rfl, rfl⟩ := hab; simpa using h1
      | cons x a =>
        simp at hab
        obtain ⟨rfl, rfl⟩ := hab
        have := h2 a s' b rfl
        simpa using this
    · intro h
      refine ⟨by simpa using h [] s ss rfl, ?_⟩
      intro a s' b hab
      have := h (s :: a) s' b (by simp [hab])
      simpa using this

theorem importable_iff (before m : List Struct) : Importable before m ↔ FromHere (before.map (·, true)) m := by
  have := fromHere_iff before [] m
  simp only [List.map_nil, List.append_nil, List.nil_append] at this
  exact this.symm

theorem defineAll_good {env : List (Struct × Bool)} {w : World} (n : Nat) (ss : List Struct)
    (hk : ∀ s ∈ ss, (s.members.map Member.key).Nodup) (g : Good env w.tbl w.heap) :
    match defineAll (n + 1) ss w with
    | .ok w' => FromHere env ss ∧ Good (env ++ ss.map (·, false)) w'.tbl w'.heap
    | .error _ => ¬ FromHere env ss := by
  induction ss generalizing env w with
  | nil => simpa [defineAll, FromHere] using g
  | cons s ss ih =>
    have h1 := defineClass_good n s (hk s (by simp)) g
    unfold defineAll
    rcases he : defineClass (n + 1) s w with e | w'
    · rw [he] at h1
      exact fun h => h1 h.1
    · rw [he] at h1
      obtain ⟨u, g'⟩ := h1
      have h2 := ih (fun s hs => hk s (by simp [hs])) g'
      simp only
      rcases he2 : defineAll (n + 1) ss w' with e | w''
      · rw [he2] at h2
        exact fun h => h2 h.2
      · rw [he2] at h2
        refine ⟨⟨u, h2.1⟩, ?_⟩
        have := h2.2
        simpa using this

theorem envLe_append (env x : List (Struct × Bool)) : EnvLe env (env ++ x) := by
  intro c s d h
  exact ⟨d, getElem?_prefix (List.prefix_append _ _) h, id⟩

theorem EnvLe.trans {a b c : List (Struct × Bool)} (h : EnvLe a b) (h' : EnvLe b c) : EnvLe a c := by
  intro i s d hi
  obtain ⟨d', h1, h2⟩ := h i s d hi
  obtain ⟨d'', h3, h4⟩ := h' i s d' h1
  exact ⟨d'', h3, fun hd => h4 (h2 hd)⟩

theorem envLe_done (a : List Struct) (s : Struct) (b : List Struct) :
    EnvLe (a.map (·, true) ++ (s :: b).map (·, false)) ((a ++ [s]).map (·, true) ++ b.map (·, false)) := by
  intro c s' d h
  by_cases h1 : c < a.length
  · refine ⟨d, ?_, id⟩
    rw [List.getElem?_append_left (by simpa using h1)] at h
    rw [List.getElem?_append_left (by simp; omega), List.map_append, List.getElem?_append_left (by simpa using h1)]
    exact h
  · rw [List.getElem?_append_right (by simp; omega)] at h
    simp only [List.length_map] at h
    rcases hc : c - a.length with _ | k
    · rw [hc] at h
      simp at h
      obtain ⟨rfl, rfl⟩ := h
      refine ⟨true, ?_, fun _ => rfl⟩
      rw [List.getElem?_append_left (by simp; omega), List.map_append, List.getElem?_append_right (by simp; omega)]
      simp [hc]
    · rw [hc] at h
      refine ⟨d, ?_, id⟩
      rw [List.getElem?_append_right (by simp; omega)]
      simp only [List.length_map, List.length_append, List.length_singleton]
      rw [show c - (a.length + 1) = k by omega]
      simpa using h

theorem fromHere_usable (env : List (Struct × Bool)) (ss : List Struct) (h : FromHere env ss) :
    ∀ s ∈ ss, UsableAll (env ++ ss.map (·, false)) (s.members.map Member.lit) := by
  induction ss generalizing env with
  | nil => simp
  | cons s ss ih =>
    intro s' hs'
    rcases List.mem_cons.mp hs' with rfl | hs'
    · exact h.1.2.mono (envLe_append _ _)
    · have := ih _ h.2 s' hs'
      simpa using this

theorem specOf_good {env : List (Struct × Bool)} {tbl : List Cls} {h : Heap} (n : Nat) (g : Good env tbl h) (ms : List Member)
    (hk : (ms.map Member.key).Nodup) (hu : UsableAll env (ms.map Member.lit)) :
    ∃ l h', specOf (n + 1) tbl ms h = (.ok l, h') ∧ h <+: h' ∧ (∀ r, some r ∈ l → h.length ≤ r ∧ r < h'.length) ∧
      ((∀ m ∈ ms, 0 ≤ m.key) → ∀ m ∈ ms, ∃ r, l[m.key.toNat]? = some (some r)) ∧ ((∃ m ∈ ms, m.key < 0) → l = []) := by
  have hperm := sorted_perm ms
  unfold specOf
  by_cases ha : (sorted ms).all (fun m => 0 ≤ m.key) = true
  · rw [if_pos ha]
    have ha' : ∀ m ∈ ms, 0 ≤ m.key := by
      intro m hm
      have := List.all_eq_true.mp ha m (hperm.mem_iff.mpr hm)
      simpa using this
    have hu' : UsableAll env ((sorted ms).map Member.lit) := by
      rw [usableAll_iff] at hu ⊢
      intro l hl
      exact hu l ((hperm.map Member.lit).mem_iff.mp hl)
    have h1 := evals_good n ((sorted ms).map Member.lit) h g
    rcases he : evals (init tbl (n + 1)) ((sorted ms).map Member.lit) h with ⟨r, h'⟩
    rw [he] at h1
    cases r with
    | error e => exact absurd hu' h1
    | ok rs =>
      obtain ⟨_, p, b, sh⟩ := h1
      refine ⟨_, _, rfl, p, fun r hr => b r (entries_mem 0 _ _ r hr), fun _ m hm => ?_, fun ⟨m, hm, hlt⟩ => ?_⟩
      · have := entries_get 0 (sorted ms) rs (by rw [sh.length]; simp) (sorted_strict ms hk)
          (fun m hm => by have := ha' m (hperm.mem_iff.mp hm); simpa using this) m (hperm.mem_iff.mpr hm)
        simpa using this
      · have := ha' m hm
        omega
  · rw [if_neg ha]
    refine ⟨_, _, rfl, List.prefix_rfl, by simp, fun h0 => ?_, fun _ => rfl⟩
    exfalso
    apply ha
    rw [List.all_eq_true]
    intro m hm
    simpa using h0 m (hperm.mem_iff.mp hm)

theorem specAll_good (n : Nat) (a ss : List Struct) (w : World) (g : Good (a.map (·, true) ++ ss.map (·, false)) w.tbl w.heap)
    (hu : ∀ s ∈ ss, UsableAll (a.map (·, true) ++ ss.map (·, false)) (s.members.map Member.lit)) :
    ∃ w', specAll (n + 1) a.length ss.length w = .ok w' ∧ Good ((a ++ ss).map (·, true)) w'.tbl w'.heap := by
  induction ss generalizing a w with
  | nil => exact ⟨w, rfl, by simpa using g⟩
  | cons s ss ih =>
    have henv : (a.map (·, true) ++ (s :: ss).map (·, false))[a.length]? = some (s, false) := by
      rw [List.getElem?_append_right (by simp)]
      simp
    have hlt : a.length < w.tbl.length := by rw [g.length]; simp
    have hc : w.tbl[a.length]? = some w.tbl[a.length] := List.getElem?_eq_getElem hlt
    have x := g.cls _ _ _ _ hc henv
    generalize w.tbl[a.length] = cls at hc x
    simp only [List.length_cons]
    unfold specAll
    rw [hc]
    simp only
    obtain ⟨l, h', h1, h2, h3, h4, h5⟩ := specOf_good n g cls.members (by rw [x.members]; exact x.keys)
      (by rw [x.members]; exact hu s (by simp))
    rw [h1]
    simp only
    rw [x.members] at h4 h5
    have hfst : (a.map (fun s => (s, true)) ++ (s :: ss).map (fun s => (s, false))).map (·.1) =
        ((a ++ [s]).map (fun s => (s, true)) ++ ss.map (fun s => (s, false))).map (·.1) := by simp [Function.comp_def]
    have g' : Good ((a ++ [s]).map (·, true) ++ ss.map (·, false)) (w.tbl.set a.length { cls with spec := some l }) h' := by
      refine ⟨by rw [List.length_set, g.length]; simp, ?_⟩
      intro c cls' s' done hc' he'
      rw [← hfst]
      by_cases hca : c = a.length
      · subst hca
        rw [List.getElem?_set_self hlt] at hc'
        rw [List.getElem?_append_left (by simp), List.map_append, List.getElem?_append_right (by simp)] at he'
        simp at he' hc'
        obtain ⟨rfl, rfl⟩ := he'
        subst hc'
        have y := x.mono (structs' := (a.map (fun s => (s, true)) ++ (s :: ss).map (fun s => (s, false))).map (·.1)) List.prefix_rfl h2
        exact { members := y.members, immutable := y.immutable, params := y.params, keys := y.keys, dflts := y.dflts, bound := y.bound,
                undone := (fun h => by cases h),
                spec := fun _ => ⟨l, rfl, fun r hr => ⟨(h3 r hr).2, fun d hd => Nat.lt_of_lt_of_le (x.bound d hd) (h3 r hr).1⟩, h4, h5⟩ }
      · rw [List.getElem?_set_ne (by omega)] at hc'
        have he'' : (a.map (·, true) ++ (s :: ss).map (·, false))[c]? = some (s', done) := by
          have hcl : c < (a.map (fun s => (s, true)) ++ (s :: ss).map (fun s => (s, false))).length := by
            rw [← g.length]; exact (List.getElem?_eq_some_iff.mp hc').1
          by_cases h1 : c < a.length
          · rw [List.getElem?_append_left (by simp; omega), List.map_append, List.getElem?_append_left (by simpa using h1)] at he'
            rw [List.getElem?_append_left (by simpa using h1)]
            exact he'
          · rw [List.getElem?_append_right (by simp; omega)] at he'
            rw [List.getElem?_append_right (by simp; omega)]
            simp only [List.length_map, List.length_append, List.length_singleton] at he' ⊢
            rw [show c - a.length = (c - (a.length + 1)) + 1 by omega]
            simpa using he'
        exact (g.cls _ _ _ _ hc' he'').mono List.prefix_rfl h2
    obtain ⟨w', h6, h7⟩ := ih (a ++ [s]) { tbl := w.tbl.set a.length { cls with spec := some l }, heap := h' } g'
      (fun s' hs' => (hu s' (by simp [hs'])).mono (envLe_done a s ss))
    refine ⟨w', ?_, by simpa using h7⟩
    simpa using h6

theorem importModule_good (n : Nat) (before m : List Struct) (w : World) (hk : ∀ s ∈ m, (s.members.map Member.key).Nodup)
    (g : Good (before.map (·, true)) w.tbl w.heap) :
    match importModule (n + 1) m w with
    | .ok w' => Importable before m ∧ Good ((before ++ m).map (·, true)) w'.tbl w'.heap
    | .error _ => ¬ Importable before m := by
  have h1 := defineAll_good n m hk g
  unfold importModule
  rcases he : defineAll (n + 1) m w with e | w'
  · rw [he] at h1
    exact fun h => h1 ((importable_iff _ _).mp h)
  · rw [he] at h1
    obtain ⟨u, g'⟩ := h1
    simp only
    obtain ⟨w'', h2, h3⟩ := specAll_good n before m w' g' (fromHere_usable _ _ u)
    have hl : w.tbl.length = before.length := by rw [g.length]; simp
    rw [hl, h2]
    exact ⟨(importable_iff _ _).mpr u, h3⟩

theorem importAll_good (n : Nat) (done ms : List (List Struct)) (w : World) (hk : Distinct ms)
    (g : Good (done.flatten.map (·, true)) w.tbl w.heap) :
    match importAll (n + 1) ms w with
    | .ok w' => (∀ a m b, ms = a ++ m :: b → Importable (done ++ a).flatten m) ∧ Good ((done ++ ms).flatten.map (·, true)) w'.tbl w'.heap
    | .error _ => ¬ (∀ a m b, ms = a ++ m :: b → Importable (done ++ a).flatten m) := by
  induction ms generalizing done w with
  | nil => exact ⟨fun a m b h => by simp at h, by simpa using g⟩
  | cons m ms ih =>
    have h1 := importModule_good n done.flatten m w (hk m (by simp)) g
    unfold importAll
    rcases he : importModule (n + 1) m w with e | w'
    · rw [he] at h1
      exact fun h => h1 (by simpa using h [] m ms rfl)
    · rw [he] at h1
      obtain ⟨u, g'⟩ := h1
      have h2 := ih (done ++ [m]) w' (fun m' hm' => hk m' (by simp [hm'])) (by simpa using g')
      simp only
      rcases he2 : importAll (n + 1) ms w' with e | w''
      · rw [he2] at h2
        intro h
        apply h2
        intro a m' b hab
        have := h (m :: a) m' b (by simp [hab])
        simpa using this
      · rw [he2] at h2
        refine ⟨?_, by simpa using h2.2⟩
        intro a m' b hab
        cases a with
        | nil => simp at hab; obtain ⟨rfl, rfl⟩ := hab; simpa using u
        | cons x a =>
          simp at hab
          obtain ⟨rfl, rfl⟩ := hab
          have := h2.1 a m' b rfl
          simpa using this

theorem good_empty : Good [] [] [] := ⟨rfl, fun c cls s done h => by simp at h⟩

end Thrift.Defaults
