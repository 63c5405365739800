import Verif.Spec.Attrs
import Verif.Proofs.Locals
/-
Lemmas about the attributes of instances.
-/

namespace Thrift.Attrs
open Rpc Names Locals Spec.Attrs

variable {V : Type}

theorem mangle_plain {c n : PyStr} (h : ¬ pyStr "__" <+: n) : mangle c n = n := by
  unfold mangle
  dsimp only
  rw [if_neg fun h' => h h'.1]

theorem escape_plain {m : PyStr} (h : ¬ pyStr "__" <+: m) : ¬ pyStr "__" <+: escape m := by
  unfold escape
  by_cases hk : m ∈ keywords
  · rw [if_pos hk]
    exact (show ∀ m ∈ keywords, ¬ pyStr "__" <+: m ++ pyStr "_" by decide +kernel) m hk
  · rwa [if_neg hk]

theorem attr_plain {c : Cls} (hp : Plain c) {m : PyStr} (hm : m ∈ c.members) : c.attr m = escape m :=
  mangle_plain (escape_plain (hp.2 m hm))

theorem escape_noKeyword {m : PyStr} (h : m ∉ keywords) : escape m = m := by unfold escape; rw [if_neg h]

theorem escapes_nodup {c : Cls} (hp : Plain c) : (c.members.map escape).Nodup := (List.nodup_cons.1 hp.1.1).2

theorem nodup_of_map {α β : Type} (f : α → β) : ∀ {l : List α}, (l.map f).Nodup → l.Nodup := by
  intro l
  induction l with
  | nil => intro _; exact List.nodup_nil
  | cons a l ih =>
    intro h
    rw [List.map_cons, List.nodup_cons] at h
    exact List.nodup_cons.2 ⟨fun ha => h.1 (List.mem_map_of_mem ha), ih h.2⟩

theorem members_nodup {c : Cls} (hp : Plain c) : c.members.Nodup := nodup_of_map _ (escapes_nodup hp)

theorem lookup_mem {l : List (PyStr × Option V)} (h : (l.map (·.1)).Nodup) {n : PyStr} {v : Option V} (hm : (n, v) ∈ l) :
    l.lookup n = some v := by
  induction l with
  | nil => cases hm
  | cons a l ih =>
    rw [List.map_cons, List.nodup_cons] at h
    rw [List.lookup_cons]
    rcases List.mem_cons.1 hm with rfl | hm
    · simp
    · have : (n == a.1) = false := by
        simp only [beq_eq_false_iff_ne, ne_eq]
        intro e
        exact h.1 (e ▸ List.mem_map_of_mem (f := (·.1)) hm)
      rw [this]
      exact ih h.2 hm

theorem lookup_none {l : List (PyStr × Option V)} {n : PyStr} (h : n ∉ l.map (·.1)) : l.lookup n = none := by
  induction l with
  | nil => rfl
  | cons a l ih =>
    rw [List.map_cons, List.mem_cons, not_or] at h
    rw [List.lookup_cons]
    have : (n == a.1) = false := by simpa using h.1
    rw [this]
    exact ih h.2

theorem lookup_filter (l : List (PyStr × Option V)) (n k : PyStr) :
    (l.filter fun a => decide (a.1 ≠ n)).lookup k = if k = n then none else l.lookup k := by
  induction l with
  | nil => simp
  | cons a l ih =>
    by_cases h : a.1 = n
    · rw [List.filter_cons_of_neg (by simpa using h), ih, List.lookup_cons]
      by_cases hk : k = n
      · simp [hk]
      · have : (k == a.1) = false := by rw [h]; simpa using hk
        rw [this]
    · rw [List.filter_cons_of_pos (by simpa using h), List.lookup_cons, List.lookup_cons, ih]
      by_cases hk : k = a.1
      · subst hk; simp [h]
      · have : (k == a.1) = false := by simpa using hk
        rw [this]

/-- Whether `object.__setattr__` accepts the name -/
def Allowed (c : Cls) (n : PyStr) : Prop := c.slots = false ∨ c.exc = true ∨ n ∈ c.slotNames

theorem objSet_ok {o : Inst V} {n : PyStr} (h : Allowed o.cls n) (v : Option V) :
    objSet o n v = .ok { o with attrs := (n, v) :: o.attrs.filter fun a => a.1 ≠ n } := by
  unfold objSet; unfold Allowed at h; rw [if_pos h]

theorem objSet_error {o : Inst V} {n : PyStr} (h : ¬ Allowed o.cls n) (v : Option V) : objSet o n v = .error .attributeError := by
  unfold objSet; unfold Allowed at h; rw [if_neg h]

theorem lookup_objSet (o : Inst V) (n k : PyStr) (v : Option V) :
    (((n, v) :: o.attrs.filter fun a => decide (a.1 ≠ n)) : List (PyStr × Option V)).lookup k = if k = n then some v else o.attrs.lookup k := by
  rw [List.lookup_cons]
  by_cases h : k = n
  · subst h; simp
  · have : (k == n) = false := by simpa using h
    rw [this, if_neg h, lookup_filter, if_neg h]

theorem get_ok {o : Inst V} {n : PyStr} {v : Option V} (h : o.attrs.lookup n = some v) : get o n = .ok v := by unfold get; rw [h]

theorem get_error {o : Inst V} {n : PyStr} (h : o.attrs.lookup n = none) : get o n = .error .attributeError := by unfold get; rw [h]

theorem lookup_of_get {o : Inst V} {n : PyStr} {v : Option V} (h : get o n = .ok v) : o.attrs.lookup n = some v := by
  unfold get at h
  cases hl : o.attrs.lookup n with
  | none => rw [hl] at h; cases h
  | some w => rw [hl] at h; injection h with h; rw [h]

/-- The name under which `__init__` stores a member -/
def target (c : Cls) (m : PyStr) : PyStr := if c.immutable then m else c.attr m

theorem initBody_ok (c : Cls) : ∀ (as : List (PyStr × Option V)) (o : Inst V), o.cls = c → (∀ a ∈ as, Allowed c (target c a.1)) →
    (as.map fun a => target c a.1).Nodup → (∀ a ∈ as, target c a.1 ∉ o.attrs.map (·.1)) →
    initBody c as o = .ok ⟨c, (as.map fun a => (target c a.1, a.2)).reverse ++ o.attrs⟩ := by
  intro as
  induction as with
  | nil => intro o ho _ _ _; subst ho; rfl
  | cons a as ih =>
    intro o ho hal hnd hdis
    rw [List.map_cons, List.nodup_cons] at hnd
    have hset : objSet o (target c a.1) a.2 = .ok ⟨c, (target c a.1, a.2) :: o.attrs⟩ := by
      rw [objSet_ok (by rw [ho]; exact hal a (by simp))]
      have : (o.attrs.filter fun x => decide (x.1 ≠ target c a.1)) = o.attrs := by
        rw [List.filter_eq_self]
        intro x hx
        have := hdis a (by simp)
        simp only [decide_eq_true_eq]
        exact fun e => this (e ▸ List.mem_map_of_mem hx)
      rw [this, ← ho]
    obtain ⟨m, v⟩ := a
    unfold initBody
    show (do let o ← objSet o (target c m) v; initBody c as o) = _
    rw [hset, ok_bind, ih ⟨c, _⟩ rfl (fun b hb => hal b (by simp [hb])) hnd.2]
    · rw [List.map_cons, List.reverse_cons, List.append_assoc]; rfl
    · intro b hb hm
      rw [List.map_cons, List.mem_cons] at hm
      rcases hm with e | hm
      · refine hnd.1 ?_
        have := List.mem_map_of_mem (f := fun a : PyStr × Option V => target c a.1) hb
        dsimp only at this e ⊢
        rwa [e] at this
      · exact hdis b (by simp [hb]) hm

theorem create_ok {c : Cls} (hp : Plain c) (hs : c.slots = true → NoMethod c) : create c = .ok () := by
  unfold create
  rw [if_pos hp.1, if_neg]
  rintro ⟨h1, m, hm, h2⟩
  exact hs h1 m hm h2

/-- A new instance with the given values -/
def built (c : Cls) (vals : PyStr → Option V) : Inst V := ⟨c, (c.members.map fun m => (target c m, vals m)).reverse⟩

theorem target_plain {c : Cls} (hp : Plain c) {m : PyStr} (hm : m ∈ c.members) : target c m = if c.immutable then m else escape m := by
  unfold target; rw [attr_plain hp hm]

theorem targets_nodup {c : Cls} (hp : Plain c) : (c.members.map (target c)).Nodup := by
  rw [List.map_congr_left fun m hm => target_plain hp hm]
  by_cases hi : c.immutable = true
  · simp only [hi, if_true]; rw [List.map_id']; exact members_nodup hp
  · simp only [hi]; exact escapes_nodup hp

theorem slotNames_plain {c : Cls} (hp : Plain c) (hs : c.slots = true) : c.slotNames = c.members := by
  unfold Cls.slotNames
  rw [if_pos hs, List.map_congr_left fun m hm => mangle_plain (hp.2 m hm), List.map_id']

theorem allowed_target {c : Cls} (hp : Plain c) (hk : c.slots = true → c.exc = false → c.immutable = false → NoKeyword c) {m : PyStr}
    (hm : m ∈ c.members) : Allowed c (target c m) := by
  unfold Allowed
  cases hs : c.slots with
  | false => exact .inl rfl
  | true =>
    cases he : c.exc with
    | true => exact .inr (.inl rfl)
    | false =>
      refine .inr (.inr ?_)
      rw [slotNames_plain hp hs, target_plain hp hm]
      cases hi : c.immutable with
      | true => simpa using hm
      | false =>
        rw [escape_noKeyword (hk hs he hi m hm)]
        simpa using hm

theorem construct_with {c : Cls} (hp : Plain c) (hs : c.slots = true → NoMethod c)
    (hk : c.slots = true → c.exc = false → c.immutable = false → NoKeyword c) {kw : List (PyStr × Option V)} (vals : PyStr → Option V)
    (hkw : ∀ a ∈ kw, a.1 ∈ c.members.map escape) (hv : ∀ m ∈ c.members, (kw.lookup (escape m)).getD none = vals m) :
    construct c kw = .ok (built c vals) := by
  unfold construct
  rw [create_ok hp hs, ok_bind, if_pos, initBody_ok]
  · unfold built
    rw [List.map_map, List.append_nil]
    congr 3
    refine List.map_congr_left fun m hm => ?_
    show (target c m, (kw.lookup (c.attr m)).getD none) = _
    rw [attr_plain hp hm, hv m hm]
  · rfl
  · intro a ha
    obtain ⟨m, hm, rfl⟩ := List.mem_map.1 ha
    exact allowed_target hp hk hm
  · rw [List.map_map]; exact targets_nodup hp
  · intro a _ h; cases h
  · intro a ha
    rw [List.map_congr_left fun m hm => attr_plain hp hm]
    exact hkw a ha

theorem kwargs_lookup {c : Cls} (hp : Plain c) (vals : PyStr → Option V) {m : PyStr} (hm : m ∈ c.members) :
    (kwargs c vals).lookup (escape m) = some (vals m) := by
  refine lookup_mem ?_ (List.mem_map.2 ⟨m, hm, rfl⟩)
  unfold kwargs
  rw [List.map_map]
  exact escapes_nodup hp

theorem construct_kwargs {c : Cls} (hp : Plain c) (hs : c.slots = true → NoMethod c)
    (hk : c.slots = true → c.exc = false → c.immutable = false → NoKeyword c) (vals : PyStr → Option V) :
    construct c (kwargs c vals) = .ok (built c vals) := by
  refine construct_with hp hs hk vals ?_ ?_
  · intro a ha
    obtain ⟨m, hm, rfl⟩ := List.mem_map.1 ha
    exact List.mem_map_of_mem hm
  · intro m hm
    rw [kwargs_lookup hp vals hm]; rfl

theorem built_keys (c : Cls) (vals : PyStr → Option V) : (built c vals).attrs.map (·.1) = (c.members.map (target c)).reverse := by
  unfold built
  rw [List.map_reverse, List.map_map]
  rfl

theorem built_lookup {c : Cls} (hp : Plain c) (vals : PyStr → Option V) {m : PyStr} (hm : m ∈ c.members) :
    (built c vals).attrs.lookup (target c m) = some (vals m) := by
  refine lookup_mem ?_ ?_
  · rw [built_keys]; exact List.pairwise_reverse.2 ((targets_nodup hp).imp Ne.symm)
  · unfold built
    rw [List.mem_reverse]
    exact List.mem_map.2 ⟨m, hm, rfl⟩

theorem built_none {c : Cls} (vals : PyStr → Option V) {n : PyStr} (hn : n ∉ c.members.map (target c)) :
    (built c vals).attrs.lookup n = none := by
  refine lookup_none ?_
  rw [built_keys, List.mem_reverse]
  exact hn

theorem built_has {c : Cls} (hp : Plain c) (hk : c.immutable = true → NoKeyword c) (vals : PyStr → Option V) : Has (built c vals) vals := by
  intro m hm
  have h := built_lookup hp vals hm
  rw [target_plain hp hm] at h
  refine get_ok ?_
  by_cases hi : c.immutable = true
  · rw [if_pos hi] at h
    rw [escape_noKeyword (hk hi m hm)]; exact h
  · rw [if_neg hi] at h; exact h

/-- A name of a method is an attribute of a new instance exactly if it is one of a member. -/
theorem built_method {c : Cls} (hp : Plain c) {n : PyStr} (hn : n ∈ own) :
    n ∈ c.members.map (target c) ↔ n ∈ c.members := by
  rw [List.map_congr_left fun m hm => target_plain hp hm]
  by_cases hi : c.immutable = true
  · simp [hi]
  · simp only [hi]; exact mem_escape_own hn _

theorem call_ok {o : Inst V} {n : String} (h : o.attrs.lookup (pyStr n) = none) : call o n = .ok () := by unfold call; rw [h]

theorem call_error {o : Inst V} {n : String} {v : Option V} (h : o.attrs.lookup (pyStr n) = some v) : call o n = .error .typeError := by
  unfold call; rw [h]

theorem write_has {o : Inst V} (hp : Plain o.cls) {vals : PyStr → Option V} (hh : Has o vals) (h1 : o.attrs.lookup (pyStr "write") = none)
    (h2 : o.attrs.lookup (pyStr "validate") = none) : write o = .ok (fields o.cls vals) := by
  unfold write
  rw [call_ok h1, ok_bind, call_ok h2, ok_bind, mapM_ok (g' := fun m => (m, vals m))]
  · rw [ok_bind]
    show Except.ok _ = _
    congr 1
    rw [List.filterMap_map]
    rfl
  · intro m hm
    rw [attr_plain hp hm, hh m hm]; rfl

theorem fastWrite_has {o : Inst V} (hk : NoKeyword o.cls) {vals : PyStr → Option V} (hh : Has o vals)
    (h1 : o.attrs.lookup (pyStr "write") = none) (h2 : o.attrs.lookup (pyStr "validate") = none) :
    fastWrite o = .ok (fields o.cls vals) := by
  unfold fastWrite
  rw [call_ok h1, ok_bind, call_ok h2, ok_bind, mapM_ok (g' := fun m => (m, vals m))]
  · rw [ok_bind]
    show Except.ok _ = _
    congr 1
    rw [List.filterMap_map]
    rfl
  · intro m hm
    have := hh m hm
    rw [escape_noKeyword (hk m hm)] at this
    rw [this]; rfl

/-- Assigning a member of a mutable instance -/
theorem assign {o : Inst V} (hp : Plain o.cls) (hi : o.cls.immutable = false)
    (hk : o.cls.slots = true → o.cls.exc = false → o.cls.immutable = false → NoKeyword o.cls) {vals : PyStr → Option V} (hh : Has o vals)
    {m : PyStr} (hm : m ∈ o.cls.members) (v : Option V) :
    ∃ o', setattr o (escape m) v = .ok o' ∧ o'.cls = o.cls ∧ Has o' fun n => if n = m then v else vals n := by
  have hal := allowed_target hp hk hm
  rw [target_plain hp hm, if_neg (by rw [hi]; simp)] at hal
  refine ⟨{ o with attrs := (escape m, v) :: o.attrs.filter fun a => a.1 ≠ escape m }, by
    unfold setattr; rw [if_neg (by rw [hi]; simp), objSet_ok hal], rfl, ?_⟩
  intro n hn
  refine get_ok ?_
  rw [lookup_objSet]
  by_cases e : n = m
  · subst e; simp
  · have : escape n ≠ escape m := fun e' =>
      e (upd_member.List.inj_on_of_nodup_map' (escapes_nodup hp) hn hm e')
    dsimp only
    rw [if_neg this, if_neg e]
    exact lookup_of_get (hh n hn)

theorem mapM_error {α β : Type} {g : α → Except PyErr β} {e : PyErr} : ∀ (l : List α), (∀ a ∈ l, g a = .error e ∨ ∃ b, g a = .ok b) →
    (∃ a ∈ l, g a = .error e) → l.mapM g = .error e := by
  intro l
  induction l with
  | nil => rintro _ ⟨a, ha, _⟩; cases ha
  | cons a l ih =>
    intro h hx
    rw [List.mapM_cons]
    rcases h a (by simp) with he | ⟨b, hb⟩
    · rw [he]; rfl
    · rw [hb, ok_bind, ih (fun c hc => h c (by simp [hc])) ?_]
      · rfl
      · obtain ⟨c, hc, hce⟩ := hx
        rcases List.mem_cons.1 hc with rfl | hc
        · rw [hb] at hce; cases hce
        · exact ⟨c, hc, hce⟩

/-- Reading an attribute gives a value or an `AttributeError`. -/
theorem get_or (o : Inst V) (m n : PyStr) :
    (do pure (m, ← get o n) : Except PyErr (PyStr × Option V)) = .error .attributeError ∨
      ∃ b, (do pure (m, ← get o n) : Except PyErr (PyStr × Option V)) = .ok b := by
  unfold get
  cases o.attrs.lookup n with
  | none => exact .inl rfl
  | some v => exact .inr ⟨(m, v), rfl⟩

theorem last_cons (w : PyStr × V) (ws : List (PyStr × V)) (m : PyStr) :
    last (w :: ws) m = (last ws m).or (if m = w.1 then some w.2 else none) := by
  unfold last
  by_cases h : m = w.1
  · rw [List.filter_cons_of_pos (by simpa using h.symm), List.getLast?_cons, if_pos h]
    cases (ws.filter fun w => decide (w.1 = m)).getLast? <;> rfl
  · rw [List.filter_cons_of_neg (by simpa using fun e => h e.symm), if_neg h]
    cases (ws.filter fun w => decide (w.1 = m)).getLast? <;> rfl

theorem readFields_ok : ∀ (ws : List (PyStr × V)) (o : Inst V) (vals : PyStr → Option V), Plain o.cls → o.cls.immutable = false →
    (o.cls.slots = true → o.cls.exc = false → o.cls.immutable = false → NoKeyword o.cls) → Has o vals → (∀ w ∈ ws, w.1 ∈ o.cls.members) →
    ∃ o', readFields o ws = .ok o' ∧ o'.cls = o.cls ∧ Has o' fun m => (last ws m).or (vals m) := by
  intro ws
  induction ws with
  | nil => intro o vals _ _ _ hh _; exact ⟨o, rfl, rfl, hh⟩
  | cons w ws ih =>
    intro o vals hp hi hk hh hw
    obtain ⟨m, v⟩ := w
    have hm := hw (m, v) (by simp)
    obtain ⟨o1, h1, hc1, hh1⟩ := assign hp hi hk hh hm (some v)
    obtain ⟨o2, h2, hc2, hh2⟩ := ih o1 _ (hc1 ▸ hp) (hc1 ▸ hi) (hc1 ▸ hk) hh1 fun w hw' => hc1 ▸ hw w (by simp [hw'])
    refine ⟨o2, ?_, hc2.trans hc1, ?_⟩
    · unfold readFields
      rw [attr_plain hp hm, h1, ok_bind]
      exact h2
    · intro n hn
      rw [hh2 n hn]
      dsimp only
      rw [last_cons]
      congr 1
      by_cases e : n = m
      · subst e; cases last ws n <;> simp
      · cases last ws n <;> simp [e]

theorem fastFields_eq : ∀ (ws : List (PyStr × V)) (o : Inst V), Plain o.cls → NoKeyword o.cls → (∀ w ∈ ws, w.1 ∈ o.cls.members) →
    fastFields o ws = readFields o ws := by
  intro ws
  induction ws with
  | nil => intro o _ _ _; rfl
  | cons w ws ih =>
    intro o hp hk hw
    obtain ⟨m, v⟩ := w
    have hm := hw (m, v) (by simp)
    unfold fastFields readFields
    rw [attr_plain hp hm, escape_noKeyword (hk m hm)]
    cases h : setattr o m (some v) with
    | error e => rfl
    | ok o1 =>
      have hc : o1.cls = o.cls := by
        unfold setattr objSet at h
        split at h
        · split at h
          · split at h
            · injection h with h; rw [← h]
            · cases h
          · cases h
        · split at h
          · injection h with h; rw [← h]
          · cases h
      rw [ok_bind, ok_bind]
      exact ih o1 (hc ▸ hp) (hc ▸ hk) fun w hw' => hc ▸ hw w (by simp [hw'])

end Thrift.Attrs
