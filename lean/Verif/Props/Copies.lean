import Verif.Props.Attrs
import Verif.Spec.Copies
/-
C102: copies of instances of generated classes.
-/

namespace Thrift.Copies
open Rpc Names Locals Attrs Thrift.Spec.Attrs Thrift.Spec.Copies

variable {V : Type}

theorem bind_ok {α β : Type} {x : Except PyErr α} {f : α → Except PyErr β} {b : β} (h : (x >>= f) = .ok b) : ∃ a, x = .ok a ∧ f a = .ok b := by
  cases x with
  | error e => cases h
  | ok a => exact ⟨a, rfl, h⟩

/-! ## Attributes of instances that live -/

/-- Every attribute is there once, and an instance with slots has no others. -/
def Tidy (o : Inst V) : Prop := (o.attrs.map (·.1)).Nodup ∧ ∀ a ∈ o.attrs, Allowed o.cls a.1

theorem objSet_tidy {o i : Inst V} {n : PyStr} {v : Option V} (h : Tidy o) (hs : objSet o n v = .ok i) : Tidy i ∧ i.cls = o.cls := by
  by_cases ha : Allowed o.cls n
  · rw [objSet_ok ha] at hs
    cases hs
    refine ⟨⟨?_, ?_⟩, rfl⟩
    · rw [List.map_cons, List.nodup_cons]
      refine ⟨fun hm => ?_, (List.Sublist.map _ List.filter_sublist).nodup h.1⟩
      obtain ⟨a, ha, e⟩ := List.mem_map.mp hm
      have := (List.mem_filter.mp ha).2
      simp [e] at this
    · intro a hm
      rcases List.mem_cons.mp hm with rfl | hm
      · exact ha
      · exact h.2 a (List.mem_filter.mp hm).1
  · rw [objSet_error ha] at hs; cases hs

theorem objDel_tidy {o i : Inst V} {n : PyStr} (h : Tidy o) (hs : objDel o n = .ok i) : Tidy i ∧ i.cls = o.cls := by
  unfold objDel at hs
  split at hs
  · cases hs
    exact ⟨⟨(List.Sublist.map _ List.filter_sublist).nodup h.1, fun a hm => h.2 a (List.mem_filter.mp hm).1⟩, rfl⟩
  · cases hs

theorem initBody_tidy (c : Cls) : ∀ (as : List (PyStr × Option V)) {o i : Inst V}, Tidy o → initBody c as o = .ok i → Tidy i ∧ i.cls = o.cls
  | [], o, i, h, hi => by cases hi; exact ⟨h, rfl⟩
  | (m, v) :: as, o, i, h, hi => by
    rw [initBody] at hi
    obtain ⟨o', h1, h2⟩ := bind_ok hi
    have ht := objSet_tidy h h1
    have := initBody_tidy c as ht.1 h2
    exact ⟨this.1, this.2.trans ht.2⟩

theorem construct_tidy {c : Cls} {kw : List (PyStr × Option V)} {i : Inst V} (h : construct c kw = .ok i) : Tidy i ∧ i.cls = c := by
  unfold construct at h
  obtain ⟨_, _, h⟩ := bind_ok h
  split at h
  · have h0 : Tidy (⟨c, []⟩ : Inst V) := ⟨List.nodup_nil, nofun⟩
    exact initBody_tidy c _ h0 h
  · cases h

theorem setattr_tidy {o i : Inst V} {n : PyStr} {v : Option V} (h : Tidy o) (hs : setattr o n v = .ok i) : Tidy i ∧ i.cls = o.cls := by
  unfold setattr at hs
  split at hs
  · split at hs
    · exact objSet_tidy h hs
    · cases hs
  · exact objSet_tidy h hs

theorem delattr_tidy {o i : Inst V} {n : PyStr} (h : Tidy o) (hs : delattr o n = .ok i) : Tidy i ∧ i.cls = o.cls := by
  unfold delattr at hs
  split at hs
  · split at hs
    · exact objDel_tidy h hs
    · cases hs
  · exact objDel_tidy h hs

theorem setAll_tidy : ∀ (l : List (PyStr × Option V)) {o i : Inst V}, Tidy o → setAll o l = .ok i → Tidy i ∧ i.cls = o.cls
  | [], o, i, h, hi => by cases hi; exact ⟨h, rfl⟩
  | (n, v) :: l, o, i, h, hi => by
    rw [setAll] at hi
    obtain ⟨o', h1, h2⟩ := bind_ok hi
    have ht := setattr_tidy h h1
    have := setAll_tidy l ht.1 h2
    exact ⟨this.1, this.2.trans ht.2⟩

theorem make_tidy {c : Cls} {pos : List (Option V)} {kw : List (PyStr × Option V)} {o : Obj V} (h : make c pos kw = .ok o) :
    Tidy o.inst ∧ o.inst.cls = c ∧ o.args.length ≤ c.members.length ∧ (c.exc = false → o.args = []) := by
  unfold make at h
  split at h
  · cases h
  · rename_i hc
    obtain ⟨i, h1, h⟩ := bind_ok h
    cases h
    have := construct_tidy h1
    refine ⟨this.1, this.2, ?_, fun he => by dsimp only; rw [he]; rfl⟩
    dsimp only
    split
    · exact Nat.le_of_not_lt fun hl => hc (.inl hl)
    · exact Nat.zero_le _

theorem copy_tidy {cp : V → V} {o o' : Obj V} (ht : Tidy o.inst) (h : copy cp o = .ok o') :
    Tidy o'.inst ∧ o'.inst.cls = o.inst.cls ∧ o'.args.length ≤ o.inst.cls.members.length ∧ (o.inst.cls.exc = false → o'.args = []) := by
  unfold copy at h
  dsimp only at h
  split at h
  · obtain ⟨y, h1, h⟩ := bind_ok h
    obtain ⟨i, h2, h⟩ := bind_ok h
    cases h
    have hm := make_tidy h1
    have hs := setAll_tidy _ hm.1 h2
    exact ⟨hs.1, hs.2.trans hm.2.1, hm.2.2⟩
  · split at h
    · obtain ⟨i, h2, h⟩ := bind_ok h
      cases h
      have h0 : Tidy (⟨o.inst.cls, []⟩ : Inst V) := ⟨List.nodup_nil, nofun⟩
      have hs := setAll_tidy _ h0 h2
      exact ⟨hs.1, hs.2, Nat.zero_le _, fun _ => rfl⟩
    · rename_i hs
      cases h
      refine ⟨⟨?_, fun a _ => .inl (by simpa using hs)⟩, rfl, Nat.zero_le _, fun _ => rfl⟩
      dsimp only
      rw [List.map_map]
      exact ht.1

theorem lives_tidy {o : Obj V} (h : Lives o) : Tidy o.inst ∧ o.args.length ≤ o.inst.cls.members.length := by
  induction h with
  | make h => exact ⟨(make_tidy h).1, by rw [(make_tidy h).2.1]; exact (make_tidy h).2.2.1⟩
  | set _ hs ih =>
    have := setattr_tidy ih.1 hs
    exact ⟨this.1, by dsimp only; rw [this.2]; exact ih.2⟩
  | del _ hs ih =>
    have := delattr_tidy ih.1 hs
    exact ⟨this.1, by dsimp only; rw [this.2]; exact ih.2⟩
  | copy _ hc ih => exact ⟨(copy_tidy ih.1 hc).1, by rw [(copy_tidy ih.1 hc).2.1]; exact (copy_tidy ih.1 hc).2.2.1⟩

theorem lives_args {o : Obj V} (h : Lives o) (he : o.inst.cls.exc = false) : o.args = [] := by
  induction h with
  | make h => exact (make_tidy h).2.2.2 ((make_tidy h).2.1 ▸ he)
  | set h hs ih => exact ih ((setattr_tidy (lives_tidy h).1 hs).2 ▸ he)
  | del h hs ih => exact ih ((delattr_tidy (lives_tidy h).1 hs).2 ▸ he)
  | copy h hc _ => exact (copy_tidy (lives_tidy h).1 hc).2.2.2 ((copy_tidy (lives_tidy h).1 hc).2.1 ▸ he)

/-! ## Setting the state -/

/-- `__setattr__` lets the attribute be set. -/
def Free (c : Cls) (n : PyStr) : Prop := c.immutable = false ∨ (c.slots = true ∧ n ∉ c.members)

theorem setattr_free {o : Inst V} {n : PyStr} (h : Free o.cls n) (v : Option V) : setattr o n v = objSet o n v := by
  unfold setattr
  rcases h with h | h
  · rw [h]; rfl
  · simp only [if_pos h, ite_self]

theorem setAll_ok {c : Cls} : ∀ (l : List (PyStr × Option V)) (o : Inst V), o.cls = c → Tidy o → (l.map (·.1)).Nodup → (∀ a ∈ l, Free c a.1 ∧ Allowed c a.1) →
    ∃ i, setAll o l = .ok i ∧ i.cls = c ∧ Tidy i ∧ ∀ k, i.attrs.lookup k = (l.lookup k).or (o.attrs.lookup k)
  | [], o, hc, ht, _, _ => ⟨o, rfl, hc, ht, fun k => by simp⟩
  | (n, v) :: l, o, hc, ht, hn, hf => by
    have h0 := hf _ List.mem_cons_self
    dsimp only at h0
    have hs : setattr o n v = .ok { o with attrs := (n, v) :: o.attrs.filter fun a => a.1 ≠ n } := by
      rw [setattr_free (hc ▸ h0.1), objSet_ok (hc ▸ h0.2)]
    rw [List.map_cons, List.nodup_cons] at hn
    obtain ⟨i, h1, h2, h3, h4⟩ := setAll_ok l { o with attrs := (n, v) :: o.attrs.filter fun a => a.1 ≠ n } hc (setattr_tidy ht hs).1 hn.2
      fun a ha => hf a (List.mem_cons_of_mem _ ha)
    refine ⟨i, by rw [setAll, hs]; exact h1, h2, h3, fun k => ?_⟩
    rw [h4, lookup_objSet, List.lookup_cons]
    by_cases hk : k = n
    · subst hk
      rw [lookup_none hn.1]; simp
    · have : (k == n) = false := by simpa using hk
      rw [if_neg hk, this]

theorem setAll_raises {c : Cls} (hi : c.immutable = true) : ∀ (l : List (PyStr × Option V)) (o : Inst V), o.cls = c → Tidy o → (∀ a ∈ l, Allowed c a.1) →
    (∃ a ∈ l, c.slots = false ∨ a.1 ∈ c.members) → setAll o l = .error .typeError
  | [], _, _, _, _, h => by obtain ⟨a, ha, _⟩ := h; cases ha
  | (n, v) :: l, o, hc, ht, ha, h => by
    rw [setAll]
    by_cases hn : c.slots = true ∧ n ∉ c.members
    · have hs : setattr o n v = .ok { o with attrs := (n, v) :: o.attrs.filter fun a => a.1 ≠ n } := by
        rw [setattr_free (hc ▸ .inr hn), objSet_ok (hc ▸ ha _ List.mem_cons_self)]
      rw [hs]
      refine setAll_raises hi l _ hc (setattr_tidy ht hs).1 (fun a h => ha a (List.mem_cons_of_mem _ h)) ?_
      obtain ⟨a, hm, h⟩ := h
      rcases List.mem_cons.mp hm with rfl | hm
      · rcases h with h | h
        · rw [hn.1] at h; cases h
        · exact absurd h hn.2
      · exact ⟨a, hm, h⟩
    · unfold setattr
      rw [hc, if_pos hi, if_neg hn]
      rfl

theorem lookup_state (cp : V → V) (l : List (PyStr × Option V)) (k : PyStr) :
    (l.map fun a => (a.1, a.2.map cp)).lookup k = (l.lookup k).map (Option.map cp) := by
  induction l with
  | nil => rfl
  | cons a l ih =>
    rw [List.map_cons, List.lookup_cons, List.lookup_cons]
    split
    · rfl
    · exact ih

theorem state_keys (cp : V → V) (l : List (PyStr × Option V)) : (l.map fun a => (a.1, a.2.map cp)).map (·.1) = l.map (·.1) := by
  rw [List.map_map]; rfl

/-! ## Equality -/

theorem same_refl {veq : V → V → Bool} {cp : V → V} (h : ∀ v, veq v (cp v) = true) : ∀ x : Option V, Same veq x (x.map cp) = true
  | none => rfl
  | some v => h v

theorem eq_unfold (veq : V → V → Bool) {a b : Inst V} (hc : b.cls = a.cls) : eq veq a b =
    if a.cls.slots then eq.walk a b (Same veq) a.cls.members
    else .ok (decide (a.attrs.length = b.attrs.length) && a.attrs.all fun e => match b.attrs.lookup e.1 with
      | some y => Same veq e.2 y
      | none => false) := by
  have hsame : (fun x y => match x, y with
    | some x, some y => veq x y
    | none, none => true
    | _, _ => false) = Same veq := by
    funext x y
    cases x <;> cases y <;> rfl
  unfold eq
  dsimp only
  rw [if_neg (fun h => h hc), ← hsame]
  rfl

theorem mem_keys {l : List (PyStr × Option V)} {k : PyStr} : k ∈ l.map (·.1) ↔ (l.lookup k).isSome = true := by
  induction l with
  | nil => simp
  | cons a l ih =>
    rw [List.map_cons, List.mem_cons, List.lookup_cons, ih]
    by_cases h : k = a.1
    · subst h; simp
    · have : (k == a.1) = false := by simpa using h
      rw [this]; simp [h]

theorem eq_copied {veq : V → V → Bool} {cp : V → V} (hv : ∀ v, veq v (cp v) = true) {a b : Inst V} (hc : b.cls = a.cls) (ha : Tidy a) (hb : Tidy b)
    (hm : ∀ m ∈ a.cls.members, (a.attrs.lookup m).isSome = true) (hl : ∀ k, b.attrs.lookup k = (a.attrs.lookup k).map (Option.map cp)) :
    eq veq a b = .ok true := by
  rw [eq_unfold veq hc]
  split
  · have ga : ∀ m ∈ a.cls.members, get a m = .ok ((a.attrs.lookup m).getD none) := fun m h => by
      obtain ⟨v, e⟩ := Option.isSome_iff_exists.mp (hm m h)
      rw [get_ok e, e]; rfl
    have gb : ∀ m ∈ a.cls.members, get b m = .ok (((a.attrs.lookup m).getD none).map cp) := fun m h => by
      obtain ⟨v, e⟩ := Option.isSome_iff_exists.mp (hm m h)
      rw [get_ok (v := v.map cp) (by rw [hl, e]; rfl), e]; rfl
    rw [walk_eq (va := fun m => (a.attrs.lookup m).getD none) (vb := fun m => ((a.attrs.lookup m).getD none).map cp) _ ga gb]
    congr 1
    exact List.all_eq_true.mpr fun m _ => same_refl hv _
  · have sub : ∀ k, k ∈ a.attrs.map (·.1) ↔ k ∈ b.attrs.map (·.1) := fun k => by
      rw [mem_keys, mem_keys, hl, Option.isSome_map]
    have le1 := List.Nodup.length_le_of_subset ha.1 (fun k h => (sub k).mp h)
    have le2 := List.Nodup.length_le_of_subset hb.1 (fun k h => (sub k).mpr h)
    rw [List.length_map, List.length_map] at le1 le2
    rw [decide_eq_true (Nat.le_antisymm le1 le2), Bool.true_and]
    congr 1
    refine List.all_eq_true.mpr fun e he => ?_
    rw [hl, lookup_mem ha.1 (v := e.2) he]
    exact same_refl hv _

/-! ## C102 -/

theorem _root_.Thrift.Spec.Copies.Good.attrs {c : Cls} (h : Good c) : c.members.map c.attr = c.members := by
  rw [List.map_congr_left fun m hm => (attr_plain h.plain hm).trans (escape_noKeyword (h.keyword m hm)), List.map_id']

theorem _root_.Thrift.Spec.Copies.Good.escapes {c : Cls} (h : Good c) : c.members.map escape = c.members := by
  rw [List.map_congr_left fun m hm => escape_noKeyword (h.keyword m hm), List.map_id']

theorem _root_.Thrift.Spec.Copies.Good.targets {c : Cls} (h : Good c) : c.members.map (target c) = c.members := by
  rw [List.map_congr_left (g := id) fun m hm => by
    rw [target_plain h.plain hm, escape_noKeyword (h.keyword m hm)]; cases c.immutable <;> rfl, List.map_id]

theorem has_lookup {o : Inst V} (h : Good o.cls) {vals : PyStr → Option V} (hh : Has o vals) {m : PyStr} (hm : m ∈ o.cls.members) :
    o.attrs.lookup m = some (vals m) := by
  have := hh m hm
  rw [escape_noKeyword (h.keyword m hm)] at this
  exact lookup_of_get this

theorem lookup_has {o : Inst V} (h : Good o.cls) {vals : PyStr → Option V} (hl : ∀ m ∈ o.cls.members, o.attrs.lookup m = some (vals m)) : Has o vals := by
  intro m hm
  rw [escape_noKeyword (h.keyword m hm)]
  exact get_ok (hl m hm)

theorem built_at {c : Cls} (h : Good c) (vals : PyStr → Option V) (k : PyStr) :
    (built c vals).attrs.lookup k = if k ∈ c.members then some (vals k) else none := by
  split
  · rename_i hk
    have := built_lookup h.plain vals hk
    rw [target_plain h.plain hk, escape_noKeyword (h.keyword k hk)] at this
    cases hi : c.immutable <;> rw [hi] at this <;> exact this
  · rename_i hk
    exact built_none vals (by rw [h.targets]; exact hk)

theorem make_ok {c : Cls} (h : Good c) (he : c.exc = true) {args : List (Option V)} (hl : args.length ≤ c.members.length) :
    make c args [] = .ok ⟨built c (positional c args), args⟩ := by
  unfold make
  rw [if_neg, List.append_nil, h.attrs, construct_with h.plain h.method (fun _ _ _ => h.keyword) (positional c args)]
  · rw [if_pos he]; rfl
  · intro a ha
    rw [h.escapes]
    exact (List.of_mem_zip ha).1
  · intro m hm
    rw [escape_noKeyword (h.keyword m hm)]
    rfl
  · rintro (hl' | ⟨a, ha, _⟩)
    · omega
    · cases ha

theorem built_tidy {c : Cls} (h : Good c) (he : c.exc = true) (vals : PyStr → Option V) : Tidy (built c vals) := by
  refine ⟨?_, fun a _ => .inr (.inl he)⟩
  rw [built_keys, h.targets]
  exact List.pairwise_reverse.2 ((members_nodup h.plain).imp Ne.symm)

/-- A class can be called with positional arguments for the first members and keywords for others; exceptions keep the former. -/
theorem make_has {c : Cls} (h : Good c) {pos : List (Option V)} (hl : pos.length ≤ c.members.length) {kw : List (PyStr × Option V)}
    (hk : ∀ a ∈ kw, a.1 ∈ c.members.drop pos.length) :
    ∃ o, make c pos kw = .ok o ∧ o.inst.cls = c ∧ o.args = (if c.exc then pos else []) ∧
      Has o.inst fun m => ((c.members.zip pos ++ kw).lookup m).getD none := by
  refine ⟨⟨built c fun m => ((c.members.zip pos ++ kw).lookup m).getD none, if c.exc then pos else []⟩, ?_, rfl, rfl, built_has h.plain (fun _ => h.keyword) _⟩
  unfold make
  rw [if_neg, h.attrs, construct_with h.plain h.method (fun _ _ _ => h.keyword) fun m => ((c.members.zip pos ++ kw).lookup m).getD none]
  · rfl
  · intro a ha
    rw [h.escapes]
    rcases List.mem_append.mp ha with ha | ha
    · exact (List.of_mem_zip ha).1
    · exact List.mem_of_mem_drop (hk a ha)
  · intro m hm
    rw [escape_noKeyword (h.keyword m hm)]
  · rintro (hl' | ⟨a, ha, ht⟩)
    · omega
    · rw [h.attrs] at ht
      have hn := members_nodup h.plain
      rw [← List.take_append_drop pos.length c.members, List.nodup_append] at hn
      exact hn.2.2 _ ht _ (hk a ha) rfl

/-- More arguments than members are an error, and so are two for a member. -/
theorem make_raises {c : Cls} (h : Good c) {pos : List (Option V)} {kw : List (PyStr × Option V)}
    (hb : c.members.length < pos.length ∨ ∃ a ∈ kw, a.1 ∈ c.members.take pos.length) : make c pos kw = .error .typeError := by
  unfold make
  rw [h.attrs, if_pos hb]

/-- A copy is an instance of the same class, equal to the original, with copies of the values of its members; for exceptions this is only so without slots, and for
immutable classes only of structs without slots. What is missing is false: see `frozen_slots`, `frozen_exception` and `slots_exception`. -/
theorem copy_equal_partial {o : Obj V} (hg : Good o.inst.cls) (hl : Lives o) {vals : PyStr → Option V} (hh : Has o.inst vals)
    (hc : if o.inst.cls.exc then o.inst.cls.immutable = false ∧ o.inst.cls.slots = false else o.inst.cls.immutable = false ∨ o.inst.cls.slots = false)
    (cp : V → V) : ∃ o', copy cp o = .ok o' ∧ o'.inst.cls = o.inst.cls ∧ o'.args = o.args.map (Option.map cp) ∧ Has o'.inst (fun m => (vals m).map cp) ∧
      ∀ veq : V → V → Bool, (∀ v, veq v (cp v) = true) → eq veq o.inst o'.inst = .ok true := by
  have ht := lives_tidy hl
  have key : ∀ i : Inst V, i.cls = o.inst.cls → Tidy i → (∀ k, i.attrs.lookup k = (o.inst.attrs.lookup k).map (Option.map cp)) →
      i.cls = o.inst.cls ∧ Has i (fun m => (vals m).map cp) ∧ ∀ veq : V → V → Bool, (∀ v, veq v (cp v) = true) → eq veq o.inst i = .ok true := by
    intro i hi hti hli
    refine ⟨hi, lookup_has (hi ▸ hg) fun m hm => ?_, fun veq hv => eq_copied hv hi ht.1 hti (fun m hm => ?_) hli⟩
    · rw [hli, has_lookup hg hh (hi ▸ hm)]; rfl
    · rw [has_lookup hg hh hm]; rfl
  have hkeys : ((o.inst.attrs.map fun a => (a.1, a.2.map cp)).map (·.1)).Nodup := by rw [state_keys]; exact ht.1.1
  unfold copy
  dsimp only
  split
  · rename_i he
    rw [if_pos he] at hc
    rw [make_ok hg he (by rw [List.length_map]; exact ht.2)]
    have hno : (o.inst.attrs.map fun a => (a.1, a.2.map cp)).filter (fun a => a.1 ∉ o.inst.cls.slotNames) = o.inst.attrs.map fun a => (a.1, a.2.map cp) := by
      refine List.filter_eq_self.mpr fun a _ => ?_
      simp [Cls.slotNames, hc.2]
    obtain ⟨i, h1, h2, h3, h4⟩ := setAll_ok (o.inst.attrs.map fun a => (a.1, a.2.map cp)) (built o.inst.cls (positional o.inst.cls (o.args.map (Option.map cp)))) rfl
      (built_tidy hg he _) hkeys fun a _ => ⟨.inl hc.1, .inl hc.2⟩
    refine ⟨⟨i, o.args.map (Option.map cp)⟩, ?_, h2, rfl, (key i h2 h3 fun k => ?_).2⟩
    · show (setAll _ _ >>= _) = _
      rw [hno, h1]; rfl
    · rw [h4, lookup_state, built_at hg]
      by_cases hk : k ∈ o.inst.cls.members
      · rw [has_lookup hg hh hk]; rfl
      · rw [if_neg hk, Option.or_none]
  · rename_i he
    rw [if_neg he] at hc
    rw [lives_args hl (by simpa using he)]
    split
    · rename_i hs
      have hi : o.inst.cls.immutable = false := hc.resolve_right (by rw [hs]; simp)
      obtain ⟨i, h1, h2, h3, h4⟩ := setAll_ok (o.inst.attrs.map fun a => (a.1, a.2.map cp)) ⟨o.inst.cls, []⟩ rfl ⟨List.nodup_nil, nofun⟩ hkeys fun a ha => by
        obtain ⟨b, hb, rfl⟩ := List.mem_map.mp ha
        exact ⟨.inl hi, ht.1.2 b hb⟩
      refine ⟨⟨i, []⟩, by rw [h1]; rfl, h2, rfl, (key i h2 h3 fun k => ?_).2⟩
      rw [h4, lookup_state]; simp
    · rename_i hs
      exact ⟨_, rfl, rfl, rfl, (key ⟨o.inst.cls, o.inst.attrs.map fun a => (a.1, a.2.map cp)⟩ rfl ⟨hkeys, fun a _ => .inl (by simpa using hs)⟩ fun k => lookup_state cp _ k).2⟩

/-- An instance of an immutable class with slots cannot be copied. -/
theorem frozen_slots {o : Obj V} (hg : Good o.inst.cls) (hl : Lives o) {vals : PyStr → Option V} (hh : Has o.inst vals) (hi : o.inst.cls.immutable = true)
    (hs : o.inst.cls.slots = true) (he : o.inst.cls.exc = false) (hm : o.inst.cls.members ≠ []) (cp : V → V) : copy cp o = .error .typeError := by
  have ht := lives_tidy hl
  obtain ⟨m, ms, e⟩ := List.exists_cons_of_ne_nil hm
  have hmm : m ∈ o.inst.cls.members := by rw [e]; exact List.mem_cons_self
  obtain ⟨a, ha, hk⟩ := List.mem_map.mp (mem_keys.mpr (show (o.inst.attrs.lookup m).isSome = true by rw [has_lookup hg hh hmm]; rfl))
  unfold copy
  dsimp only
  rw [if_neg (by rw [he]; simp), if_pos hs, setAll_raises hi _ ⟨o.inst.cls, []⟩ rfl ⟨List.nodup_nil, nofun⟩]
  · rfl
  · intro b hb
    obtain ⟨d, hd, rfl⟩ := List.mem_map.mp hb
    exact ht.1.2 d hd
  · exact ⟨_, List.mem_map.mpr ⟨a, ha, rfl⟩, .inr (by dsimp only; rw [hk]; exact hmm)⟩

/-- Nor can an immutable exception without slots. -/
theorem frozen_exception {o : Obj V} (hg : Good o.inst.cls) (hl : Lives o) {vals : PyStr → Option V} (hh : Has o.inst vals) (hi : o.inst.cls.immutable = true)
    (hs : o.inst.cls.slots = false) (he : o.inst.cls.exc = true) (hm : o.inst.cls.members ≠ []) (cp : V → V) : copy cp o = .error .typeError := by
  have ht := lives_tidy hl
  obtain ⟨m, ms, e⟩ := List.exists_cons_of_ne_nil hm
  have hmm : m ∈ o.inst.cls.members := by rw [e]; exact List.mem_cons_self
  obtain ⟨a, ha, hk⟩ := List.mem_map.mp (mem_keys.mpr (show (o.inst.attrs.lookup m).isSome = true by rw [has_lookup hg hh hmm]; rfl))
  unfold copy
  dsimp only
  rw [if_pos he, make_ok hg he (by rw [List.length_map]; exact ht.2)]
  show (setAll _ _ >>= _) = _
  rw [setAll_raises (c := o.inst.cls) hi _ (built o.inst.cls (positional o.inst.cls (o.args.map (Option.map cp)))) rfl (built_tidy hg he _)]
  · rfl
  · exact fun b _ => .inl hs
  · exact ⟨(a.1, a.2.map cp), List.mem_filter.mpr ⟨List.mem_map.mpr ⟨a, ha, rfl⟩, by simp [Cls.slotNames, hs]⟩, .inl hs⟩

/-- The copy of an exception with slots does not have the values of its members, but the positional arguments that the original was made with. -/
theorem slots_exception {o : Obj V} (hg : Good o.inst.cls) (hl : Lives o) (hs : o.inst.cls.slots = true) (he : o.inst.cls.exc = true) (cp : V → V) :
    ∃ o', copy cp o = .ok o' ∧ o'.inst.cls = o.inst.cls ∧ o'.args = o.args.map (Option.map cp) ∧ Has o'.inst (positional o.inst.cls (o.args.map (Option.map cp))) := by
  have ht := lives_tidy hl
  have hn := slotNames_plain hg.plain hs
  obtain ⟨i, h1, h2, h3, h4⟩ := setAll_ok (c := o.inst.cls) ((o.inst.attrs.map fun a => (a.1, a.2.map cp)).filter fun a => a.1 ∉ o.inst.cls.slotNames)
    (built o.inst.cls (positional o.inst.cls (o.args.map (Option.map cp)))) rfl (built_tidy hg he _)
    ((List.Sublist.map _ List.filter_sublist).nodup (by rw [state_keys]; exact ht.1.1))
    (fun a ha => ⟨.inr ⟨hs, by have := (List.mem_filter.mp ha).2; rw [hn] at this; simpa using this⟩, .inr (.inl he)⟩)
  refine ⟨⟨i, o.args.map (Option.map cp)⟩, ?_, h2, rfl, lookup_has (h2 ▸ hg) fun m hm => ?_⟩
  · unfold copy
    dsimp only
    rw [if_pos he, make_ok hg he (by rw [List.length_map]; exact ht.2)]
    show (setAll _ _ >>= _) = _
    rw [h1]; rfl
  · dsimp only at hm ⊢
    rw [h2] at hm
    rw [h4, built_at hg, if_pos hm, lookup_none]
    · rfl
    · intro hc
      obtain ⟨a, ha, e⟩ := List.mem_map.mp hc
      have := (List.mem_filter.mp ha).2
      rw [hn, e] at this
      simp [hm] at this

/-- So what was given by keywords, assigned or received, is lost: such an exception is not equal to its copy. -/
theorem slots_exception_lost {o : Obj V} (hg : Good o.inst.cls) (hl : Lives o) (hs : o.inst.cls.slots = true) (he : o.inst.cls.exc = true)
    (ha : o.args = []) {vals : PyStr → Option V} (hh : Has o.inst vals) {m : PyStr} (hm : m ∈ o.inst.cls.members) {v : V} (hv : vals m = some v) (cp : V → V)
    (veq : V → V → Bool) : ∃ o', copy cp o = .ok o' ∧ get o'.inst m = .ok none ∧ eq veq o.inst o'.inst = .ok false := by
  obtain ⟨o', h1, h2, _, h3⟩ := slots_exception hg hl hs he cp
  have hp : ∀ n, positional o.inst.cls (o.args.map (Option.map cp)) n = none := fun n => by
    rw [ha, positional, List.map_nil, List.zip_nil_right]; rfl
  have g' : ∀ n ∈ o.inst.cls.members, get o'.inst n = .ok none := fun n hn => by
    have := h3 n (h2 ▸ hn)
    rwa [hp, escape_noKeyword (hg.keyword n hn)] at this
  refine ⟨o', h1, g' m hm, ?_⟩
  rw [eq_unfold veq h2, if_pos hs, walk_eq (va := vals) (vb := fun _ => none) _ (fun n hn => get_ok (has_lookup hg hh hn)) g']
  congr 1
  refine List.all_eq_false.mpr ⟨m, hm, ?_⟩
  rw [hv]
  simp [Same]

/-! ## Concrete cases: `exception Missing { 1: string key, 2: i32 code }` and a struct of the same members -/

def missing (immutable slots exc : Bool) : Cls := ⟨pyStr "Missing", immutable, slots, exc, [pyStr "key", pyStr "code"]⟩

theorem missing_good (i s e : Bool) : Good (missing i s e) := by
  refine ⟨⟨?_, ?_⟩, ?_, fun _ => ?_⟩
  · show Accepted [pyStr "key", pyStr "code"]; decide +kernel
  · show ∀ m ∈ [pyStr "key", pyStr "code"], _; decide +kernel
  · show ∀ m ∈ [pyStr "key", pyStr "code"], _; decide +kernel
  · show ∀ m ∈ [pyStr "key", pyStr "code"], _; decide +kernel

/-- `Missing(key=7)` -/
def lost (i s e : Bool) : Obj Nat := ⟨built (missing i s e) fun m => if m = pyStr "key" then some 7 else none, []⟩

theorem lost_lives (i s e : Bool) : Lives (lost i s e) := by
  refine .make (c := missing i s e) (pos := []) (kw := [(pyStr "key", some 7)]) ?_
  have hg := missing_good i s e
  unfold make
  rw [if_neg, construct_with hg.plain hg.method (fun _ _ _ => hg.keyword) (fun m => if m = pyStr "key" then some 7 else none)]
  · cases e <;> rfl
  · show ∀ a ∈ [(pyStr "key", some 7)], _; rw [hg.escapes]; show ∀ a ∈ [(pyStr "key", some 7)], a.1 ∈ [pyStr "key", pyStr "code"]; decide +kernel
  · rw [List.zip_nil_right, List.nil_append]
    show ∀ m ∈ [pyStr "key", pyStr "code"], _
    decide +kernel
  · rintro (h | ⟨a, _, h⟩)
    · cases h
    · cases h

theorem lost_has (i s e : Bool) : Has (lost i s e).inst fun m => if m = pyStr "key" then some 7 else none :=
  built_has (missing_good i s e).plain (fun _ => (missing_good i s e).keyword) _

/-- `Missing(7, code=8)` -/
example : ∃ o, make (missing false true true) [some 7] [(pyStr "code", some 8)] = .ok o ∧ o.args = [some 7] ∧ get o.inst (pyStr "code") = .ok (some 8) := by
  obtain ⟨o, h1, h2, h3, h4⟩ := make_has (missing_good false true true) (pos := [some 7]) (by decide +kernel) (kw := [(pyStr "code", some 8)]) (by decide +kernel)
  refine ⟨o, h1, h3, ?_⟩
  have := h4 (pyStr "code") (by rw [h2]; decide +kernel)
  rw [show escape (pyStr "code") = pyStr "code" by decide +kernel] at this
  refine this.trans (congrArg Except.ok ?_)
  decide +kernel

/-- `Missing(7, key=8)` -/
example : make (missing false true true) [some 7] [(pyStr "key", some 8)] = .error .typeError :=
  make_raises (missing_good false true true) (.inr ⟨_, List.mem_cons_self, by decide +kernel⟩)

/-- A struct is copied, and so is an exception that is not immutable. -/
example (e : Bool) : ∃ o', copy id (lost false false e) = .ok o' ∧ eq (fun a b => a == b) (lost false false e).inst o'.inst = .ok true := by
  obtain ⟨o', h1, _, _, _, h4⟩ := copy_equal_partial (missing_good false false e) (lost_lives false false e) (lost_has false false e) (by cases e <;> simp [lost, built, missing]) id
  exact ⟨o', h1, h4 _ (by simp)⟩

/-- With slots, the copy of the exception has no key. -/
example : ∃ o', copy id (lost false true true) = .ok o' ∧ get o'.inst (pyStr "key") = .ok none := by
  obtain ⟨o', h1, h2, _⟩ := slots_exception_lost (missing_good false true true) (lost_lives false true true) rfl rfl rfl (lost_has false true true)
    (m := pyStr "key") (by decide +kernel) (v := 7) rfl id (fun a b => a == b)
  exact ⟨o', h1, h2⟩

example : copy id (lost true true false) = .error .typeError :=
  frozen_slots (missing_good true true false) (lost_lives true true false) (lost_has true true false) rfl rfl rfl (by decide +kernel) id

example : copy id (lost true false true) = .error .typeError :=
  frozen_exception (missing_good true false true) (lost_lives true false true) (lost_has true false true) rfl rfl rfl (by decide +kernel) id

end Thrift.Copies
