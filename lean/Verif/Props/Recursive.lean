import Verif.Spec.Recursive
import Mathlib.Data.List.Forall2
/-
C47: `fix_spec`, and the `thrift_spec` tuples it works on.
-/

namespace Thrift.Recursive
open Spec.Recursive

/-- What `fix_spec` may do to a heap. -/
def Ext (h h' : Heap) : Prop :=
  h'.length = h.length ∧ ∀ a : Nat, h'[a]? = h[a]? ∨ ∃ (c : Nat) (x : Obj), h[a]? = some [Obj.cls c, x] ∧ h'[a]? = some [Obj.cls c, Obj.spec c]

theorem Ext.refl (h : Heap) : Ext h h := ⟨rfl, fun _ => .inl rfl⟩

theorem Ext.trans {h h' h'' : Heap} (e : Ext h h') (e' : Ext h' h'') : Ext h h'' := by
  refine ⟨e'.1.trans e.1, fun a => ?_⟩
  rcases e.2 a with h1 | ⟨c, x, h1, h2⟩ <;> rcases e'.2 a with h3 | ⟨c', x', h3, h4⟩
  · exact .inl (h3.trans h1)
  · exact .inr ⟨c', x', by rw [← h1]; exact h3, h4⟩
  · exact .inr ⟨c, x, h1, h3.trans h2⟩
  · rw [h2] at h3
    simp at h3
    obtain ⟨rfl, rfl⟩ := h3
    exact .inr ⟨c, x, h1, h4⟩

theorem _root_.Thrift.Spec.Recursive.Shows.mono {h h' : Heap} {ok : Nat → Obj → Prop} (e : Ext h h') (hok : ∀ c, ok c (.spec c)) {t : FType} {o : Obj} (hs : Shows h ok t o) :
    Shows h' ok t o := by
  induction hs with
  | base b => exact .base b
  | @struct a c x h1 h2 =>
    rcases e.2 a with h3 | ⟨c', x', h3, h4⟩
    · exact .struct (h3.trans h1) h2
    · rw [h1] at h3
      simp at h3
      obtain ⟨rfl, rfl⟩ := h3
      exact .struct h4 (hok c)
  | list _ ih => exact .list ih
  | set _ ih => exact .set ih
  | map _ _ ih ih' => exact .map ih ih'

theorem fixed_spec (c : Nat) : fixed c (.spec c) := rfl

theorem chain_list {c : Int} (hc : c = 15 ∨ c = 14) (e o i : Obj) (h : Heap) :
    fixChain (.int c) (some (.tuple [e, o, i])) h = fixChain e (some o) h := by
  rw [fixChain.eq_def]
  rcases hc with rfl | rfl <;> simp [Obj.isInt] <;> rfl

theorem chain_map (k o v o' i : Obj) (h : Heap) :
    fixChain (.int 13) (some (.tuple [k, o, v, o', i])) h =
      match fixChain k (some o) h with
      | .error e => .error e
      | .ok h' => fixChain v (some o') h' := by
  rw [fixChain.eq_def]
  simp [Obj.isInt]
  rfl

theorem chain_struct (a : Option Obj) (h : Heap) : fixChain (.int 12) a h = fixRef a h := by
  rw [fixChain.eq_def]
  simp [Obj.isInt]

theorem chain_base (b : Base) (a : Option Obj) (h : Heap) : fixChain (.int b.code) a h = .ok h := by
  rw [fixChain.eq_def]
  cases b <;> simp [Obj.isInt, Base.code]

theorem chain_fixes {h0 : Heap} {t : FType} {o : Obj} (hs : Shows h0 whatever t o) : ∀ h, Ext h0 h →
    ∃ h', fixChain (.int t.code) (some o) h = .ok h' ∧ Ext h h' ∧ Shows h' fixed t o ∧ ∀ a, ¬ Reach o a → h'[a]? = h[a]? := by
  induction hs with
  | base b => exact fun h _ => ⟨h, chain_base b _ h, .refl h, .base b, fun _ _ => rfl⟩
  | @struct a c x h1 _ =>
    intro h he
    obtain ⟨y, hy⟩ : ∃ y, h[a]? = some [.cls c, y] := by
      rcases he.2 a with h3 | ⟨c', x', h3, h4⟩
      · exact ⟨x, h3.trans h1⟩
      · rw [h1] at h3
        simp at h3
        obtain ⟨rfl, rfl⟩ := h3
        exact ⟨_, h4⟩
    have hlt : a < h.length := (List.getElem?_eq_some_iff.1 hy).1
    refine ⟨h.set a [.cls c, .spec c], ?_, ⟨by simp, fun b => ?_⟩, .struct (by simp [hlt]) rfl, fun b hb => ?_⟩
    · rw [show FType.code (.struct c) = 12 from rfl, chain_struct]
      simp [fixRef, hy]
    · by_cases hab : a = b
      · subst hab
        exact .inr ⟨c, y, hy, by simp [hlt]⟩
      · exact .inl (List.getElem?_set_ne hab)
    · by_cases hab : a = b
      · subst hab
        exact absurd (.here a) hb
      · exact List.getElem?_set_ne hab
  | @list i e o _ ih =>
    intro h he
    obtain ⟨h', e1, e2, e3, e4⟩ := ih h he
    refine ⟨h', (chain_list (.inl rfl) _ _ _ _).trans e1, e2, .list e3, fun a ha => e4 a fun hr => ha (.elem (by simp) hr)⟩
  | @set i e o _ ih =>
    intro h he
    obtain ⟨h', e1, e2, e3, e4⟩ := ih h he
    refine ⟨h', (chain_list (.inr rfl) _ _ _ _).trans e1, e2, .set e3, fun a ha => e4 a fun hr => ha (.elem (by simp) hr)⟩
  | @map i k v o o' _ _ ih ih' =>
    intro h he
    obtain ⟨h', e1, e2, e3, e4⟩ := ih h he
    obtain ⟨h'', f1, f2, f3, f4⟩ := ih' h' (he.trans e2)
    refine ⟨h'', ?_, e2.trans f2, .map (e3.mono f2 fixed_spec) f3, fun a ha => ?_⟩
    · rw [show FType.code (.map i k v) = 13 from rfl, chain_map, e1]
      exact f1
    · rw [f4 a fun hr => ha (.elem (x := o') (by simp) hr), e4 a fun hr => ha (.elem (x := o) (by simp) hr)]

/-- A second time nothing changes. -/
theorem chain_again {h : Heap} {t : FType} {o : Obj} (hs : Shows h fixed t o) : fixChain (.int t.code) (some o) h = .ok h := by
  induction hs with
  | base b => exact chain_base b _ h
  | @struct a c x h1 h2 =>
    obtain rfl : x = .spec c := h2
    rw [show FType.code (.struct c) = 12 from rfl, chain_struct]
    have hlt : a < h.length := (List.getElem?_eq_some_iff.1 h1).1
    have hx := (List.getElem?_eq_some_iff.1 h1).2
    simp only [fixRef, h1]
    rw [← hx, List.set_getElem_self]
  | list _ ih => exact (chain_list (.inl rfl) _ _ _ _).trans ih
  | set _ ih => exact (chain_list (.inr rfl) _ _ _ _).trans ih
  | @map i k v _ _ _ _ ih ih' =>
    rw [show FType.code (.map i k v) = 13 from rfl, chain_map, ih]
    exact ih'

/-! ## Entries -/

/-- What `fix_spec` needs to know of an entry. -/
def ShowsEntry (h : Heap) (ok : Nat → Obj → Prop) (o : Obj) : Prop := o = .none ∨ ∃ f, ShowsField h ok f o

theorem ShowsEntry.mono {h h' : Heap} {ok : Nat → Obj → Prop} (e : Ext h h') (hok : ∀ c, ok c (.spec c)) {o : Obj} (hs : ShowsEntry h ok o) :
    ShowsEntry h' ok o := by
  rcases hs with rfl | ⟨f, a, h1, h2⟩
  · exact .inl rfl
  · exact .inr ⟨f, a, h1.mono e hok, h2⟩

theorem entry_fixes {h0 h : Heap} {o : Obj} (hs : ShowsEntry h0 whatever o) (he : Ext h0 h) :
    ∃ h', fixEntry o h = .ok h' ∧ Ext h h' ∧ (∀ f, ShowsField h0 whatever f o → ShowsField h' fixed f o) ∧ ShowsEntry h' fixed o ∧
      ∀ a, ¬ Reach o a → h'[a]? = h[a]? := by
  rcases hs with rfl | ⟨f, a, h1, rfl⟩
  · exact ⟨h, rfl, .refl h, fun f hf => by obtain ⟨_, _, h⟩ := hf; simp at h, .inl rfl, fun _ _ => rfl⟩
  · obtain ⟨h', e1, e2, e3, e4⟩ := chain_fixes h1 h he
    refine ⟨h', e1, e2, fun g hg => ?_, .inr ⟨f, a, e3, rfl⟩, fun b hb => e4 b fun hr => hb (.elem (x := a) (by simp) hr)⟩
    obtain ⟨a', h2, h3⟩ := hg
    simp only [Obj.tuple.injEq, List.cons.injEq, Obj.int.injEq, Obj.str.injEq, and_true] at h3
    obtain ⟨i1, i2, i3, rfl, i5⟩ := h3
    obtain ⟨h'', j1, j2, j3, j4⟩ := chain_fixes h2 h he
    rw [← i2, e1] at j1
    cases j1
    exact ⟨a, j3, by rw [i1, i2, i3, i5]⟩

theorem entries_fixes {h0 : Heap} : ∀ {os : List Obj} {h : Heap}, (∀ o ∈ os, ShowsEntry h0 whatever o) → Ext h0 h →
    ∃ h', fixEntries os h = .ok h' ∧ Ext h h' ∧ (∀ o ∈ os, ∀ f, ShowsField h0 whatever f o → ShowsField h' fixed f o) ∧
      (∀ o ∈ os, ShowsEntry h' fixed o) ∧ ∀ a, (∀ o ∈ os, ¬ Reach o a) → h'[a]? = h[a]?
  | [], h, _, _ => ⟨h, rfl, .refl h, by simp, by simp, by simp⟩
  | o :: os, h, hs, he => by
    obtain ⟨h1, e1, e2, e3, e4, e5⟩ := entry_fixes (hs o (by simp)) he
    obtain ⟨h2, f1, f2, f3, f4, f5⟩ := entries_fixes (os := os) (fun o ho => hs o (by simp [ho])) (he.trans e2)
    refine ⟨h2, by simp [fixEntries, e1, f1], e2.trans f2, ?_, ?_, ?_⟩
    · intro x hx f hf
      rcases List.mem_cons.1 hx with rfl | hx
      · obtain ⟨a, g1, g2⟩ := e3 f hf
        exact ⟨a, g1.mono f2 fixed_spec, g2⟩
      · exact f3 x hx f hf
    · intro x hx
      rcases List.mem_cons.1 hx with rfl | hx
      · exact e4.mono f2 fixed_spec
      · exact f4 x hx
    · intro a ha
      rw [f5 a fun o ho => ha o (by simp [ho]), e5 a (ha o (by simp))]

theorem spec_fixes {h0 : Heap} : ∀ {ss : List (List Obj)} {h : Heap}, (∀ s ∈ ss, ∀ o ∈ s, ShowsEntry h0 whatever o) → Ext h0 h →
    ∃ h', fixSpec ss h = .ok h' ∧ Ext h h' ∧ (∀ s ∈ ss, ∀ o ∈ s, ∀ f, ShowsField h0 whatever f o → ShowsField h' fixed f o) ∧
      (∀ s ∈ ss, ∀ o ∈ s, ShowsEntry h' fixed o) ∧ ∀ a, (∀ s ∈ ss, ∀ o ∈ s, ¬ Reach o a) → h'[a]? = h[a]?
  | [], h, _, _ => ⟨h, rfl, .refl h, by simp, by simp, by simp⟩
  | s :: ss, h, hs, he => by
    obtain ⟨h1, e1, e2, e3, e4, e5⟩ := entries_fixes (hs s (by simp)) he
    obtain ⟨h2, f1, f2, f3, f4, f5⟩ := spec_fixes (ss := ss) (fun o ho => hs o (by simp [ho])) (he.trans e2)
    refine ⟨h2, by simp [fixSpec, e1, f1], e2.trans f2, ?_, ?_, ?_⟩
    · intro x hx o ho f hf
      rcases List.mem_cons.1 hx with rfl | hx
      · obtain ⟨a, g1, g2⟩ := e3 o ho f hf
        exact ⟨a, g1.mono f2 fixed_spec, g2⟩
      · exact f3 x hx o ho f hf
    · intro x hx o ho
      rcases List.mem_cons.1 hx with rfl | hx
      · exact (e4 o ho).mono f2 fixed_spec
      · exact f4 x hx o ho
    · intro a ha
      rw [f5 a fun o ho => ha o (by simp [ho]), e5 a (ha s (by simp))]

theorem spec_again {h : Heap} : ∀ {ss : List (List Obj)}, (∀ s ∈ ss, ∀ o ∈ s, ShowsEntry h fixed o) → fixSpec ss h = .ok h
  | [], _ => rfl
  | s :: ss, hs => by
    have : ∀ os : List Obj, (∀ o ∈ os, ShowsEntry h fixed o) → fixEntries os h = .ok h := by
      intro os
      induction os with
      | nil => intro _; rfl
      | cons o os ih =>
        intro ho
        have h1 : fixEntry o h = .ok h := by
          rcases ho o (by simp) with rfl | ⟨f, a, g1, rfl⟩
          · rfl
          · exact chain_again g1
        simp only [fixEntries, h1]
        exact ih fun o h => ho o (by simp [h])
    simp only [fixSpec, this s (hs s (by simp))]
    exact spec_again fun s h => hs s (by simp [h])

theorem spec_entries {h : Heap} {ok : Nat → Obj → Prop} {fs : List Member} {os : List Obj} (hs : ShowsSpec h ok fs os) :
    ∀ o ∈ os, ShowsEntry h ok o := by
  intro o ho
  obtain ⟨n, hn⟩ := List.mem_iff_getElem?.1 ho
  rcases hs.other n o hn with rfl | ⟨f, hf, hid⟩
  · exact .inl rfl
  · obtain ⟨m, h1, o', h2, h3⟩ := hs.field f hf
    have : m = n := by omega
    subst this
    rw [hn] at h2
    cases h2
    exact .inr ⟨f, h3⟩

/-- C47: given the `thrift_spec`s of any structs, some of whose references may have been fixed before, `fix_spec` succeeds; afterwards
every reference in them, at any depth of lists, sets and maps, is the class with its `thrift_spec`. Lists that are not part of them
are untouched, no list is added or removed, and of a list that is part only the second element changes. Running it again changes
nothing. -/
theorem fix_spec_exact {ss : List (List Obj)} {fss : List (List Member)} {h : Heap}
    (hs : List.Forall₂ (ShowsSpec h whatever) fss ss) :
    ∃ h', fixSpec ss h = .ok h' ∧ List.Forall₂ (ShowsSpec h' fixed) fss ss ∧ fixSpec ss h' = .ok h' ∧ h'.length = h.length ∧
      (∀ a : Nat, (∀ s ∈ ss, ∀ o ∈ s, ¬ Reach o a) → h'[a]? = h[a]?) ∧
      ∀ a : Nat, h'[a]? = h[a]? ∨ ∃ (c : Nat) (x : Obj), h[a]? = some [Obj.cls c, x] ∧ h'[a]? = some [Obj.cls c, Obj.spec c] := by
  have hent : ∀ s ∈ ss, ∀ o ∈ s, ShowsEntry h whatever o := by
    intro s hs'
    induction hs with
    | nil => simp at hs'
    | cons h1 _ ih =>
      rcases List.mem_cons.1 hs' with rfl | hs'
      · exact spec_entries h1
      · exact ih hs'
  obtain ⟨h', e1, e2, e3, e4, e5⟩ := spec_fixes hent (.refl h)
  refine ⟨h', e1, ?_, spec_again e4, e2.1, e5, e2.2⟩
  clear e1 e4 e5 hent
  induction hs with
  | nil => exact .nil
  | @cons fs s fss ss h1 _ ih =>
    refine .cons ⟨fun f hf => ?_, h1.other, h1.last⟩ (ih fun s hs => e3 s (by simp [hs]))
    obtain ⟨n, g1, o, g2, g3⟩ := h1.field f hf
    exact ⟨n, g1, o, g2, e3 s (by simp) o (List.mem_of_getElem? g2) f g3⟩

/-! ## What the compiler writes -/

/-- The heap has grown. -/
def Grows (h h' : Heap) : Prop := ∃ l, h' = h ++ l

theorem _root_.Thrift.Spec.Recursive.Shows.grow {h h' : Heap} {ok : Nat → Obj → Prop} (e : Grows h h') {t : FType} {o : Obj} (hs : Shows h ok t o) : Shows h' ok t o := by
  obtain ⟨l, rfl⟩ := e
  induction hs with
  | base b => exact .base b
  | @struct a c x h1 h2 =>
    refine .struct ?_ h2
    rw [List.getElem?_append_left (List.getElem?_eq_some_iff.1 h1).1]
    exact h1
  | list _ ih => exact .list ih
  | set _ ih => exact .set ih
  | map _ _ ih ih' => exact .map ih ih'

theorem Grows.refl (h : Heap) : Grows h h := ⟨[], by simp⟩
theorem Grows.trans {h h' h'' : Heap} (e : Grows h h') (e' : Grows h' h'') : Grows h h'' := by
  obtain ⟨l, rfl⟩ := e
  obtain ⟨l', rfl⟩ := e'
  exact ⟨l ++ l', by simp⟩

theorem specArgs_shows : ∀ (t : FType) (h : Heap), Grows h (specArgs t h).2 ∧ Shows (specArgs t h).2 fresh t (specArgs t h).1
  | .base b, h => ⟨.refl h, .base b⟩
  | .struct c, h => ⟨⟨_, rfl⟩, .struct (x := .none) (by simp [specArgs]) rfl⟩
  | .list i e, h => ⟨(specArgs_shows e h).1, .list (specArgs_shows e h).2⟩
  | .set i e, h => ⟨(specArgs_shows e h).1, .set (specArgs_shows e h).2⟩
  | .map i k v, h =>
    have h1 := specArgs_shows k h
    have h2 := specArgs_shows v (specArgs k h).2
    ⟨h1.1.trans h2.1, .map (h1.2.grow h2.1) h2.2⟩

theorem specField_shows (f : Member) (h : Heap) : Grows h (specField f h).2 ∧ ShowsField (specField f h).2 fresh f (specField f h).1 :=
  ⟨(specArgs_shows f.type h).1, _, (specArgs_shows f.type h).2, rfl⟩

theorem specEntries_shows : ∀ (fs : List Member) (pos : Nat) (h : Heap), (∀ f ∈ fs, (pos : Int) ≤ f.id) → fs.Pairwise (fun f g => f.id < g.id) →
    let r := specEntries pos fs h
    Grows h r.2 ∧ (∀ f ∈ fs, ∃ n : Nat, f.id = (pos + n : Nat) ∧ ∃ o, r.1[n]? = some o ∧ ShowsField r.2 fresh f o) ∧
      (∀ (n : Nat) (o : Obj), r.1[n]? = some o → o = .none ∨ ∃ f ∈ fs, f.id = (pos + n : Nat)) ∧ (r.1 = [] ∨ ∃ f ∈ fs, f.id + 1 = (pos + r.1.length : Nat))
  | [], pos, h, _, _ => ⟨.refl h, by simp, by simp [specEntries], .inl rfl⟩
  | f :: fs, pos, h, hpos, hord => by
    obtain ⟨o1, o2⟩ := List.pairwise_cons.1 hord
    obtain ⟨g1, g2⟩ := specField_shows f h
    have hf := hpos f (by simp)
    obtain ⟨i1, i2, i3, i4⟩ := specEntries_shows fs (f.id.toNat + 1) (specField f h).2 (fun g hg => by have := o1 g hg; omega) o2
    have hlen : (List.replicate (f.id.toNat - pos) Obj.none).length = f.id.toNat - pos := by simp
    have get : ∀ n, (List.replicate (f.id.toNat - pos) Obj.none ++ (specField f h).1 :: (specEntries (f.id.toNat + 1) fs (specField f h).2).1)[n]? =
        if n < f.id.toNat - pos then some .none else if n = f.id.toNat - pos then some (specField f h).1
        else (specEntries (f.id.toNat + 1) fs (specField f h).2).1[n - (f.id.toNat - pos) - 1]? := by
      intro n
      split
      · rw [List.getElem?_append_left (by omega)]
        simp_all
      · rw [List.getElem?_append_right (by omega), hlen]
        split
        · simp_all
        · obtain ⟨k, hk⟩ : ∃ k, n - (f.id.toNat - pos) = k + 1 := ⟨n - (f.id.toNat - pos) - 1, by omega⟩
          rw [hk]
          simp
    simp only [specEntries]
    refine ⟨g1.trans i1, ?_, ?_, .inr ?_⟩
    · intro g hg
      rcases List.mem_cons.1 hg with rfl | hg
      · refine ⟨g.id.toNat - pos, by omega, (specField g h).1, by rw [get]; simp, ?_⟩
        obtain ⟨a, k1, k2⟩ := g2
        exact ⟨a, k1.grow i1, k2⟩
      · obtain ⟨n, k1, o, k2, k3⟩ := i2 g hg
        refine ⟨f.id.toNat - pos + 1 + n, by omega, o, ?_, k3⟩
        rw [get, if_neg (by omega), if_neg (by omega), show f.id.toNat - pos + 1 + n - (f.id.toNat - pos) - 1 = n by omega]
        exact k2
    · intro n o hn
      rw [get] at hn
      split at hn
      · exact .inl (by simpa using hn.symm)
      · split at hn
        · exact .inr ⟨f, by simp, by omega⟩
        · rcases i3 _ _ hn with h1 | ⟨g, h1, h2⟩
          · exact .inl h1
          · exact .inr ⟨g, by simp [h1], by omega⟩
    · rcases i4 with h1 | ⟨g, h1, h2⟩
      · refine ⟨f, by simp, ?_⟩
        simp [h1]
        omega
      · refine ⟨g, by simp [h1], ?_⟩
        simp
        omega

/-- The fields of a struct in the order of their ids, none of which is negative. -/
def Sorted (fs : List Member) : Prop := (∀ f ∈ fs, 0 ≤ f.id) ∧ fs.Pairwise (fun f g => f.id < g.id)

/-- C58, partial: the `thrift_spec` of a struct whose ids are not negative lists every field at the index that is its id, and nothing
else. What is missing: structs with negative ids; it is false for them, see `generated_spec_negative`. -/
theorem thrift_spec_partial {fs : List Member} (hf : Sorted fs) (h : Heap) :
    Grows h (thriftSpec fs h).2 ∧ ShowsSpec (thriftSpec fs h).2 fresh fs (thriftSpec fs h).1 := by
  cases fs with
  | nil => exact ⟨.refl h, by simp, by simp [thriftSpec], .inl rfl⟩
  | cons f fs =>
    obtain ⟨h1, h2, h3, h4⟩ := specEntries_shows (f :: fs) 0 h (fun g hg => by simpa using hf.1 g hg) hf.2
    have e : thriftSpec (f :: fs) h = specEntries 0 (f :: fs) h := by simp [thriftSpec, hf.1 f (by simp)]
    rw [e]
    exact ⟨h1, by simpa using h2, by simpa using h3, by simpa using h4⟩

theorem thriftSpecs_shows : ∀ {fss : List (List Member)}, (∀ fs ∈ fss, Sorted fs) → ∀ h,
    Grows h (thriftSpecs fss h).2 ∧ List.Forall₂ (ShowsSpec (thriftSpecs fss h).2 fresh) fss (thriftSpecs fss h).1
  | [], _, h => ⟨.refl h, .nil⟩
  | fs :: fss, hf, h => by
    obtain ⟨g1, g2⟩ := thrift_spec_partial (hf fs (by simp)) h
    obtain ⟨i1, i2⟩ := thriftSpecs_shows (fss := fss) (fun s hs => hf s (by simp [hs])) (thriftSpec fs h).2
    refine ⟨g1.trans i1, .cons ⟨fun f hf' => ?_, g2.other, g2.last⟩ i2⟩
    obtain ⟨n, k1, o, k2, a, k3, k4⟩ := g2.field f hf'
    exact ⟨n, k1, o, k2, a, k3.grow i1, k4⟩

/-- C47: the module that the compiler writes for structs whose ids are not negative: before `fix_spec` every reference is
`[Class, None]`, `fix_spec` succeeds, and afterwards the `thrift_spec` of each struct has at the index `id` the entry of each field, with
all references fixed, and `None` everywhere else. What was in the heap before is untouched. -/
theorem generated_spec {fss : List (List Member)} (hf : ∀ fs ∈ fss, Sorted fs) (h : Heap) :
    List.Forall₂ (ShowsSpec (thriftSpecs fss h).2 fresh) fss (thriftSpecs fss h).1 ∧
    ∃ h', fixSpec (thriftSpecs fss h).1 (thriftSpecs fss h).2 = .ok h' ∧ List.Forall₂ (ShowsSpec h' fixed) fss (thriftSpecs fss h).1 ∧
      fixSpec (thriftSpecs fss h).1 h' = .ok h' := by
  obtain ⟨g1, g2⟩ := thriftSpecs_shows hf h
  refine ⟨g2, ?_⟩
  have weaken : ∀ {h : Heap} {t : FType} {o : Obj}, Shows h fresh t o → Shows h whatever t o := by
    intro h t o hs
    induction hs with
    | base b => exact .base b
    | struct h1 _ => exact .struct h1 trivial
    | list _ ih => exact .list ih
    | set _ ih => exact .set ih
    | map _ _ ih ih' => exact .map ih ih'
  obtain ⟨h', e1, e2, e3, -⟩ := fix_spec_exact (h := (thriftSpecs fss h).2) (g2.imp fun fs s hs =>
    (⟨fun f hf => by
      obtain ⟨n, k1, o, k2, a, k3, k4⟩ := hs.field f hf
      exact ⟨n, k1, o, k2, a, weaken k3, k4⟩, hs.other, hs.last⟩ : ShowsSpec _ whatever fs s))
  exact ⟨h', e1, e2, e3⟩

/-- C58 is false where the smallest id is negative (fields declared without an id get negative ones): the `thrift_spec` is empty, although
the struct has fields. -/
theorem generated_spec_negative {fs : List Member} {f : Member} (hf : fs.head? = some f) (hn : f.id < 0) (h : Heap) :
    thriftSpec fs h = ([], h) := by
  cases fs with
  | nil => simp at hf
  | cons g fs =>
    simp at hf
    subst hf
    simp [thriftSpec]
    omega

/-- A tree: `struct 0 { 1: list<map<i32, set<1>>> a, 3: 0 b }`, `struct 1 { 1: 0 up = 5 }`, before and after `fix_spec`. -/
def tree : List (List Member) := [[⟨1, [97], .list false (.map false (.base .i32) (.set true (.struct 1))), none⟩, ⟨3, [98], .struct 0, none⟩],
  [⟨1, [99], .struct 0, some 5⟩]]

example : (∀ fs ∈ tree, Sorted fs) ∧ (thriftSpecs tree []).2 = [[.cls 1, .none], [.cls 0, .none], [.cls 0, .none]] ∧
    fixSpec (thriftSpecs tree []).1 (thriftSpecs tree []).2 = .ok [[.cls 1, .spec 1], [.cls 0, .spec 0], [.cls 0, .spec 0]] := by
  refine ⟨by simp [tree, Sorted], rfl, ?_⟩
  have e : (thriftSpecs tree []).1 = [[.none, .tuple [.int 1, .int 15, .str [97],
      .tuple [.int 13, .tuple [.int Base.i32.code, .none, .int 14, .tuple [.int 12, .ref 0, .bool true], .bool false], .bool false], .none],
      .none, .tuple [.int 3, .int 12, .str [98], .ref 1, .none]], [.none, .tuple [.int 1, .int 12, .str [99], .ref 2, .int 5]]] := rfl
  rw [e, show (thriftSpecs tree []).2 = [[.cls 1, .none], [.cls 0, .none], [.cls 0, .none]] from rfl]
  have l15 := chain_list (c := 15) (.inl rfl)
  have l14 := chain_list (c := 14) (.inr rfl)
  simp [fixSpec, fixEntries, fixEntry, l15, l14, chain_map, chain_base, chain_struct, fixRef]

/-- C58: the type codes and arguments of the base types are the documented ones. -/
theorem spec_codes (t : FType) (b : Base) : t.code = typeId t ∧ b.arg = baseArg b := by
  constructor
  · cases t with
    | base b => cases b <;> rfl
    | _ => rfl
  · cases b <;> rfl

end Thrift.Recursive
