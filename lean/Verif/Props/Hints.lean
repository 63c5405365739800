import Verif.Spec.Hints
/-
Type hints: when what is read is what its annotation says.
-/

namespace Thrift.Hints
open Spec.Hints

/-! ## What is inside of what -/

theorem inside_iff {x o : Obj} : Inside x o ↔ x = o ∨ ∃ p ∈ parts o, Inside x p := by
  constructor
  · intro h
    cases h with
    | here => exact .inl rfl
    | part hp hi => exact .inr ⟨_, hp, hi⟩
  · rintro (rfl | ⟨p, hp, hi⟩)
    · exact .here
    · exact .part hp hi

theorem thawed_iff {o : Obj} : Thawed o ↔ ((∀ xs, o ≠ .tuple xs) ∧ ∀ xs, o ≠ .frozenset xs) ∧ ∀ p ∈ parts o, Thawed p := by
  constructor
  · intro h
    exact ⟨h o .here, fun p hp x hx => h x (.part hp hx)⟩
  · rintro ⟨h, hp⟩ x hx
    rcases inside_iff.mp hx with rfl | ⟨p, hm, hi⟩
    · exact h
    · exact hp p hm x hi

theorem valid_iff {S : Schema} {o : Obj} : Valid S o ↔
    (∀ s as, o = .inst s as → ∀ (i : Nat) f, (S.structs s).fields[i]? = some f → f.required = true → as[i]? ≠ some .none) ∧ ∀ p ∈ parts o, Valid S p := by
  constructor
  · intro h
    exact ⟨fun s as e => h s as (e ▸ .here), fun p hp s as hi => h s as (.part hp hi)⟩
  · rintro ⟨h, hp⟩ s as hi
    rcases inside_iff.mp hi with e | ⟨p, hm, hi⟩
    · exact h s as e.symm
    · exact hp p hm s as hi

theorem sound_iff {S : Schema} {o : Obj} : Sound S o ↔
    (∀ s as, o = .inst s as → ∀ (i : Nat) f a, (S.structs s).fields[i]? = some f → as[i]? = some a → Conforms (memberHint f) a) ∧
      ∀ p ∈ parts o, Sound S p := by
  constructor
  · intro h
    exact ⟨fun s as e => h s as (e ▸ .here), fun p hp s as hi => h s as (.part hp hi)⟩
  · rintro ⟨h, hp⟩ s as hi
    rcases inside_iff.mp hi with e | ⟨p, hm, hi⟩
    · exact h s as e.symm
    · exact hp p hm s as hi

/-! ## The classes of what is made -/

theorem made_not_none {S : Schema} {t : Ty} {o : Obj} (h : Made S t o) : o ≠ .none := by
  induction h <;> first | assumption | (intro h; cases h)

/-- Without `Optional`, an annotation of a member does not admit `None`. -/
theorem none_not_conforms : ∀ {t : Ty}, Voidless t → ¬ Conforms (hint t) .none
  | .void, h => fun _ => h
  | .alias t, h => none_not_conforms (t := t) h
  | .bool, _ | .string, _ | .binary, _ | .uuid, _ | .enum _, _ | .struct _, _ => by rintro ⟨_, h⟩; cases h
  | .int _, _ => by rintro (⟨_, h⟩ | ⟨_, h⟩ | ⟨_, _, h⟩) <;> cases h
  | .double, _ => by rintro (⟨_, h⟩ | ⟨_, h⟩ | ⟨_, h⟩ | ⟨_, _, h⟩) <;> cases h
  | .list _ _, _ | .set _ _, _ => by rintro ⟨_, h, _⟩; cases h
  | .map _ _ _, _ => by rintro ⟨_, h | h, _⟩ <;> cases h

theorem mem_pairs {ps : List (Obj × Obj)} {x : Obj} : x ∈ ps.flatMap (fun p => [p.1, p.2]) ↔ ∃ p ∈ ps, x = p.1 ∨ x = p.2 := by
  simp only [List.mem_flatMap, List.mem_cons, List.not_mem_nil, or_false]

/-- A scalar: no parts -/
theorem leaf {S : Schema} {h : Hint} {o : Obj} (hc : Conforms h o) (hp : parts o = []) (hi : ∀ s as, o ≠ .inst s as) (ht : ∀ xs, o ≠ .tuple xs)
    (hf : ∀ xs, o ≠ .frozenset xs) : (Conforms h o ∧ Sound S o) ↔ (Valid S o ∧ Thawed o) := by
  refine ⟨fun _ => ⟨valid_iff.mpr ⟨fun s as e => absurd e (hi s as), by simp [hp]⟩, thawed_iff.mpr ⟨⟨ht, hf⟩, by simp [hp]⟩⟩,
    fun _ => ⟨hc, sound_iff.mpr ⟨fun s as e => absurd e (hi s as), by simp [hp]⟩⟩⟩

/-- An object is what its annotation says, and so are the attributes of all instances in it, if and only if `validate()` accepts all these instances and
there is no tuple and no frozen set. -/
theorem made_iff {S : Schema} (hS : NoVoids S) {t : Ty} {o : Obj} (h : Made S t o) : (Conforms (hint t) o ∧ Sound S o) ↔ (Valid S o ∧ Thawed o) := by
  induction h with
  | bool b => exact leaf ⟨b, rfl⟩ rfl nofun nofun nofun
  | int k i => exact leaf (.inl ⟨i, rfl⟩) rfl nofun nofun nofun
  | double d => exact leaf (.inl ⟨d, rfl⟩) rfl nofun nofun nofun
  | string b => exact leaf ⟨b, rfl⟩ rfl nofun nofun nofun
  | binary b => exact leaf ⟨b, rfl⟩ rfl nofun nofun nofun
  | uuid b => exact leaf ⟨b, rfl⟩ rfl nofun nofun nofun
  | enum e i _ => exact leaf ⟨i, rfl⟩ rfl nofun nofun nofun
  | list t xs _ ih =>
    rw [sound_iff, valid_iff, thawed_iff]
    constructor
    · rintro ⟨⟨ys, e, hc⟩, _, hs⟩
      cases e
      exact ⟨⟨nofun, fun p hp => ((ih p hp).mp ⟨hc p hp, hs p hp⟩).1⟩, ⟨nofun, nofun⟩, fun p hp => ((ih p hp).mp ⟨hc p hp, hs p hp⟩).2⟩
    · rintro ⟨⟨_, hv⟩, _, ht⟩
      exact ⟨⟨xs, rfl, fun p hp => ((ih p hp).mpr ⟨hv p hp, ht p hp⟩).1⟩, nofun, fun p hp => ((ih p hp).mpr ⟨hv p hp, ht p hp⟩).2⟩
  | set t xs _ ih =>
    rw [sound_iff, valid_iff, thawed_iff]
    constructor
    · rintro ⟨⟨ys, e, hc⟩, _, hs⟩
      cases e
      exact ⟨⟨nofun, fun p hp => ((ih p hp).mp ⟨hc p hp, hs p hp⟩).1⟩, ⟨nofun, nofun⟩, fun p hp => ((ih p hp).mp ⟨hc p hp, hs p hp⟩).2⟩
    · rintro ⟨⟨_, hv⟩, _, ht⟩
      exact ⟨⟨xs, rfl, fun p hp => ((ih p hp).mpr ⟨hv p hp, ht p hp⟩).1⟩, nofun, fun p hp => ((ih p hp).mpr ⟨hv p hp, ht p hp⟩).2⟩
  | tuple t xs _ _ =>
    constructor
    · rintro ⟨⟨ys, e, _⟩, _⟩
      cases e
    · rintro ⟨_, ht⟩
      exact absurd rfl ((ht _ .here).1 xs)
  | frozenset t xs _ _ =>
    constructor
    · rintro ⟨⟨ys, e, _⟩, _⟩
      cases e
    · rintro ⟨_, ht⟩
      exact absurd rfl ((ht _ .here).2 xs)
  | dict k v ps _ _ ihk ihv =>
    rw [sound_iff, valid_iff, thawed_iff]
    constructor
    · rintro ⟨⟨ys, e, hc⟩, _, hs⟩
      have e : ys = ps := by rcases e with e | e <;> cases e; rfl
      subst e
      refine ⟨⟨nofun, fun x hx => ?_⟩, ⟨nofun, nofun⟩, fun x hx => ?_⟩ <;>
        obtain ⟨p, hp, rfl | rfl⟩ := mem_pairs.mp hx
      · exact ((ihk p hp).mp ⟨(hc p hp).1, hs _ hx⟩).1
      · exact ((ihv p hp).mp ⟨(hc p hp).2, hs _ hx⟩).1
      · exact ((ihk p hp).mp ⟨(hc p hp).1, hs _ hx⟩).2
      · exact ((ihv p hp).mp ⟨(hc p hp).2, hs _ hx⟩).2
    · rintro ⟨⟨_, hv⟩, _, ht⟩
      have m1 : ∀ p ∈ ps, p.1 ∈ parts (.dict ps) := fun p hp => mem_pairs.mpr ⟨p, hp, .inl rfl⟩
      have m2 : ∀ p ∈ ps, p.2 ∈ parts (.dict ps) := fun p hp => mem_pairs.mpr ⟨p, hp, .inr rfl⟩
      refine ⟨⟨ps, .inl rfl, fun p hp => ⟨((ihk p hp).mpr ⟨hv _ (m1 p hp), ht _ (m1 p hp)⟩).1, ((ihv p hp).mpr ⟨hv _ (m2 p hp), ht _ (m2 p hp)⟩).1⟩⟩,
        nofun, fun x hx => ?_⟩
      obtain ⟨p, hp, rfl | rfl⟩ := mem_pairs.mp hx
      · exact ((ihk p hp).mpr ⟨hv _ hx, ht _ hx⟩).2
      · exact ((ihv p hp).mpr ⟨hv _ hx, ht _ hx⟩).2
  | frozendict k v ps _ _ ihk ihv =>
    rw [sound_iff, valid_iff, thawed_iff]
    constructor
    · rintro ⟨⟨ys, e, hc⟩, _, hs⟩
      have e : ys = ps := by rcases e with e | e <;> cases e; rfl
      subst e
      refine ⟨⟨nofun, fun x hx => ?_⟩, ⟨nofun, nofun⟩, fun x hx => ?_⟩ <;>
        obtain ⟨p, hp, rfl | rfl⟩ := mem_pairs.mp hx
      · exact ((ihk p hp).mp ⟨(hc p hp).1, hs _ hx⟩).1
      · exact ((ihv p hp).mp ⟨(hc p hp).2, hs _ hx⟩).1
      · exact ((ihk p hp).mp ⟨(hc p hp).1, hs _ hx⟩).2
      · exact ((ihv p hp).mp ⟨(hc p hp).2, hs _ hx⟩).2
    · rintro ⟨⟨_, hv⟩, _, ht⟩
      have m1 : ∀ p ∈ ps, p.1 ∈ parts (.frozendict ps) := fun p hp => mem_pairs.mpr ⟨p, hp, .inl rfl⟩
      have m2 : ∀ p ∈ ps, p.2 ∈ parts (.frozendict ps) := fun p hp => mem_pairs.mpr ⟨p, hp, .inr rfl⟩
      refine ⟨⟨ps, .inr rfl, fun p hp => ⟨((ihk p hp).mpr ⟨hv _ (m1 p hp), ht _ (m1 p hp)⟩).1, ((ihv p hp).mpr ⟨hv _ (m2 p hp), ht _ (m2 p hp)⟩).1⟩⟩,
        nofun, fun x hx => ?_⟩
      obtain ⟨p, hp, rfl | rfl⟩ := mem_pairs.mp hx
      · exact ((ihk p hp).mpr ⟨hv _ hx, ht _ hx⟩).2
      · exact ((ihv p hp).mpr ⟨hv _ hx, ht _ hx⟩).2
  | inst s as hl hm ih =>
    have none_ok : ∀ {S : Schema}, Sound S .none ∧ Valid S .none ∧ Thawed .none := fun {S} =>
      ⟨sound_iff.mpr ⟨nofun, nofun⟩, valid_iff.mpr ⟨nofun, nofun⟩, thawed_iff.mpr ⟨⟨nofun, nofun⟩, nofun⟩⟩
    have at_ : ∀ a ∈ as, ∃ (i : Nat) (f : Field), (S.structs s).fields[i]? = some f ∧ as[i]? = some a := by
      intro a ha
      obtain ⟨i, hi, e⟩ := List.getElem_of_mem ha
      exact ⟨i, _, List.getElem?_eq_getElem (hl ▸ hi), by rw [List.getElem?_eq_getElem hi, e]⟩
    rw [sound_iff, valid_iff, thawed_iff]
    constructor
    · rintro ⟨_, hc, hs⟩
      have hc := hc s as rfl
      have part : ∀ p ∈ as, Valid S p ∧ Thawed p := by
        intro p hp
        obtain ⟨i, f, hf, ha⟩ := at_ p hp
        by_cases hn : p = .none
        · subst hn; exact none_ok.2
        · refine (ih i f p hf ha hn).mp ⟨?_, hs p hp⟩
          have := hc i f p hf ha
          rw [memberHint] at this
          split at this
          · exact this
          · rcases this with e | h
            · exact absurd e hn
            · exact h
      refine ⟨⟨?_, fun p hp => (part p hp).1⟩, ⟨nofun, nofun⟩, fun p hp => (part p hp).2⟩
      rintro s' as' e i f hf hr hn
      cases e
      have := hc i f _ hf hn
      rw [memberHint, if_pos hr] at this
      exact none_not_conforms (hS s f (List.mem_of_getElem? hf)) this
    · rintro ⟨⟨hv, hvp⟩, _, ht⟩
      have part : ∀ (i : Nat) f a, (S.structs s).fields[i]? = some f → as[i]? = some a → a ≠ .none → Conforms (hint f.ty) a ∧ Sound S a := by
        intro i f a hf ha hn
        exact (ih i f a hf ha hn).mpr ⟨hvp a (List.mem_of_getElem? ha), ht a (List.mem_of_getElem? ha)⟩
      refine ⟨⟨as, rfl⟩, ?_, ?_⟩
      · rintro s' as' e i f a hf ha
        cases e
        rw [memberHint]
        by_cases hn : a = .none
        · subst hn
          split
          · rename_i hr
            exact absurd ha (hv s as rfl i f hf hr)
          · exact .inl rfl
        · split
          · exact (part i f a hf ha hn).1
          · exact .inr (part i f a hf ha hn).1
      · intro p hp
        obtain ⟨i, f, hf, ha⟩ := at_ p hp
        by_cases hn : p = .none
        · subst hn; exact none_ok.1
        · exact (part i f p hf ha hn).2
  | alias t o _ ih => exact ih

/-! ## What is read is made -/

/-- What has been stored for the members so far -/
def Filled (S : Schema) (fs : List Field) (as : List Obj) : Prop :=
  as.length = fs.length ∧ ∀ (i : Nat) f a, fs[i]? = some f → as[i]? = some a → a ≠ .none → Made S f.ty a

theorem store_eq {S : Schema} {t : Ty} {v : Obj} (imm : Bool) (h : v ≠ .none → Made S t v) : store S imm t v = .ok v := by
  cases t <;> try rfl
  rename_i e
  by_cases hn : v = .none
  · subst hn; rfl
  · cases h hn
    rfl

theorem storeAll_eq {S : Schema} (imm : Bool) : ∀ {fs : List Field} {as : List Obj}, Filled S fs as → storeAll S imm fs as = .ok as
  | [], [], _ => rfl
  | [], _ :: _, h => by cases h.1
  | _ :: _, [], h => by cases h.1
  | f :: fs, a :: as, h => by
    have h1 : store S imm f.ty a = .ok a := store_eq imm (h.2 0 f a rfl rfl)
    have h2 : storeAll S imm fs as = .ok as :=
      storeAll_eq imm ⟨Nat.succ.inj h.1, fun i g b hg hb => h.2 (i + 1) g b hg hb⟩
    show (do let v ← store S imm f.ty a; let vs ← storeAll S imm fs as; Except.ok (v :: vs)) = _
    rw [h1, h2]; rfl

theorem defaults_filled {S : Schema} (hD : Defaults S) (s : Name) : Filled S (S.structs s).fields (defaults (S.structs s).fields) := by
  refine ⟨List.length_map _, fun i f a hf ha hn => ?_⟩
  rw [defaults, List.getElem?_map, hf] at ha
  cases ha
  dsimp only at hn ⊢
  cases hd : f.dflt with
  | none => rw [hd] at hn; exact absurd rfl hn
  | some d => exact hD s f (List.mem_of_getElem? hf) d hd

theorem filled_set {S : Schema} {fs : List Field} {as : List Obj} (h : Filled S fs as) {i : Nat} {f : Field} (hf : fs[i]? = some f) {v : Obj}
    (hv : Made S f.ty v) : Filled S fs (as.set i v) := by
  refine ⟨by rw [List.length_set]; exact h.1, fun j g a hg ha hn => ?_⟩
  rw [List.getElem?_set] at ha
  split at ha
  · rename_i e
    subst e
    rw [hf] at hg
    cases hg
    split at ha
    · cases ha; exact hv
    · cases ha
  · exact h.2 j g a hg ha hn

theorem ok_bind {α β : Type} {x : Except Exc α} {f : α → Except Exc β} {b : β} (h : (x >>= f) = .ok b) : ∃ a, x = .ok a ∧ f a = .ok b := by
  cases x with
  | error e => cases h
  | ok a => exact ⟨a, rfl, h⟩

mutual
theorem read_made {fast : Bool} {S : Schema} (hD : Defaults S) (hS : fast = false ∨ NoEnums S) :
    ∀ (t : Ty) (w : Wire) (o : Obj), (fast = false ∨ Enumless t) → read fast S t w = .ok o → Made S t o
  | .alias t, w, o, he, h => by
    rw [read] at h
    exact .alias t o (read_made hD hS t w o he h)
  | .bool, w, o, _, h => by
    cases w <;> simp only [read, Except.ok.injEq, reduceCtorEq] at h <;> (subst h; exact .bool _)
  | .int k, w, o, _, h => by
    cases w with
    | int k' i =>
      rw [read] at h
      split at h
      · cases h; exact .int _ _
      · cases h
    | _ => simp only [read, reduceCtorEq] at h
  | .double, w, o, _, h => by
    cases w <;> simp only [read, Except.ok.injEq, reduceCtorEq] at h <;> (subst h; exact .double _)
  | .string, w, o, _, h => by
    cases w <;> simp only [read, Except.ok.injEq, reduceCtorEq] at h <;> (subst h; exact .string _)
  | .binary, w, o, _, h => by
    cases w <;> simp only [read, Except.ok.injEq, reduceCtorEq] at h <;> (subst h; exact .binary _)
  | .uuid, w, o, _, h => by
    cases w <;> simp only [read, Except.ok.injEq, reduceCtorEq] at h <;> (subst h; exact .uuid _)
  | .void, w, o, _, h => by
    cases w <;> simp only [read, reduceCtorEq] at h
  | .enum e, w, o, he, h => by
    have hf : fast = false := he.resolve_right id
    cases w with
    | int k' i =>
      cases k' with
      | i32 =>
        rw [read, hf] at h
        change call S e i = _ at h
        rw [call] at h
        split at h
        · rename_i hi
          cases h; exact .enum e i hi
        · cases h
      | _ => simp only [read, reduceCtorEq] at h
    | _ => simp only [read, reduceCtorEq] at h
  | .list fr t, w, o, he, h => by
    cases w with
    | list xs =>
      rw [read] at h
      obtain ⟨ys, h1, h2⟩ := ok_bind h
      have hm := readAll_made hD hS t xs ys he h1
      cases fr <;> cases h2
      · exact .list t ys hm
      · exact .tuple t ys hm
    | _ => simp only [read, reduceCtorEq] at h
  | .set fr t, w, o, he, h => by
    cases w with
    | set xs =>
      rw [read] at h
      obtain ⟨ys, h1, h2⟩ := ok_bind h
      have hm := readAll_made hD hS t xs ys he h1
      cases fr <;> cases h2
      · exact .set t ys hm
      · exact .frozenset t ys hm
    | _ => simp only [read, reduceCtorEq] at h
  | .map fr k v, w, o, he, h => by
    cases w with
    | map ps =>
      rw [read] at h
      obtain ⟨qs, h1, h2⟩ := ok_bind h
      have hm := readPairs_made hD hS k v ps qs (he.imp id And.left) (he.imp id And.right) h1
      cases fr <;> cases h2
      · exact .dict k v qs hm.1 hm.2
      · exact .frozendict k v qs hm.1 hm.2
    | _ => simp only [read, reduceCtorEq] at h
  | .struct s, w, o, _, h => by
    cases w with
    | struct ws =>
      rw [read] at h
      split at h
      · obtain ⟨as, h1, h2⟩ := ok_bind h
        obtain ⟨bs, h2, h3⟩ := ok_bind h2
        have hm := readFields_made hD hS s ws _ as (defaults_filled hD s) h1
        rw [storeAll_eq true hm] at h2
        cases h2; cases h3
        exact .inst s as hm.1 hm.2
      · obtain ⟨as, h1, h2⟩ := ok_bind h
        obtain ⟨bs, h2, h3⟩ := ok_bind h2
        rw [storeAll_eq false (defaults_filled hD s)] at h1
        cases h1
        have hm := readFields_made hD hS s ws _ bs (defaults_filled hD s) h2
        cases h3
        exact .inst s bs hm.1 hm.2
    | _ => simp only [read, reduceCtorEq] at h
termination_by t w => (sizeOf w, sizeOf t)

theorem readAll_made {fast : Bool} {S : Schema} (hD : Defaults S) (hS : fast = false ∨ NoEnums S) (t : Ty) :
    ∀ (ws : List Wire) (os : List Obj), (fast = false ∨ Enumless t) → readAll fast S t ws = .ok os → ∀ o ∈ os, Made S t o
  | [], os, _, h => by
    rw [readAll] at h; cases h; exact nofun
  | w :: ws, os, he, h => by
    rw [readAll] at h
    obtain ⟨y, h1, h⟩ := ok_bind h
    obtain ⟨ys, h2, h⟩ := ok_bind h
    cases h
    intro o ho
    rcases List.mem_cons.mp ho with rfl | ho
    · exact read_made hD hS t w o he h1
    · exact readAll_made hD hS t ws ys he h2 o ho
termination_by ws => (sizeOf ws, 0)

theorem readPairs_made {fast : Bool} {S : Schema} (hD : Defaults S) (hS : fast = false ∨ NoEnums S) (k v : Ty) :
    ∀ (ws : List (Wire × Wire)) (os : List (Obj × Obj)), (fast = false ∨ Enumless k) → (fast = false ∨ Enumless v) → readPairs fast S k v ws = .ok os →
      (∀ p ∈ os, Made S k p.1) ∧ ∀ p ∈ os, Made S v p.2
  | [], os, _, _, h => by
    rw [readPairs] at h; cases h; exact ⟨nofun, nofun⟩
  | (a, b) :: ws, os, hk, hv, h => by
    rw [readPairs] at h
    obtain ⟨x, h1, h⟩ := ok_bind h
    obtain ⟨y, h2, h⟩ := ok_bind h
    obtain ⟨ps, h3, h⟩ := ok_bind h
    cases h
    have hx := read_made hD hS k a x hk h1
    have hy := read_made hD hS v b y hv h2
    have hp := readPairs_made hD hS k v ws ps hk hv h3
    constructor <;> intro p hm <;> rcases List.mem_cons.mp hm with rfl | hm
    · exact hx
    · exact hp.1 p hm
    · exact hy
    · exact hp.2 p hm
termination_by ws => (sizeOf ws, 0)

theorem readFields_made {fast : Bool} {S : Schema} (hD : Defaults S) (hS : fast = false ∨ NoEnums S) (s : Name) :
    ∀ (ws : List (Int × Wire)) (as bs : List Obj), Filled S (S.structs s).fields as → readFields fast S (S.structs s) ws as = .ok bs →
      Filled S (S.structs s).fields bs
  | [], as, bs, hf, h => by
    rw [readFields] at h; cases h; exact hf
  | (fid, w) :: ws, as, bs, hf, h => by
    rw [readFields] at h
    split at h
    · exact readFields_made hD hS s ws as bs hf h
    · rename_i i _
      split at h
      · exact readFields_made hD hS s ws as bs hf h
      · rename_i f hg
        split at h
        · obtain ⟨v, h1, h⟩ := ok_bind h
          obtain ⟨v', h2, h3⟩ := ok_bind h
          have hm := read_made hD hS f.ty w v (hS.imp id fun hs => hs s f (List.mem_of_getElem? hg)) h1
          have e : v' = v := by
            rw [assign] at h2
            split at h2
            · cases h2; rfl
            · rw [store_eq false fun _ => hm] at h2; cases h2; rfl
          subst e
          exact readFields_made hD hS s ws _ bs (filled_set hf hg hm) h3
        · exact readFields_made hD hS s ws as bs hf h
termination_by ws => (sizeOf ws, 0)
end

/-! ## The annotations -/

/-- What generated code reads is what its annotation says, and so are the attributes of all instances in it, if and only if `validate()` accepts these
instances and no list or set in it is immutable. The full claim is that it always is. What is missing is false: see `required_absent`, `frozen_list` and
`frozen_set`. -/
theorem read_hints_partial {S : Schema} (hD : Defaults S) (hV : NoVoids S) {t : Ty} {w : Wire} {o : Obj} (h : read false S t w = .ok o) :
    (Conforms (hint t) o ∧ Sound S o) ↔ (Valid S o ∧ Thawed o) :=
  made_iff hV (read_made hD (.inl rfl) t w o (.inl rfl) h)

/-- The same of what the C extension reads, if there are no enums. What is missing is false: see `fast_element`, `fast_alias` and `fast_immutable`. -/
theorem fast_hints_partial {S : Schema} (hD : Defaults S) (hV : NoVoids S) (hE : NoEnums S) {t : Ty} (he : Enumless t) {w : Wire} {o : Obj}
    (h : read true S t w = .ok o) : (Conforms (hint t) o ∧ Sound S o) ↔ (Valid S o ∧ Thawed o) :=
  made_iff hV (read_made hD (.inr hE) t w o (.inr he) h)

theorem readFields_skip {fast : Bool} {S : Schema} {d : Struct} {fid : Int} {w : Wire} (h : ∀ f ∈ d.fields, f.fid = fid → w.ty ≠ f.ty.wire) (ws : List (Int × Wire)) :
    ∀ (pre : List (Int × Wire)) (as : List Obj), readFields fast S d (pre ++ (fid, w) :: ws) as = readFields fast S d (pre ++ ws) as
  | [], as => by
    rw [List.nil_append, List.nil_append, readFields]
    cases hp : position d.fields fid with
    | none => rfl
    | some i =>
      rw [position, List.findIdx?_eq_some_iff_getElem] at hp
      obtain ⟨hi, he, _⟩ := hp
      simp only [List.getElem?_eq_getElem hi]
      rw [if_neg (h _ (List.getElem_mem hi) (by simpa using he))]
  | (fid', w') :: pre, as => by
    have ih := readFields_skip (fast := fast) (S := S) h ws pre
    rw [List.cons_append, List.cons_append, readFields, readFields]
    simp only [ih]

/-- A field whose id is unknown, or whose wire type is not that of the member with its id, does not matter: nothing is assigned and nothing is raised. -/
theorem foreign_skipped {fast : Bool} {S : Schema} {s : Name} {fid : Int} {w : Wire} (h : ∀ f ∈ (S.structs s).fields, f.fid = fid → w.ty ≠ f.ty.wire)
    (pre ws : List (Int × Wire)) : read fast S (.struct s) (.struct (pre ++ (fid, w) :: ws)) = read fast S (.struct s) (.struct (pre ++ ws)) := by
  rw [read, read]
  simp only [readFields_skip h]

/-- What is read from nothing: the defaults -/
theorem read_empty {S : Schema} (hD : Defaults S) (fast : Bool) (s : Name) :
    read fast S (.struct s) (.struct []) = .ok (.inst s (defaults (S.structs s).fields)) := by
  rw [read]
  split
  · simp only [readFields, bind, Except.bind, storeAll_eq true (defaults_filled hD s)]
  · simp only [readFields, bind, Except.bind, storeAll_eq false (defaults_filled hD s)]

theorem defaults_at {fs : List Field} {i : Nat} {f : Field} (hf : fs[i]? = some f) (hd : f.dflt = none) : (defaults fs)[i]? = some .none := by
  rw [defaults, List.getElem?_map, hf, Option.map_some, hd]; rfl

/-- A required member that is not on the wire is `None`, without an exception, though its annotation is not `Optional`. -/
theorem required_absent {S : Schema} (hD : Defaults S) (hV : NoVoids S) (fast : Bool) {s : Name} {i : Nat} {f : Field}
    (hf : (S.structs s).fields[i]? = some f) (hr : f.required = true) (hd : f.dflt = none) :
    ∃ o, read fast S (.struct s) (.struct []) = .ok o ∧ ¬ Sound S o := by
  refine ⟨_, read_empty hD fast s, fun h => ?_⟩
  have := h s _ .here i f .none hf (defaults_at hf hd)
  rw [memberHint, if_pos hr] at this
  exact none_not_conforms (hV s f (List.mem_of_getElem? hf)) this

/-- An argument that is not on the wire is `None`; its annotation, in the signature of the handler's method, is never `Optional`. -/
theorem argument_absent {S : Schema} (hD : Defaults S) (hV : NoVoids S) (fast : Bool) {s : Name} {i : Nat} {f : Field}
    (hf : (S.structs s).fields[i]? = some f) (hd : f.dflt = none) :
    ∃ as, read fast S (.struct s) (.struct []) = .ok (.inst s as) ∧ as[i]? = some .none ∧ ¬ Conforms (argHint f) .none :=
  ⟨_, read_empty hD fast s, defaults_at hf hd, none_not_conforms (hV s f (List.mem_of_getElem? hf))⟩

/-- An immutable list is never what its annotation says: it is a tuple. -/
theorem frozen_list {fast : Bool} {S : Schema} {t : Ty} {w : Wire} {o : Obj} (h : read fast S (.list true t) w = .ok o) :
    ¬ Conforms (hint (.list true t)) o := by
  cases w with
  | list xs =>
    rw [read] at h
    obtain ⟨ys, _, h⟩ := ok_bind h
    cases h
    rintro ⟨_, e, _⟩
    cases e
  | _ => simp only [read, reduceCtorEq] at h

/-- Nor is an immutable set. -/
theorem frozen_set {fast : Bool} {S : Schema} {t : Ty} {w : Wire} {o : Obj} (h : read fast S (.set true t) w = .ok o) :
    ¬ Conforms (hint (.set true t)) o := by
  cases w with
  | set xs =>
    rw [read] at h
    obtain ⟨ys, _, h⟩ := ok_bind h
    cases h
    rintro ⟨_, e, _⟩
    cases e
  | _ => simp only [read, reduceCtorEq] at h

/-- The extension puts numbers in lists of enums. -/
theorem fast_element {S : Schema} {e : Name} {i : Int} {ws : List Wire} {o : Obj}
    (h : read true S (.list false (.enum e)) (.list (.int .i32 i :: ws)) = .ok o) : ¬ Conforms (hint (.list false (.enum e))) o := by
  rw [read] at h
  obtain ⟨ys, h1, h⟩ := ok_bind h
  rw [readAll] at h1
  obtain ⟨y, h2, h1⟩ := ok_bind h1
  obtain ⟨zs, _, h1⟩ := ok_bind h1
  simp only [read, readEnum, if_true, Except.ok.injEq] at h2
  cases h1; cases h; subst h2
  rintro ⟨xs, e', hc⟩
  cases e'
  obtain ⟨j, hj⟩ := hc _ List.mem_cons_self
  cases hj

/-- The extension assigns a number to a member whose type is a typedef of an enum. -/
theorem fast_alias {S : Schema} {s : Name} {e : Name} {required : Bool} {fid : Int}
    (hs : S.structs s = ⟨false, [⟨fid, .alias (.enum e), required, none⟩]⟩) (i : Int) :
    ∃ o, read true S (.struct s) (.struct [(fid, .int .i32 i)]) = .ok o ∧ ¬ Sound S o := by
  refine ⟨.inst s [.int i], ?_, fun h => ?_⟩
  · simp [read, hs, storeAll, defaults, store, readFields, position, assign, readEnum, bind, Except.bind, Wire.ty, Ty.wire]
  · have := h s _ .here 0 ⟨fid, .alias (.enum e), required, none⟩ (.int i) (by rw [hs]; rfl) rfl
    rw [memberHint] at this
    split at this
    · obtain ⟨j, hj⟩ := this; cases hj
    · rcases this with hj | ⟨j, hj⟩ <;> cases hj

/-- With the extension a required member of an immutable class whose type is an enum is `None` even if it is on the wire. -/
theorem fast_immutable {S : Schema} {s : Name} {e : Name} {fid : Int}
    (hs : S.structs s = ⟨true, [⟨fid, .enum e, true, none⟩]⟩) (i : Int) :
    ∃ o, read true S (.struct s) (.struct [(fid, .int .i32 i)]) = .ok o ∧ ¬ Sound S o := by
  refine ⟨.inst s [.none], ?_, fun h => ?_⟩
  · simp [read, hs, storeAll, defaults, store, readFields, position, assign, readEnum, bind, Except.bind, Wire.ty, Ty.wire]
  · have := h s _ .here 0 ⟨fid, .enum e, true, none⟩ .none (by rw [hs]; rfl) rfl
    obtain ⟨j, hj⟩ := this
    cases hj

/-! ## Functions -/

/-- What a function of a plain client returns is what its annotation says, and so on, under the same conditions. -/
theorem call_hints_partial {S : Schema} (hD : Defaults S) (hV : NoVoids S) {fn : Fn} (ho : fn.oneway = false)
    (hs : fn.ret ≠ .void → ∃ f fs, (S.structs fn.result).fields = f :: fs ∧ f.ty = fn.ret) {reply : Wire} {o : Obj}
    (h : recv false S fn reply = .ok o) :
    (Conforms (funcHint fn.ret) (returned .plain fn o) ∧ Sound S (returned .plain fn o)) ↔
      (Valid S (returned .plain fn o) ∧ Thawed (returned .plain fn o)) := by
  have e : returned .plain fn o = o := by simp [returned, ho]
  rw [e]
  rw [recv] at h
  obtain ⟨r, h1, h⟩ := ok_bind h
  have hm := read_made hD (.inl rfl) _ _ _ (.inl rfl) h1
  cases hm with
  | inst _ as hl hm =>
    dsimp only at h
    split at h
    · rename_i hv
      split at h
      · cases h
        rw [hv]
        exact leaf rfl rfl nofun nofun nofun
      · cases h
    · rename_i hv
      obtain ⟨f, fs, hf, ht⟩ := hs hv
      cases as with
      | nil => cases h
      | cons a as =>
        dsimp only at h
        split at h
        · rename_i hn
          cases h
          have hne : o ≠ .none := by rintro rfl; cases hn
          have := hm 0 f o (by rw [hf]; rfl) rfl hne
          rw [ht] at this
          exact made_iff hV this
        · split at h <;> cases h

/-- What a function of a Twisted client returns is never what its annotation says. -/
theorem twisted_hint (fn : Fn) (o : Obj) : ¬ Conforms (funcHint fn.ret) (returned .twisted fn o) := by
  show ¬ Conforms (hint fn.ret) .deferred
  generalize fn.ret = t
  induction t with
  | alias t ih => exact ih
  | void => intro h; cases h
  | bool | string | binary | uuid | enum _ | struct _ => rintro ⟨_, h⟩; cases h
  | int _ => rintro (⟨_, h⟩ | ⟨_, h⟩ | ⟨_, _, h⟩) <;> cases h
  | double => rintro (⟨_, h⟩ | ⟨_, h⟩ | ⟨_, h⟩ | ⟨_, _, h⟩) <;> cases h
  | list _ _ _ | set _ _ _ => rintro ⟨_, h, _⟩; cases h
  | map _ _ _ _ _ => rintro ⟨_, h | h, _⟩ <;> cases h

/-- With Tornado it is only of oneway functions. -/
theorem tornado_hint (fn : Fn) (hv : fn.oneway = true → fn.ret = .void) (o : Obj) :
    Conforms (funcHint fn.ret) (returned .tornado fn o) ↔ fn.oneway = true := by
  cases ho : fn.oneway with
  | false =>
    have := twisted_hint fn o
    simp only [returned] at this ⊢
    simp [ho, this]
  | true =>
    simp [returned, ho, hv ho, funcHint, hint, Conforms]

/-! ## A concrete case

```
enum Color { RED = 1, BLUE = 3 }
typedef Color Hue
struct Car { 1: required Color color, 2: optional list<Hue> stripes = [BLUE], 3: optional map<string, i32> parts }
struct Garage { 1: list<Car> (python.immutable = "") cars, 2: Car spare }
service Shop { Car find(1: Color color) }
```
-/

def shop : Schema where
  enums := fun _ => [1, 3]
  structs := fun s =>
    match s with
    | 0 => ⟨false, [⟨1, .enum 0, true, none⟩, ⟨2, .list false (.alias (.enum 0)), false, some (.list [.member 0 3])⟩,
        ⟨3, .map false .string (.int .i32), false, none⟩]⟩
    | 1 => ⟨false, [⟨1, .list true (.struct 0), false, none⟩, ⟨2, .struct 0, false, none⟩]⟩
    | 2 => ⟨false, [⟨0, .struct 0, false, none⟩]⟩
    | _ => ⟨false, []⟩

theorem shop_defaults : Defaults shop := by
  intro s f hf d hd
  match s, hf with
  | 0, hf =>
    rcases List.mem_cons.mp hf with rfl | hf
    · cases hd
    · rcases List.mem_cons.mp hf with rfl | hf
      · cases hd
        exact .list _ _ fun x hx => by
          cases List.mem_singleton.mp hx
          exact .alias _ _ (.enum 0 3 (by decide))
      · cases List.mem_singleton.mp hf
        cases hd
  | 1, hf =>
    rcases List.mem_cons.mp hf with rfl | hf
    · cases hd
    · cases List.mem_singleton.mp hf; cases hd
  | 2, hf => cases List.mem_singleton.mp hf; cases hd
  | _ + 3, hf => cases hf

theorem shop_voids : NoVoids shop := by
  intro s f hf
  match s, hf with
  | 0, hf =>
    rcases List.mem_cons.mp hf with rfl | hf
    · trivial
    · rcases List.mem_cons.mp hf with rfl | hf
      · trivial
      · cases List.mem_singleton.mp hf; trivial
  | 1, hf =>
    rcases List.mem_cons.mp hf with rfl | hf
    · trivial
    · cases List.mem_singleton.mp hf; trivial
  | 2, hf => cases List.mem_singleton.mp hf; trivial
  | _ + 3, hf => cases hf

def blueCar : Wire := .struct [(1, .int .i32 3), (3, .map [(.string [119], .int .i32 4)]), (9, .bool true)]

theorem blueCar_read : read false shop (.struct 0) blueCar = .ok (.inst 0 [.member 0 3, .list [.member 0 3], .dict [(.str [119], .int 4)]]) := by
  simp [read, blueCar, shop, storeAll, defaults, store, readFields, readPairs, position, assign, readEnum, call, bind, Except.bind, Wire.ty, Ty.wire,
    List.findIdx?, List.findIdx?.go]

/-- A text as the color is skipped. -/
example (fast : Bool) : read fast shop (.struct 0) (.struct ([(1, .int .i32 3)] ++ (1, .string [114]) :: [(2, .list [])])) =
    read fast shop (.struct 0) (.struct ([(1, .int .i32 3)] ++ [(2, .list [])])) :=
  foreign_skipped (by decide) _ _

/-- A car is read, and all is as annotated. -/
example : ∃ o, read false shop (.struct 0) blueCar = .ok o ∧ Conforms (hint (.struct 0)) o ∧ Sound shop o := by
  refine ⟨_, blueCar_read, (read_hints_partial shop_defaults shop_voids blueCar_read).mpr ?_⟩
  constructor
  · refine valid_iff.mpr ⟨?_, ?_⟩
    · rintro s as e i f hf hr
      cases e
      match i with
      | 0 => simp
      | 1 => simp
      | 2 => simp
      | _ + 3 => cases hf
    · intro p hp
      rcases List.mem_cons.mp hp with rfl | hp
      · exact valid_iff.mpr ⟨nofun, nofun⟩
      · rcases List.mem_cons.mp hp with rfl | hp
        · refine valid_iff.mpr ⟨nofun, fun q hq => ?_⟩
          cases List.mem_singleton.mp hq
          exact valid_iff.mpr ⟨nofun, nofun⟩
        · cases List.mem_singleton.mp hp
          refine valid_iff.mpr ⟨nofun, fun q hq => ?_⟩
          obtain ⟨r, hr, e⟩ := mem_pairs.mp hq
          cases List.mem_singleton.mp hr
          rcases e with rfl | rfl <;> exact valid_iff.mpr ⟨nofun, nofun⟩
  · refine thawed_iff.mpr ⟨⟨nofun, nofun⟩, ?_⟩
    intro p hp
    rcases List.mem_cons.mp hp with rfl | hp
    · exact thawed_iff.mpr ⟨⟨nofun, nofun⟩, nofun⟩
    · rcases List.mem_cons.mp hp with rfl | hp
      · refine thawed_iff.mpr ⟨⟨nofun, nofun⟩, fun q hq => ?_⟩
        cases List.mem_singleton.mp hq
        exact thawed_iff.mpr ⟨⟨nofun, nofun⟩, nofun⟩
      · cases List.mem_singleton.mp hp
        refine thawed_iff.mpr ⟨⟨nofun, nofun⟩, fun q hq => ?_⟩
        obtain ⟨r, hr, e⟩ := mem_pairs.mp hq
        cases List.mem_singleton.mp hr
        rcases e with rfl | rfl <;> exact thawed_iff.mpr ⟨⟨nofun, nofun⟩, nofun⟩

/-- A car without a color is read too. -/
example : ∃ o, read false shop (.struct 0) (.struct []) = .ok o ∧ ¬ Sound shop o :=
  required_absent (i := 0) shop_defaults shop_voids false rfl rfl rfl

/-- A handler that is called without its argument -/
example : ∃ as, read true shop (.struct 2) (.struct []) = .ok (.inst 2 as) ∧ as[0]? = some .none ∧ ¬ Conforms (argHint ⟨0, .struct 0, false, none⟩) .none :=
  argument_absent shop_defaults shop_voids true (i := 0) rfl rfl

/-- The cars of a garage are a tuple. -/
example : ∃ o, read false shop (.list true (.struct 0)) (.list [blueCar]) = .ok o ∧ ¬ Conforms (hint (.list true (.struct 0))) o := by
  have h : read false shop (.list true (.struct 0)) (.list [blueCar]) =
      .ok (.tuple [.inst 0 [.member 0 3, .list [.member 0 3], .dict [(.str [119], .int 4)]]]) := by
    rw [read]
    simp [readAll, blueCar_read, bind, Except.bind]
  exact ⟨_, h, frozen_list h⟩

/-- The stripes of a car that the extension read -/
example : ∃ o, read true shop (.list false (.enum 0)) (.list [.int .i32 1]) = .ok o ∧ ¬ Conforms (hint (.list false (.enum 0))) o := by
  have h : read true shop (.list false (.enum 0)) (.list [.int .i32 1]) = .ok (.list [.int 1]) := by
    simp [read, readAll, readEnum, bind, Except.bind]
  exact ⟨_, h, fast_element h⟩

/-- `find` -/
example : recv false shop ⟨.struct 0, false, 2⟩ (.struct [(0, blueCar)]) =
    .ok (.inst 0 [.member 0 3, .list [.member 0 3], .dict [(.str [119], .int 4)]]) := by
  have h : read false shop (.struct 2) (.struct [(0, blueCar)]) = .ok (.inst 2 [.inst 0 [.member 0 3, .list [.member 0 3], .dict [(.str [119], .int 4)]]]) := by
    have e : (shop.structs 2) = ⟨false, [⟨0, .struct 0, false, none⟩]⟩ := rfl
    have w : blueCar.ty = .struct := rfl
    simp [read, e, storeAll, defaults, store, readFields, position, assign, bind, Except.bind, w, Ty.wire, blueCar_read, List.findIdx?, List.findIdx?.go]
  simp [recv, h, bind, Except.bind, Obj.isNone]

end Thrift.Hints
