import Verif.Proofs.JsonLaws
/-
The tokens of a well-typed value are admissible for the JSON protocol, and their bytes are those of the
document that stands for the value.
-/

namespace Thrift.Json
open Spec Spec.Json

/-- Where a value of type `t` may stand: not as a name, and a number only inside something. -/
def ValueAt (t : Ty) (stk : List Ctx) : Prop :=
  escapeNum (top (bump stk)) = false ∧ (isNumber t = true → top stk ≠ .base)

/-- Where a name may stand. -/
def KeyAt (stk : List Ctx) : Prop := escapeNum (top (bump stk)) = true

theorem KeyAt.ne {stk : List Ctx} (h : KeyAt stk) : top stk ≠ .base := by
  unfold KeyAt at h
  intro e
  cases stk with
  | nil => simp [bump, setTop, top, escapeNum] at h
  | cons c cs =>
    simp only [top, List.headD_cons] at e
    subst e
    simp [bump, setTop, top, escapeNum, advance] at h

section
variable (py : Floats) (p : Nat → Prop) (fd : UInt64 → Prop) (sch : Schema)

/-- The position with these contexts. -/
def here (stk : List Ctx) : (lang py p fd).Q := (⟨stk, false⟩ : Q)

/-- The tokens `ts` at the contexts `stk`: admissible if every one is acceptable by itself; they lead to the
contexts `stk'`; their bytes are `b`. -/
structure Good (stk : List Ctx) (ts : List Tok) (stk' : List Ctx) (b : Bytes) : Prop where
  ok : (∀ T ∈ ts, TokFit py p fd T) → (lang py p fd).Ok (here py p fd stk) ts
  steps : (lang py p fd).steps (here py p fd stk) ts = here py p fd stk'
  enc : (lang py p fd).enc (here py p fd stk) ts = b

variable {py p fd}

theorem Good.nil (stk : List Ctx) : Good py p fd stk [] stk [] := ⟨fun _ => trivial, rfl, rfl⟩

theorem Good.append {q q1 q2 : List Ctx} {xs ys : List Tok} {b1 b2 : Bytes}
    (h1 : Good py p fd q xs q1 b1) (h2 : Good py p fd q1 ys q2 b2) : Good py p fd q (xs ++ ys) q2 (b1 ++ b2) := by
  refine ⟨fun h => ?_, ?_, ?_⟩
  · rw [Lang.Ok_append, h1.steps]
    exact ⟨h1.ok fun T hT => h T (by simp [hT]), h2.ok fun T hT => h T (by simp [hT])⟩
  · rw [Lang.steps_append, h1.steps, h2.steps]
  · rw [Lang.enc_append, h1.steps, h1.enc, h2.enc]

theorem Good.one {stk : List Ctx} {T : Tok} (h1 : posOk ⟨stk, false⟩ T) (h2 : T ≠ .fieldStop) :
    Good py p fd stk [T] (primsStep stk (tokPrims py T)) (primsBytes stk (tokPrims py T)) := by
  refine ⟨fun h => ⟨⟨h T (by simp), h1, fun e => by cases e⟩, trivial⟩, ?_, ?_⟩
  · change (⟨primsStep stk (tokPrims py T), _⟩ : Q) = _
    cases T <;> first | rfl | exact absurd rfl h2
  · change primsBytes stk (tokPrims py T) ++ [] = _
    rw [List.append_nil]

theorem Good.cons {stk stk1 stk2 : List Ctx} {T : Tok} {ys : List Tok} {b2 : Bytes}
    (h1 : posOk ⟨stk, false⟩ T) (h3 : T ≠ .fieldStop) (e : primsStep stk (tokPrims py T) = stk1)
    (h2 : Good py p fd stk1 ys stk2 b2) :
    Good py p fd stk (T :: ys) stk2 (primsBytes stk (tokPrims py T) ++ b2) := by
  subst e
  exact (Good.one h1 h3).append h2

/-- The end of a struct. -/
theorem Good.stop {c : Ctx} {stk : List Ctx} (h : c ≠ .base) :
    Good py p fd (c :: stk) [.fieldStop, .structEnd] stk [125] := by
  refine ⟨fun h' => ⟨⟨h' _ (by simp), ?_, fun e => by cases e⟩, ⟨h' _ (by simp), ?_, fun _ => rfl⟩, trivial⟩, rfl, rfl⟩
  · exact h
  · change c :: stk ≠ []
    simp

theorem Good.of_eq {q q' q'' : List Ctx} {ts : List Tok} {b b' : Bytes}
    (h : Good py p fd q ts q' b) (h1 : q' = q'') (h2 : b = b') : Good py p fd q ts q'' b' := by
  subst h1; subst h2; exact h

/-- The bytes of members; with the flag, of all members of an object, otherwise of those after the first. -/
def members : Bool → List (Bytes × J) → Bytes
  | true, (k, x) :: xs => quoted k ++ (58 :: render x ++ renderMembers xs)
  | _, xs => renderMembers xs

theorem render_obj (ms : List (Bytes × J)) : render (.obj ms) = 123 :: (members true ms ++ [125]) := by
  cases ms with
  | nil => simp [render, members, renderMembers]
  | cons m ms => obtain ⟨k, x⟩ := m; simp [render, members]

theorem render_arr (x : J) (xs : List J) : render (.arr (x :: xs)) = 91 :: (render x ++ (renderItems xs ++ [93])) := by
  simp [render]

theorem members_cons (a : Bool) (r : List Ctx) (k : Bytes) (x : J) (xs : List (Bytes × J)) :
    members a ((k, x) :: xs) = sep (.pair a a :: r) ++ (quoted k ++ (58 :: render x ++ members false xs)) := by
  cases a <;> simp [members, renderMembers, sep, advance, top]

theorem bool_digits (b : Bool) : decimal (if b then 1 else 0) = if b then ascii "1" else ascii "0" := by
  cases b <;> decide +kernel

theorem escaped_base64 (b : Bytes) : escaped (toPy (b64encode b)) = base64 b := by
  rw [escaped_plain (b64encode_plain b), b64encode_eq]

theorem escaped_uuid (u : Bytes) : escaped (Json.uuidText u) = Spec.Json.uuidText u := by
  have h : toPy (Spec.Json.uuidText u) = Json.uuidText u := by
    rw [uuidText_eq]
    unfold toPy
    rw [List.map_map]
    refine (List.map_congr_left fun c hc => ?_).trans (List.map_id _)
    rcases uuidText_chars u c hc with rfl | ⟨k, hk, rfl⟩
    · rfl
    · have := (hexChar_lt k hk).1
      simp only [Function.comp_apply, id_eq]
      rw [UInt8.toNat_ofNat']
      omega
  rw [← h]
  exact escaped_plain (by rw [uuidText_eq]; exact uuidText_plain u)

/-- A key of a map. -/
theorem good_key (a : Val) (t : Ty) (stk : List Ctx) (hwt : WT sch t a) (hh : t.hashable = true) (hk : KeyAt stk) :
    Good py p fd stk (toks sch t a) (bump stk) (sep stk ++ quoted (keyText py.fmt17 a)) := by
  have hb := hk.ne
  unfold KeyAt at hk
  cases a <;> cases t <;> simp only [WT] at hwt <;> simp [Ty.hashable] at hh <;> simp only [toks] <;>
    refine (Good.one (by first | exact hb | trivial) (by simp)).of_eq rfl ?_ <;>
    simp [tokPrims, primsBytes, primBytes, hk, keyText, bool_digits, intDigits_eq, escaped_base64, escaped_uuid]

mutual
theorem good_value : (v : Val) → (t : Ty) → (stk : List Ctx) → WT sch t v → ValueAt t stk →
    Good py p fd stk (toks sch t v) (bump stk) (sep stk ++ render (tree py.fmt17 sch t v)) := by
  intro v t stk hwt ha
  cases v with
  | list vs =>
    cases t <;> simp only [WT] at hwt
    rename_i e
    simp only [toks, tree]
    have h2 := good_elements vs e (bump stk) hwt.2
    refine (Good.cons (by trivial) (by simp) rfl (h2.append (Good.one (by simp [posOk]) (by simp)))).of_eq rfl ?_
    simp [tokPrims, primsBytes, primBytes, primStep, bump, setTop, advance, sep, top, escapeNum, nameOf_ttype,
      render_arr, renderItems, render, intDigits_eq]
  | set vs =>
    cases t <;> simp only [WT] at hwt
    rename_i e
    simp only [toks, tree]
    have h2 := good_elements vs e (bump stk) hwt.2.2
    refine (Good.cons (by trivial) (by simp) rfl (h2.append (Good.one (by simp [posOk]) (by simp)))).of_eq rfl ?_
    simp [tokPrims, primsBytes, primBytes, primStep, bump, setTop, advance, sep, top, escapeNum, nameOf_ttype,
      render_arr, renderItems, render, intDigits_eq]
  | map kvs =>
    cases t <;> simp only [WT] at hwt
    rename_i k v
    simp only [toks, tree]
    obtain ⟨a, h2⟩ := good_pairs kvs k v true (.list false :: bump stk) hwt.2.2 hwt.2.1
    refine (Good.cons (by trivial) (by simp) rfl (h2.append (Good.one (T := .mapEnd) (by exact ⟨_, _, _, rfl⟩) (by simp)))).of_eq rfl ?_
    simp [tokPrims, primsBytes, primBytes, primStep, bump, setTop, advance, sep, top, escapeNum, nameOf_ttype,
      render_arr, renderItems, render, intDigits_eq, render_obj]
  | struct as =>
    cases t <;> simp only [WT] at hwt
    rename_i sid
    simp only [toks, tree]
    obtain ⟨a, h2⟩ := good_fields as (sch sid) true (bump stk) hwt
    refine (Good.cons (by trivial) (by simp) rfl (h2.append (Good.stop (by simp)))).of_eq rfl ?_
    simp [tokPrims, primsBytes, primBytes, render_obj]
  | _ =>
    cases t <;> simp only [WT] at hwt <;> simp only [toks] <;>
    refine (Good.one (by first | exact ha.2 rfl | trivial) (by simp)).of_eq rfl ?_ <;>
    simp [tokPrims, primsBytes, primBytes, ha.1, tree, render, bool_digits, intDigits_eq, escaped_base64, escaped_uuid]
theorem good_elements : (vs : List Val) → (e : Ty) → (r : List Ctx) → WTs sch e vs →
    Good py p fd (.list false :: r) (toksE sch e vs) (.list false :: r) (renderItems (trees py.fmt17 sch e vs)) := by
  intro vs e r hwt
  cases vs with
  | nil => simp only [toksE, trees, renderItems]; exact Good.nil _
  | cons v vs =>
    simp only [WTs] at hwt
    simp only [toksE, trees, renderItems]
    refine ((good_value v e (.list false :: r) hwt.1 ⟨rfl, fun _ => by simp [top]⟩).append
      (good_elements vs e r hwt.2)).of_eq rfl ?_
    simp [sep, advance, top]
theorem good_pairs : (kvs : List (Val × Val)) → (k v : Ty) → (a : Bool) → (r : List Ctx) → WTp sch k v kvs →
    k.hashable = true → ∃ a', Good py p fd (.pair a a :: r) (toksP sch k v kvs) (.pair a' a' :: r)
      (members a (treep py.fmt17 sch v kvs)) := by
  intro kvs k v a r hwt hh
  match kvs with
  | [] =>
    refine ⟨a, ?_⟩
    cases a <;> (simp only [toksP, treep, members, renderMembers]; exact Good.nil _)
  | (x, y) :: kvs =>
    simp only [WTp] at hwt
    obtain ⟨a', h3⟩ := good_pairs kvs k v false r hwt.2.2 hh
    refine ⟨a', ?_⟩
    simp only [toksP, treep]
    have h1 := good_key (py := py) (p := p) (fd := fd) sch x k (.pair a a :: r) hwt.1 hh (by cases a <;> rfl)
    have e : bump (.pair a a :: r) = .pair false true :: r := by cases a <;> rfl
    rw [e] at h1
    have h2 := good_value y v (.pair false true :: r) hwt.2.1 ⟨rfl, fun _ => by simp [top]⟩
    have e' : bump (.pair false true :: r) = .pair false false :: r := rfl
    rw [e'] at h2
    refine (h1.append (h2.append h3)).of_eq rfl ?_
    rw [members_cons a r]
    simp [sep, advance, top]
theorem good_fields : (as : List (Option Val)) → (fs : List Field) → (a : Bool) → (r : List Ctx) → WTf sch fs as →
    ∃ a', Good py p fd (.pair a a :: r) (toksF sch fs as) (.pair a' a' :: r)
      (members a (treef py.fmt17 sch fs as)) := by
  intro as fs a r hwt
  match as with
  | [] =>
    refine ⟨a, ?_⟩
    cases a <;> cases fs <;> (simp only [toksF, treef, members, renderMembers]; exact Good.nil _)
  | none :: as =>
    cases fs with
    | nil => simp only [WTf] at hwt
    | cons f fs =>
      simp only [WTf] at hwt
      simp only [toksF, treef]
      exact good_fields as fs a r hwt.2
  | some v :: as =>
    cases fs with
    | nil => simp only [WTf] at hwt
    | cons f fs =>
      simp only [WTf] at hwt
      obtain ⟨a', h3⟩ := good_fields as fs false r hwt.2
      refine ⟨a', ?_⟩
      simp only [toksF, treef]
      have e : bump (.pair a a :: r) = .pair false true :: r := by cases a <;> rfl
      have hk : escapeNum (top (bump (.pair a a :: r))) = true := by cases a <;> rfl
      by_cases hb : f.ty = .bool
      · rw [hb] at hwt ⊢
        cases v <;> simp only [WT, false_and] at hwt
        rename_i b
        simp only [toksField]
        refine ((Good.one (T := .boolField f.fid b) (by exact ⟨_, _, _, rfl⟩) (by simp)).append (Good.cons (T := .fieldEnd) ?_ (by simp) ?_ h3)).of_eq rfl ?_
        · simp [posOk, tokPrims, primsStep, primStep, bump, setTop]
        · simp only [tokPrims, primsStep, primStep, e]
          rfl
        · rw [members_cons a r]
          simp only [tokPrims, primsBytes, primBytes, primStep, e, hk, bool_digits, intDigits_eq]
          rw [show nameOf TType.BOOL = nameOf Ty.bool.ttype from rfl, nameOf_ttype]
          simp [render_obj, members, renderMembers, render, tree, sep, advance, top, bump, setTop, escapeNum]
      · rw [toksField_ne_bool hb]
        have h2 := good_value v f.ty (.pair false true :: .pair false false :: r) hwt.1 ⟨rfl, fun _ => by simp [top]⟩
        have e' : bump (.pair false true :: .pair false false :: r) = .pair false false :: .pair false false :: r := rfl
        rw [e'] at h2
        refine ((Good.cons (T := .fieldBegin f.ty.ttype f.fid) ⟨_, _, _, rfl⟩ (by simp) ?_ h2).append
          (Good.cons (T := .fieldEnd) ?_ (by simp) ?_ h3)).of_eq rfl ?_
        · simp only [tokPrims, primsStep, primStep, e]
          rfl
        · simp [posOk]
        · rfl
        · rw [members_cons a r]
          simp only [tokPrims, primsBytes, primBytes, primStep, e, hk, nameOf_ttype, intDigits_eq]
          simp [render_obj, members, renderMembers, sep, advance, top, bump, setTop, escapeNum]
end

/-- The pieces of a token fit and its double is acceptable. -/
def Piecewise (py : Floats) (p : Nat → Prop) (fd : UInt64 → Prop) (ts : List Tok) : Prop :=
  ∀ T ∈ ts, (∀ x ∈ tokPrims py T, primFits p x) ∧ (∀ x, T = .double x → fd x)

theorem Piecewise.nil : Piecewise py p fd [] := fun _ h => by cases h
theorem Piecewise.cons {T : Tok} {ts : List Tok}
    (h1 : (∀ x ∈ tokPrims py T, primFits p x) ∧ (∀ x, T = .double x → fd x)) (h2 : Piecewise py p fd ts) :
    Piecewise py p fd (T :: ts) := by
  intro T' hT
  rcases List.mem_cons.mp hT with rfl | hT
  · exact h1
  · exact h2 _ hT
theorem Piecewise.append {xs ys : List Tok} (h1 : Piecewise py p fd xs) (h2 : Piecewise py p fd ys) :
    Piecewise py p fd (xs ++ ys) := by
  intro T' hT
  rcases List.mem_append.mp hT with hT | hT
  · exact h1 _ hT
  · exact h2 _ hT

/-- Tokens of one bracket. -/
theorem piece_none {T : Tok} (h : T = .structBegin ∨ T = .structEnd ∨ T = .fieldEnd ∨ T = .fieldStop ∨ T = .mapEnd ∨
    T = .listEnd ∨ T = .setEnd) : (∀ x ∈ tokPrims py T, primFits p x) ∧ (∀ x, T = .double x → fd x) := by
  rcases h with rfl | rfl | rfl | rfl | rfl | rfl | rfl <;> simp [tokPrims, primFits]

theorem piece_key (a : Val) (t : Ty) (hwt : WT sch t a) (hh : t.hashable = true)
    (hp : p (keyText py.fmt17 a).length) (hd : Doubles fd a) : Piecewise py p fd (toks sch t a) := by
  cases a <;> cases t <;> simp only [WT] at hwt <;> simp [Ty.hashable] at hh <;> simp only [toks] <;>
    refine Piecewise.cons ?_ Piecewise.nil <;>
    simpa [tokPrims, primFits, keyText, bool_digits, intDigits_eq, escaped_base64, escaped_uuid, Doubles] using And.intro hp hd

mutual
theorem piece_value : (v : Val) → (t : Ty) → WT sch t v → Texts p (tree py.fmt17 sch t v) → Doubles fd v →
    Piecewise py p fd (toks sch t v) := by
  intro v t hwt ht hd
  cases v with
  | list vs =>
    cases t <;> simp only [WT] at hwt
    simp only [tree, Texts, TextsItems] at ht
    simp only [Doubles] at hd
    simp only [toks]
    refine Piecewise.cons ?_ ((piece_elements vs _ hwt.2 ht.2.2 hd).append (Piecewise.cons (piece_none (by simp)) Piecewise.nil))
    simpa [tokPrims, primFits, nameOf_ttype, intDigits_eq] using And.intro ht.1 ht.2.1
  | set vs =>
    cases t <;> simp only [WT] at hwt
    simp only [tree, Texts, TextsItems] at ht
    simp only [Doubles] at hd
    simp only [toks]
    refine Piecewise.cons ?_ ((piece_elements vs _ hwt.2.2 ht.2.2 hd).append (Piecewise.cons (piece_none (by simp)) Piecewise.nil))
    simpa [tokPrims, primFits, nameOf_ttype, intDigits_eq] using And.intro ht.1 ht.2.1
  | map kvs =>
    cases t <;> simp only [WT] at hwt
    simp only [tree, Texts, TextsItems] at ht
    simp only [Doubles] at hd
    simp only [toks]
    refine Piecewise.cons ?_ ((piece_pairs kvs _ _ hwt.2.2 hwt.2.1 ht.2.2.2.1 hd).append (Piecewise.cons (piece_none (by simp)) Piecewise.nil))
    simpa [tokPrims, primFits, nameOf_ttype, intDigits_eq] using And.intro ht.1 (And.intro ht.2.1 ht.2.2.1)
  | struct as =>
    cases t <;> simp only [WT] at hwt
    simp only [tree, Texts] at ht
    simp only [Doubles] at hd
    simp only [toks]
    exact Piecewise.cons (piece_none (by simp)) ((piece_fields as _ hwt ht hd).append
      (Piecewise.cons (piece_none (by simp)) (Piecewise.cons (piece_none (by simp)) Piecewise.nil)))
  | _ =>
    cases t <;> simp only [WT] at hwt <;> simp only [toks] <;> refine Piecewise.cons ?_ Piecewise.nil <;>
    simpa [tokPrims, primFits, tree, Texts, bool_digits, intDigits_eq, escaped_base64, escaped_uuid, Doubles] using
      And.intro ht hd
theorem piece_elements : (vs : List Val) → (e : Ty) → WTs sch e vs → TextsItems p (trees py.fmt17 sch e vs) →
    Doubless fd vs → Piecewise py p fd (toksE sch e vs) := by
  intro vs e hwt ht hd
  cases vs with
  | nil => simp only [toksE]; exact Piecewise.nil
  | cons v vs =>
    simp only [WTs] at hwt
    simp only [trees, TextsItems] at ht
    simp only [Doubless] at hd
    simp only [toksE]
    exact (piece_value v e hwt.1 ht.1 hd.1).append (piece_elements vs e hwt.2 ht.2 hd.2)
theorem piece_pairs : (kvs : List (Val × Val)) → (k v : Ty) → WTp sch k v kvs → k.hashable = true →
    TextsMembers p (treep py.fmt17 sch v kvs) → Doublesp fd kvs → Piecewise py p fd (toksP sch k v kvs) := by
  intro kvs k v hwt hh ht hd
  match kvs with
  | [] => simp only [toksP]; exact Piecewise.nil
  | (x, y) :: kvs =>
    simp only [WTp] at hwt
    simp only [treep, TextsMembers] at ht
    simp only [Doublesp] at hd
    simp only [toksP]
    exact (piece_key sch x k hwt.1 hh ht.1 hd.1).append ((piece_value y v hwt.2.1 ht.2.1 hd.2.1).append
      (piece_pairs kvs k v hwt.2.2 hh ht.2.2 hd.2.2))
theorem piece_fields : (as : List (Option Val)) → (fs : List Field) → WTf sch fs as →
    TextsMembers p (treef py.fmt17 sch fs as) → Doublesf fd as → Piecewise py p fd (toksF sch fs as) := by
  intro as fs hwt ht hd
  match as with
  | [] => cases fs <;> (simp only [toksF]; exact Piecewise.nil)
  | none :: as =>
    cases fs with
    | nil => simp only [WTf] at hwt
    | cons f fs =>
      simp only [WTf] at hwt
      simp only [treef] at ht
      simp only [Doublesf] at hd
      simp only [toksF]
      exact piece_fields as fs hwt.2 ht hd
  | some v :: as =>
    cases fs with
    | nil => simp only [WTf] at hwt
    | cons f fs =>
      simp only [WTf] at hwt
      simp only [treef, TextsMembers, Texts] at ht
      simp only [Doublesf] at hd
      simp only [toksF]
      refine Piecewise.append ?_ (Piecewise.cons (piece_none (by simp)) (piece_fields as fs hwt.2 ht.2.2 hd.2))
      by_cases hb : f.ty = .bool
      · rw [hb] at hwt ht ⊢
        cases v <;> simp only [WT, false_and] at hwt
        rename_i b
        simp only [tree, Texts] at ht
        simp only [toksField]
        refine Piecewise.cons ?_ Piecewise.nil
        have := ht.2.1
        simp only [tokPrims, bool_digits, intDigits_eq]
        rw [show nameOf TType.BOOL = nameOf Ty.bool.ttype from rfl]
        simpa [primFits, nameOf_ttype] using And.intro ht.1 (And.intro ht.2.1.1 ht.2.1.2.1)
      · rw [toksField_ne_bool hb]
        refine Piecewise.cons ?_ (piece_value v f.ty hwt.1 ht.2.1.2.1 hd.1)
        simpa [tokPrims, primFits, nameOf_ttype, intDigits_eq] using And.intro ht.1 ht.2.1.1
end

/-- The tokens of a value are acceptable. -/
theorem fit_value (hs : ∀ sid, FieldsOK (sch sid)) {v : Val} {t : Ty} (hwt : WT sch t v)
    (ht : Texts p (tree py.fmt17 sch t v)) (hd : Doubles fd v) : ∀ T ∈ toks sch t v, TokFit py p fd T := by
  intro T hT
  exact ⟨toks_bounds sch hs v t hwt (within_none v) T hT, piece_value sch v t hwt ht hd T hT⟩
end

end Thrift.Json
