import Verif.Proofs.Tokens
/-
Every token of a well-typed value is within the bounds of the wire.
-/

namespace Thrift
open Spec

/-- A wire type of some declared type. -/
def IsTType (t : Int) : Prop := ∃ ty : Ty, t = ty.ttype

theorem isTType_ttype (t : Ty) : IsTType t.ttype := ⟨t, rfl⟩

theorem IsTType.cases {t : Int} (h : IsTType t) : t = 2 ∨ t = 3 ∨ t = 4 ∨ t = 6 ∨ t = 8 ∨ t = 10 ∨
    t = 11 ∨ t = 12 ∨ t = 13 ∨ t = 14 ∨ t = 15 ∨ t = 16 := by
  obtain ⟨ty, rfl⟩ := h
  cases ty <;> simp [Ty.ttype, TType.BOOL, TType.BYTE, TType.I16, TType.I32, TType.I64, TType.DOUBLE,
    TType.STRING, TType.UUID, TType.LIST, TType.SET, TType.MAP, TType.STRUCT]

/-- Bounds on one token: integers in range, lengths below 2^31 and within the limits. -/
def TokOK (sl cl : Option Int) : Tok → Prop
  | .fieldBegin tt fid => IsTType tt ∧ InRange 16 fid ∧ tt ≠ TType.BOOL
  | .boolField fid _ => InRange 16 fid
  | .mapBegin k v n => IsTType k ∧ IsTType v ∧ n < 2 ^ 31 ∧ Within cl n
  | .listBegin e n => IsTType e ∧ n < 2 ^ 31 ∧ Within cl n
  | .setBegin e n => IsTType e ∧ n < 2 ^ 31 ∧ Within cl n
  | .byte i => InRange 8 i
  | .i16 i => InRange 16 i
  | .i32 i => InRange 32 i
  | .i64 i => InRange 64 i
  | .str s => TextOK s ∧ Within sl (utf8Len s)
  | .bin b => b.length < 2 ^ 31 ∧ Within sl b.length
  | .uuid u => u.length = 16
  | _ => True

/-- All tokens are in bounds. -/
def TokensOK (sl cl : Option Int) (ts : List Tok) : Prop := ∀ T ∈ ts, TokOK sl cl T

section
variable {sl cl : Option Int}

@[simp] theorem TokensOK_nil : TokensOK sl cl [] := by simp [TokensOK]
@[simp] theorem TokensOK_cons (T : Tok) (ts : List Tok) :
    TokensOK sl cl (T :: ts) ↔ TokOK sl cl T ∧ TokensOK sl cl ts := by simp [TokensOK]
@[simp] theorem TokensOK_append (xs ys : List Tok) :
    TokensOK sl cl (xs ++ ys) ↔ TokensOK sl cl xs ∧ TokensOK sl cl ys := by
  simp [TokensOK, or_imp, forall_and]

variable (sch : Schema)

mutual
theorem toks_bounds (hs : ∀ sid, FieldsOK (sch sid)) : (v : Val) → (t : Ty) → WT sch t v →
    WithinLimits sl cl v → TokensOK sl cl (toks sch t v) := by
  intro v t hwt hl
  unfold WithinLimits at hl
  cases v with
  | list vs =>
    cases t <;> simp only [WT] at hwt
    simp only [Sizes] at hl
    simp only [toks, TokensOK_cons, TokensOK_append, TokensOK_nil, and_true, TokOK]
    exact ⟨⟨isTType_ttype _, hwt.1, hl.1⟩, toksE_bounds hs vs _ hwt.2 hl.2⟩
  | set vs =>
    cases t <;> simp only [WT] at hwt
    simp only [Sizes] at hl
    simp only [toks, TokensOK_cons, TokensOK_append, TokensOK_nil, and_true, TokOK]
    exact ⟨⟨isTType_ttype _, hwt.1, hl.1⟩, toksE_bounds hs vs _ hwt.2.2 hl.2⟩
  | map kvs =>
    cases t <;> simp only [WT] at hwt
    simp only [Sizes] at hl
    simp only [toks, TokensOK_cons, TokensOK_append, TokensOK_nil, and_true, TokOK]
    exact ⟨⟨isTType_ttype _, isTType_ttype _, hwt.1, hl.1⟩, toksP_bounds hs kvs _ _ hwt.2.2 hl.2⟩
  | struct as =>
    cases t <;> simp only [WT] at hwt
    simp only [Sizes] at hl
    simp only [toks, TokensOK_cons, TokensOK_append, TokensOK_nil, and_true, TokOK, true_and]
    exact toksF_bounds hs as _ (hs _).2 hwt hl
  | str s =>
    cases t <;> simp only [WT] at hwt
    simp only [Sizes] at hl
    simp only [toks, TokensOK_cons, TokensOK_nil, and_true, TokOK]
    exact ⟨hwt, hl⟩
  | bin b =>
    cases t <;> simp only [WT] at hwt
    simp only [Sizes] at hl
    simp only [toks, TokensOK_cons, TokensOK_nil, and_true, TokOK]
    exact ⟨hwt, hl⟩
  | bool b => cases t <;> simp only [WT] at hwt <;> simp [toks, TokOK]
  | double b => cases t <;> simp only [WT] at hwt <;> simp [toks, TokOK]
  | _ => cases t <;> simp only [WT] at hwt <;> simpa [toks, TokOK] using hwt
theorem toksE_bounds (hs : ∀ sid, FieldsOK (sch sid)) : (vs : List Val) → (e : Ty) → WTs sch e vs →
    Sizess (Within sl) (Within cl) vs → TokensOK sl cl (toksE sch e vs) := by
  intro vs e hwt hl
  cases vs with
  | nil => simp only [toksE, TokensOK_nil]
  | cons v vs =>
    simp only [WTs] at hwt
    simp only [Sizess] at hl
    simp only [toksE, TokensOK_append]
    exact ⟨toks_bounds hs v e hwt.1 hl.1, toksE_bounds hs vs e hwt.2 hl.2⟩
theorem toksP_bounds (hs : ∀ sid, FieldsOK (sch sid)) : (kvs : List (Val × Val)) → (k v : Ty) →
    WTp sch k v kvs → Sizesp (Within sl) (Within cl) kvs → TokensOK sl cl (toksP sch k v kvs) := by
  intro kvs k v hwt hl
  match kvs with
  | [] => simp only [toksP, TokensOK_nil]
  | (a, b) :: kvs =>
    simp only [WTp] at hwt
    simp only [Sizesp] at hl
    simp only [toksP, TokensOK_append]
    exact ⟨toks_bounds hs a k hwt.1 hl.1, toks_bounds hs b v hwt.2.1 hl.2.1,
      toksP_bounds hs kvs k v hwt.2.2 hl.2.2⟩
theorem toksF_bounds (hs : ∀ sid, FieldsOK (sch sid)) : (as : List (Option Val)) →
    (fs : List Field) → (∀ f ∈ fs, InRange 16 f.fid) → WTf sch fs as →
    Sizesf (Within sl) (Within cl) as → TokensOK sl cl (toksF sch fs as) := by
  intro as fs hf hwt hl
  match as with
  | [] => cases fs <;> simp only [toksF, TokensOK_nil]
  | none :: as =>
    cases fs with
    | nil => simp only [toksF, TokensOK_nil]
    | cons f fs =>
      simp only [WTf] at hwt
      simp only [Sizesf] at hl
      simp only [toksF]
      exact toksF_bounds hs as fs (fun g hg => hf g (by simp [hg])) hwt.2 hl
  | some v :: as =>
    cases fs with
    | nil => simp only [toksF, TokensOK_nil]
    | cons f fs =>
      simp only [WTf] at hwt
      simp only [Sizesf] at hl
      simp only [toksF, TokensOK_append, TokensOK_cons]
      refine ⟨?_, by simp [TokOK], toksF_bounds hs as fs (fun g hg => hf g (by simp [hg])) hwt.2 hl.2⟩
      have hv := toks_bounds hs v f.ty hwt.1 hl.1
      have hfid := hf f (by simp)
      by_cases hb : f.ty = .bool
      · rw [hb] at hwt ⊢
        cases v <;> simp only [WT, false_and] at hwt
        simp [toksField, TokOK, hfid]
      · have e : toksField f.fid (toks sch f.ty v) f.ty v
            = .fieldBegin f.ty.ttype f.fid :: toks sch f.ty v := by
          unfold toksField
          split
          · rename_i h; exact absurd h hb
          · rfl
        rw [e]
        simp only [TokensOK_cons, TokOK]
        exact ⟨⟨isTType_ttype _, hfid, fun h => hb (ttype_bool_iff.mp h)⟩, hv⟩
end
end
theorem sizes_trivial_aux (p q : Nat → Prop) (hp : ∀ n, p n) (hq : ∀ n, q n) :
    (∀ v, Sizes p q v) := by
  have key : ∀ n, (∀ v, size v ≤ n → Sizes p q v) ∧ (∀ vs, sizes vs ≤ n → Sizess p q vs) ∧
      (∀ vs, sizep vs ≤ n → Sizesp p q vs) ∧ (∀ vs, sizef vs ≤ n → Sizesf p q vs) := by
    intro n
    induction n with
    | zero =>
      refine ⟨?_, ?_, ?_, ?_⟩
      · intro v h; cases v <;> simp only [size] at h <;> omega
      · intro vs h; cases vs <;> simp only [sizes, Sizess] at h ⊢; omega
      · intro vs h
        match vs with
        | [] => simp only [Sizesp]
        | (a, b) :: vs => simp only [sizep] at h; omega
      · intro vs h
        match vs with
        | [] => simp only [Sizesf]
        | none :: vs => simp only [sizef] at h; omega
        | some a :: vs => simp only [sizef] at h; omega
    | succ n ih =>
      obtain ⟨h1, h2, h3, h4⟩ := ih
      refine ⟨?_, ?_, ?_, ?_⟩
      · intro v h
        cases v <;> simp only [size, Sizes] at h ⊢
        · exact hp _
        · exact hp _
        · exact ⟨hq _, h2 _ (by omega)⟩
        · exact ⟨hq _, h2 _ (by omega)⟩
        · exact ⟨hq _, h3 _ (by omega)⟩
        · exact h4 _ (by omega)
      · intro vs h
        cases vs <;> simp only [sizes, Sizess] at h ⊢
        exact ⟨h1 _ (by omega), h2 _ (by omega)⟩
      · intro vs h
        match vs with
        | [] => simp only [Sizesp]
        | (a, b) :: vs =>
          simp only [sizep, Sizesp] at h ⊢
          exact ⟨h1 _ (by omega), h1 _ (by omega), h3 _ (by omega)⟩
      · intro vs h
        match vs with
        | [] => simp only [Sizesf]
        | none :: vs => simp only [sizef, Sizesf] at h ⊢; exact h4 _ (by omega)
        | some a :: vs =>
          simp only [sizef, Sizesf] at h ⊢
          exact ⟨h1 _ (by omega), h4 _ (by omega)⟩
  exact fun v => (key (size v)).1 v (Nat.le_refl _)

theorem within_none (v : Val) : WithinLimits none none v :=
  sizes_trivial_aux _ _ (fun _ _ h => by cases h) (fun _ _ h => by cases h) v

end Thrift
