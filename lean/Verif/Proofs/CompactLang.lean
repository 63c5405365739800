import Verif.Proofs.CompactRead
/-
The tokens of a well-typed value are admissible for the compact protocol, leave the position
unchanged, and their bytes are those of the documented format.
-/

namespace Thrift.Compact
open Spec

/-- Where a value of type `t` may stand. -/
def At (t : Ty) (q : Q) : Prop :=
  q.pos = .container ∨ (q.pos = .value ∧ t ≠ .bool) ∨ (q.pos = .clear ∧ ∃ sid, t = .struct sid)

section
variable (sl cl : Option Int) (sch : Schema)

/-- The tokens `ts` at `q`: admissible if every one is acceptable by itself; they lead to `q'`; their
bytes are `b`. -/
structure Good (q : (lang sl cl).Q) (ts : List Tok) (q' : (lang sl cl).Q) (b : Bytes) : Prop where
  ok : TokensOK sl cl ts → (lang sl cl).Ok q ts
  steps : (lang sl cl).steps q ts = q'
  enc : (lang sl cl).enc q ts = b

variable {sl cl}

theorem Good.nil (q : (lang sl cl).Q) : Good sl cl q [] q [] := ⟨fun _ => trivial, rfl, rfl⟩

theorem Good.append {q q1 q2 : (lang sl cl).Q} {xs ys : List Tok} {b1 b2 : Bytes}
    (h1 : Good sl cl q xs q1 b1) (h2 : Good sl cl q1 ys q2 b2) :
    Good sl cl q (xs ++ ys) q2 (b1 ++ b2) := by
  refine ⟨fun h => ?_, ?_, ?_⟩
  · rw [TokensOK_append] at h
    rw [Lang.Ok_append, h1.steps]
    exact ⟨h1.ok h.1, h2.ok h.2⟩
  · rw [Lang.steps_append, h1.steps, h2.steps]
  · rw [Lang.enc_append, h1.steps, h1.enc, h2.enc]

theorem Good.cons {q q2 : (lang sl cl).Q} {T : Tok} {ys : List Tok} {b2 : Bytes}
    (h1 : posOk q T) (h2 : Good sl cl (stepQ q T) ys q2 b2) :
    Good sl cl q (T :: ys) q2 (tokBytes q T ++ b2) := by
  refine ⟨fun h => ?_, h2.steps, ?_⟩
  · rw [TokensOK_cons] at h
    exact ⟨⟨h.1, h1⟩, h2.ok h.2⟩
  · rw [Lang.enc_cons]
    exact congrArg _ h2.enc

theorem Good.one {q : (lang sl cl).Q} {T : Tok} (h1 : posOk q T) :
    Good sl cl q [T] (stepQ q T) (tokBytes q T) := by
  have := Good.cons h1 (Good.nil (sl := sl) (cl := cl) (stepQ q T))
  rwa [List.append_nil] at this

theorem Good.of_eq {q q' q'' : (lang sl cl).Q} {ts : List Tok} {b b' : Bytes}
    (h : Good sl cl q ts q' b) (h1 : q' = q'') (h2 : b = b') : Good sl cl q ts q'' b' := by
  subst h1; subst h2; exact h

theorem At.val {t : Ty} {q : Q} (h : At t q) (hs : ∀ sid, t ≠ .struct sid) :
    q.pos = .value ∨ q.pos = .container := by
  rcases h with h | h | ⟨-, sid, h⟩
  · exact .inr h
  · exact .inl h.1
  · exact absurd h (hs sid)

variable (sl cl)

mutual
theorem good_value : (v : Val) → (t : Ty) → (q : (lang sl cl).Q) → WT sch t v → At t q →
    Good sl cl q (toks sch t v) q (Spec.Compact.value sch t v) := by
  intro v t q hwt ha
  cases v with
  | list vs =>
    cases t <;> simp only [WT] at hwt
    rename_i e
    simp only [toks, Spec.Compact.value]
    have h1 : posOk q (.listBegin e.ttype vs.length) := ha.val (by simp)
    have h2 := good_elements vs e (stepQ q (.listBegin e.ttype vs.length)) hwt.2 rfl
    refine (Good.cons h1 (h2.append (Good.one ?_))).of_eq rfl ?_
    · exact ⟨rfl, by simp [stepQ]⟩
    · simp [tokBytes, codeOf_ttype]
  | set vs =>
    cases t <;> simp only [WT] at hwt
    rename_i e
    simp only [toks, Spec.Compact.value]
    have h1 : posOk q (.setBegin e.ttype vs.length) := ha.val (by simp)
    have h2 := good_elements vs e (stepQ q (.setBegin e.ttype vs.length)) hwt.2.2 rfl
    refine (Good.cons h1 (h2.append (Good.one ?_))).of_eq rfl ?_
    · exact ⟨rfl, by simp [stepQ]⟩
    · simp [tokBytes, codeOf_ttype]
  | map kvs =>
    cases t <;> simp only [WT] at hwt
    rename_i k v
    simp only [toks, Spec.Compact.value]
    have h1 : posOk q (.mapBegin k.ttype v.ttype kvs.length) := ha.val (by simp)
    have h2 := good_pairs kvs k v (stepQ q (.mapBegin k.ttype v.ttype kvs.length)) hwt.2.2 rfl
    refine (Good.cons h1 (h2.append (Good.one ?_))).of_eq rfl ?_
    · exact ⟨rfl, by simp [stepQ]⟩
    · simp [tokBytes, codeOf_ttype]
  | struct as =>
    cases t <;> simp only [WT] at hwt
    rename_i sid
    simp only [toks, Spec.Compact.value]
    have h1 : posOk q .structBegin := by
      rcases ha with h | h | h
      · exact .inr (.inr h)
      · exact .inr (.inl h.1)
      · exact .inl h.1
    obtain ⟨l, h2⟩ := good_fields as (sch sid) (stepQ q .structBegin) hwt rfl
    refine (Good.cons h1 (h2.append (Good.cons ?_ (Good.one ?_)))).of_eq rfl ?_
    · rfl
    · exact ⟨rfl, by simp [stepQ]⟩
    · simp [tokBytes, stepQ]
  | bool b =>
    cases t <;> simp only [WT] at hwt
    have h : q.pos = .container := by
      rcases ha with h | h | ⟨-, sid, h⟩
      · exact h
      · exact absurd rfl h.2
      · cases h
    simp only [toks]
    refine (Good.one ?_).of_eq rfl (by simp [tokBytes, Spec.Compact.value])
    exact h
  | _ =>
    cases t <;> simp only [WT] at hwt <;> simp only [toks] <;>
    refine (Good.one ?_).of_eq rfl (by simp [tokBytes, Spec.Compact.value]) <;>
    exact ha.val (by simp)
theorem good_elements : (vs : List Val) → (e : Ty) → (q : (lang sl cl).Q) → WTs sch e vs →
    Q.pos q = .container →
    Good sl cl q (toksE sch e vs) q (Spec.Compact.elements sch e vs) := by
  intro vs e q hwt hp
  cases vs with
  | nil => simp only [toksE, Spec.Compact.elements]; exact Good.nil q
  | cons v vs =>
    simp only [WTs] at hwt
    simp only [toksE, Spec.Compact.elements]
    exact (good_value v e q hwt.1 (.inl hp)).append (good_elements vs e q hwt.2 hp)
theorem good_pairs : (kvs : List (Val × Val)) → (k v : Ty) → (q : (lang sl cl).Q) → WTp sch k v kvs →
    Q.pos q = .container →
    Good sl cl q (toksP sch k v kvs) q (Spec.Compact.pairs sch k v kvs) := by
  intro kvs k v q hwt hp
  match kvs with
  | [] => simp only [toksP, Spec.Compact.pairs]; exact Good.nil q
  | (a, b) :: kvs =>
    simp only [WTp] at hwt
    simp only [toksP, Spec.Compact.pairs]
    refine ((good_value a k q hwt.1 (.inl hp)).append ((good_value b v q hwt.2.1 (.inl hp)).append
      (good_pairs kvs k v q hwt.2.2 hp))).of_eq rfl ?_
    simp
theorem good_fields : (as : List (Option Val)) → (fs : List Field) → (q : (lang sl cl).Q) →
    WTf sch fs as → Q.pos q = .field →
    ∃ l, Good sl cl q (toksF sch fs as) (({ (q : Q) with lastFid := l } : Q) : (lang sl cl).Q)
      (Spec.Compact.fields sch (Q.lastFid q) fs as) := by
  intro as fs q hwt hp
  match as with
  | [] =>
    refine ⟨Q.lastFid q, ?_⟩
    cases fs <;> (simp only [toksF, Spec.Compact.fields]; exact Good.nil q)
  | none :: as =>
    cases fs with
    | nil =>
      refine ⟨Q.lastFid q, ?_⟩
      simp only [toksF, Spec.Compact.fields]; exact Good.nil q
    | cons f fs =>
      simp only [WTf] at hwt
      simp only [toksF, Spec.Compact.fields]
      exact good_fields as fs q hwt.2 hp
  | some v :: as =>
    cases fs with
    | nil =>
      refine ⟨Q.lastFid q, ?_⟩
      simp only [toksF, Spec.Compact.fields]; exact Good.nil q
    | cons f fs =>
      simp only [WTf] at hwt
      simp only [toksF, Spec.Compact.fields]
      let q1 : Q := { (q : Q) with lastFid := f.fid }
      obtain ⟨l, h3⟩ := good_fields as fs q1 hwt.2 hp
      refine ⟨l, ?_⟩
      by_cases hb : f.ty = .bool
      · rw [if_pos hb]
        rw [hb] at hwt ⊢
        cases v <;> simp only [WT, false_and] at hwt
        rename_i b
        simp only [toksField]
        have e : stepQ (stepQ q (.boolField f.fid b)) .fieldEnd = q1 := by
          simp only [stepQ, q1, ← hp]
        refine (Good.append (Good.one (T := .boolField f.fid b) hp)
          (Good.cons (T := .fieldEnd) (.inr rfl) (by rw [e]; exact h3))).of_eq rfl ?_
        simp [tokBytes, q1]
      · rw [if_neg hb, toksField_ne_bool hb]
        have h2 := good_value v f.ty (stepQ q (.fieldBegin f.ty.ttype f.fid)) hwt.1 (.inr (.inl ⟨rfl, hb⟩))
        have e : stepQ (stepQ q (.fieldBegin f.ty.ttype f.fid)) .fieldEnd = q1 := by
          simp only [stepQ, q1, ← hp]
        refine (Good.append (Good.cons (T := .fieldBegin f.ty.ttype f.fid) hp h2)
          (Good.cons (T := .fieldEnd) (.inl rfl) (by rw [e]; exact h3))).of_eq rfl ?_
        simp [tokBytes, q1, codeOf_ttype]
end
end

end Thrift.Compact
