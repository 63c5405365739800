import Verif.Model.Structs
import Verif.Spec.Rpc
/-
What declarations of structs and functions mean (`doc/specs/idl.md`), and which of them are accepted.
-/

namespace Thrift.Spec.Structs
open Rpc Thrift.Structs
variable {T : Type}

/-- The field is given a number by the compiler: none is written, or one that is not allowed. -/
def Numbered (neg : Bool) (d : Decl T) : Prop := ∀ n, d.id = some n → n ≤ 0 ∧ neg = false

/-- The last number that is not positive in these fields, the last one first; 0 if there is none. Without `-allow-neg-keys`, numbers that are not positive are ignored. -/
def lowest (neg : Bool) : List (Decl T) → Int
  | [] => 0
  | d :: before =>
    match d.id with
    | none => lowest neg before - 1
    | some n => if 0 < n then lowest neg before else if neg then n else lowest neg before - 1

/-- The number of a field after the fields `before`: the one that is written; otherwise one less than the last that is not positive. -/
def number (neg : Bool) (before : List (Decl T)) (d : Decl T) : Int :=
  match d.id with
  | none => lowest neg before.reverse - 1
  | some n => if 0 < n ∨ neg then n else lowest neg before.reverse - 1

/-- The field has no positive number. -/
def implicit (d : Decl T) : Bool :=
  match d.id with
  | none => true
  | some n => n ≤ 0

/-- `k` is the 32-bit number for `n`. -/
def Wraps (n k : Int) : Prop := InRange 32 k ∧ (k - n) % 2 ^ 32 = 0

/-- The names of fields and structs: no dots -/
def NoDot (n : PyStr) : Prop := 46 ∉ n

/-- Two fields have the same number, after wrapping around. -/
def SameNumber (neg : Bool) (ds : List (Decl T)) : Prop :=
  ∃ a d b e c, ds = a ++ d :: b ++ e :: c ∧ (number neg a d - number neg (a ++ d :: b) e) % 2 ^ 32 = 0

/-- The field lists that are accepted -/
structure FieldsAccepted (o : Options) (ds : List (Decl T)) : Prop where
  strict : 192 ≤ o.strict → ∀ d ∈ ds, ¬ Numbered o.allowNeg d
  dots : ∀ d ∈ ds, NoDot d.name
  names : (ds.map (·.name)).Nodup
  numbers : ¬ SameNumber o.allowNeg ds

/-- The field `m` of a struct is what was declared by `d`, except for its requiredness. -/
structure Declares (neg : Bool) (before : List (Decl T)) (d : Decl T) (m : Member T) : Prop where
  name : m.name = d.name
  type : m.ty = d.ty
  value : m.value = d.value
  key : Wraps (number neg before d) m.key

/-- The fields of a struct are what was declared, in the order of the declaration and in the order of the numbers. `req` is what becomes of the requiredness. -/
structure Made (neg : Bool) (req : Req → Req) (ds : List (Decl T)) (s : TStruct T) : Prop where
  length : s.members.length = ds.length
  each : ∀ a d b, ds = a ++ d :: b → ∃ m, s.members[a.length]? = some m ∧ Declares neg a d m ∧ m.req = req d.req
  same : s.sorted.Perm s.members
  ordered : s.sorted.Pairwise fun m n => m.key < n.key
  named : (s.members.map (·.name)).Nodup

/-- All numbers are written and valid. -/
def Explicit (ds : List (Decl T)) : Prop := ∀ d ∈ ds, ∃ n, d.id = some n ∧ 0 < n ∧ n < 2 ^ 15

/-- A `throws` clause as it should be: all numbers are written, no defaults, and no exception is called `success` -/
structure ThrowsOK (d : FnDecl T) : Prop where
  explicit : Explicit d.throws
  plain : ∀ x ∈ d.throws, x.value = none
  success : ∀ x ∈ d.throws, x.name ≠ pyStr "success"

/-- All numbers of fields are written and valid, and `throws` clauses are as they should be. -/
structure ProgramOK (p : Program) : Prop where
  structs : ∀ d ∈ p.structs, Explicit d.fields
  args : ∀ d ∈ p.fns, Explicit d.args
  throws : ∀ d ∈ p.fns, ThrowsOK d

end Thrift.Spec.Structs
