import Verif.Model.Audit
import Verif.Spec.Structs
import Verif.Spec.Versions
/-
What `thrift --audit` is to accept (`test/audit/README.md`), and what the names of types mean.
-/

namespace Thrift.Spec.Audit
open Rpc Thrift.Audit Spec.Structs
open Thrift.Structs hiding Program

/-! ### Sources -/

/-- A name is not empty, nor is it one of the words for types. -/
def Identifier (n : PyStr) : Prop :=
  n ≠ [] ∧ n ∉ [pyStr "bool", pyStr "i8", pyStr "i16", pyStr "i32", pyStr "i64", pyStr "double", pyStr "string", pyStr "void"]

/-- The names in a type are identifiers. -/
def Lexed : Written → Prop
  | .base _ => True
  | .named n => Identifier n
  | .list e => Lexed e
  | .set e => Lexed e
  | .map k v => Lexed k ∧ Lexed v

/-- The names of all types in a source are identifiers, as the lexer of the compiler guarantees. -/
structure SourceLexed (src : Source) : Prop where
  structs : ∀ d ∈ src.structs, ∀ x ∈ d.fields, Lexed x.ty
  args : ∀ s ∈ src.services, ∀ d ∈ s.fns, ∀ x ∈ d.args, Lexed x.ty
  throws : ∀ s ∈ src.services, ∀ d ∈ s.fns, ∀ x ∈ d.throws, Lexed x.ty
  returns : ∀ s ∈ src.services, ∀ d ∈ s.fns, ∀ w, d.returns = some w → Lexed w

/-- All numbers of fields are written and valid, and `throws` clauses are as they should be. -/
structure SourceOK (src : Source) : Prop where
  structs : ∀ d ∈ src.structs, Explicit d.fields
  args : ∀ s ∈ src.services, ∀ d ∈ s.fns, Explicit d.args
  throws : ∀ s ∈ src.services, ∀ d ∈ s.fns, ThrowsOK d

/-! ### What the audit compares -/

/-- The types that all are called `string` in the compiler -/
def Text (b : Base) : Prop := b = .string ∨ b = .binary ∨ b = .uuid

/-- Two types are written in the same way, but for the choice between `string`, `binary` and `uuid`. -/
def Same : Written → Written → Prop
  | .base a, .base b => a = b ∨ (Text a ∧ Text b)
  | .named m, .named n => m = n
  | .list a, .list b => Same a b
  | .set a, .set b => Same a b
  | .map a b, .map c d => Same a c ∧ Same b d
  | _, _ => False

/-- The fields `new` may replace the fields `old`: every id is still there, with the same type and as required as it was; what was added is not required and has greater ids than
everything else. -/
structure Keeps (new old : List (Member Written)) : Prop where
  kept : ∀ o ∈ old, ∃ n ∈ new, n.key = o.key ∧ Same n.ty o.ty ∧ (n.req = .required ↔ o.req = .required)
  added : ∀ n ∈ new, (∀ o ∈ old, o.key ≠ n.key) → n.req ≠ .required ∧ ∀ o ∈ old, o.key < n.key

/-- The same, or both `void` -/
def SameReturn : Option Written → Option Written → Prop
  | none, none => True
  | some a, some b => Same a b
  | _, _ => False

/-- A function may replace another. -/
structure KeepsFunction (new old : Function Written) : Prop where
  name : new.name = old.name
  oneway : new.oneway = old.oneway
  returns : SameReturn new.returns old.returns
  args : Keeps new.args.members old.args.members
  throws : Keeps new.xceptions.members old.xceptions.members

/-- What passes the audit -/
structure Passes (new old : Program) : Prop where
  structs : ∀ o ∈ old.structs, ∃ n ∈ new.structs, n.name = o.name ∧ Keeps n.made.members o.made.members
  xceptions : ∀ o ∈ old.xceptions, ∃ n ∈ new.xceptions, n.name = o.name ∧ Keeps n.made.members o.made.members
  /-- an enum that is still there has all values -/
  enums : ∀ o ∈ old.enums, ∀ n ∈ new.enums, n.name = o.name → ∀ v ∈ o.values, v ∈ n.values
  services : ∀ o ∈ old.services, ∃ n ∈ new.services, n.name = o.name ∧ (∀ e, o.extends_ = some e → n.extends_ = some e) ∧
    ∀ f ∈ o.fns, ∃ g ∈ n.fns, KeepsFunction g f

/-! ### What programs mean -/

/-- The types of the values that the words of the IDL stand for -/
def baseTypes : List (Base × Ty) :=
  [(.bool, .bool), (.i8, .byte), (.i16, .i16), (.i32, .i32), (.i64, .i64), (.double, .double), (.string, .string), (.binary, .binary), (.uuid, .uuid)]

/-- The type that is meant by what is written -/
inductive Denotes (p : Program) (N : Numbering) : Written → Ty → Prop
  | base (b : Base) (t : Ty) : (b, t) ∈ baseTypes → Denotes p N (.base b) t
  | list (e : Written) (t : Ty) : Denotes p N e t → Denotes p N (.list e) (.list t)
  | set (e : Written) (t : Ty) : Denotes p N e t → Denotes p N (.set e) (.set t)
  | map (k v : Written) (s t : Ty) : Denotes p N k s → Denotes p N v t → Denotes p N (.map k v) (.map s t)
  | typedef (n : PyStr) (w : Written) (t : Ty) : (n, w) ∈ p.typedefs → Denotes p N w t → Denotes p N (.named n) t
  | enum (e : Enum) : e ∈ p.enums → Denotes p N (.named e.name) .i32
  | struct (s : Struct) : s ∈ p.structs ++ p.xceptions → Denotes p N (.named s.name) (.struct (N.num (.type s.name)))

/-- `m` is a field of class `c`. -/
inductive Declared (p : Program) : Class → Member Written → Prop
  | field (s : Struct) (m : Member Written) : s ∈ p.structs ++ p.xceptions → m ∈ s.made.members → Declared p (.type s.name) m
  | arg (s : Service) (f : Function Written) (m : Member Written) : s ∈ p.services → f ∈ s.fns → m ∈ f.args.members → Declared p (.args s.name f.name) m
  | success (s : Service) (f : Function Written) (w : Written) : s ∈ p.services → f ∈ s.fns → f.returns = some w →
    Declared p (.result s.name f.name) { key := 0, req := .default_, ty := w, name := pyStr "success", value := none }
  | thrown (s : Service) (f : Function Written) (m : Member Written) : s ∈ p.services → f ∈ s.fns → m ∈ f.xceptions.members →
    Declared p (.result s.name f.name) m

/-- The classes of a program -/
inductive HasClass (p : Program) : Class → Prop
  | type (s : Struct) : s ∈ p.structs ++ p.xceptions → HasClass p (.type s.name)
  | args (s : Service) (f : Function Written) : s ∈ p.services → f ∈ s.fns → HasClass p (.args s.name f.name)
  | result (s : Service) (f : Function Written) : s ∈ p.services → f ∈ s.fns → HasClass p (.result s.name f.name)

/-- Service `n` has the function `f`, which the service `svc` declares: `n` itself, or one that it extends. -/
inductive Offers (p : Program) : PyStr → PyStr → Function Written → Prop
  | own (s : Service) (f : Function Written) : s ∈ p.services → f ∈ s.fns → Offers p s.name s.name f
  | inherits (s : Service) (e svc : PyStr) (f : Function Written) : s ∈ p.services → s.extends_ = some e → Offers p e svc f → Offers p s.name svc f

/-- What the audit does not look at: typedefs and enums stay what they are, and no field is changed between `string`, `binary` and `uuid`. -/
structure Unchecked (new old : Program) : Prop where
  typedefs : ∀ d ∈ old.typedefs, d ∈ new.typedefs
  enums : ∀ o ∈ old.enums, ∃ n ∈ new.enums, n.name = o.name
  text : ∀ c m n, Declared old c m → Declared new c n → n.key = m.key → Same n.ty m.ty → n.ty = m.ty

/-- The classes `new` have all fields of the classes `old`, with the same types and as required as they were; other fields of the classes with the numbers `I` are not required, and have
greater ids. -/
structure ExtendsSchema (I : Nat → Prop) (new old : Schema) : Prop where
  kept : ∀ sid, ∀ f ∈ old sid, ∃ g ∈ new sid, g.fid = f.fid ∧ g.ty = f.ty ∧ g.required = f.required
  added : ∀ sid, I sid → ∀ g ∈ new sid, (∀ f ∈ old sid, f.fid ≠ g.fid) → g.required = false ∧ ∀ f ∈ old sid, f.fid < g.fid

end Thrift.Spec.Audit
