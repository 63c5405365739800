import Verif.Model.Consts
/-
What constants of the IDL mean, whatever the compiler does with them.
-/

namespace Thrift.Spec.Consts
open Thrift.Consts (Name Ty Schema CV Val Decl Const Scope)

/-- The constants declared so far: types and meanings -/
abbrev Env := Name → Option (Ty × Val)

/-- `x` names the value `a` of the enum `e`: `e.a`, or `file.e.a` for an enum of an included file. -/
def Qualified (e a x : Name) : Prop :=
  46 ∉ e ∧ 46 ∉ a ∧ (x = e ++ 46 :: a ∨ ∃ file, 46 ∉ file ∧ x = file ++ 46 :: (e ++ 46 :: a))

/-- The canonical notation of a UUID: 8, 4, 4, 4 and 12 hexadecimal digits with dashes between them -/
def Uuid (s : Bytes) : Prop :=
  s.length = 36 ∧ ∀ i c, s[i]? = some c →
    if i = 8 ∨ i = 13 ∨ i = 18 ∨ i = 23 then c = 45
    else (48 ≤ c ∧ c ≤ 57) ∨ (65 ≤ c ∧ c ≤ 70) ∨ (97 ≤ c ∧ c ≤ 102)

mutual
/-- The constant `cv`, written for the type, means this value. `allow` restricts the references to other constants. -/
inductive Means (S : Schema) (ρ : Env) (allow : Name → Ty → Prop) : Ty → CV → Val → Prop
  | false : Means S ρ allow .bool (.int 0) (.bool false)
  | true : Means S ρ allow .bool (.int 1) (.bool true)
  | int (n i) : Means S ρ allow (.int n) (.int i) (.int i)
  | double (d) : Means S ρ allow .double (.dbl d) (.float d)
  | whole (i) : Means S ρ allow .double (.int i) (.floatOf i)
  | string (s) : Means S ρ allow .string (.str s) (.text s)
  | binary (s) : Means S ρ allow .binary (.str s) (.bytes s)
  | named {e a x i} : Qualified e a x → (a, i) ∈ S.enums e → Means S ρ allow (.enum e) (.ident x none) (.int i)
  | uuid {s} : Uuid s → Means S ρ allow .uuid (.str s) (.uuid s)
  | braces {s} : Uuid s → Means S ρ allow .uuid (.str (123 :: s ++ [125])) (.uuid s)
  | numbered {e a i} : (a, i) ∈ S.enums e → 46 ∉ e → Means S ρ allow (.enum e) (.int i) (.int i)
  | ref {x t v} : ρ x = some (t, v) → allow x t → (∀ e, t ≠ .enum e) → Means S ρ allow t (.ident x none) v
  | widen {x m n i} : ρ x = some (.int m, .int i) → Means S ρ allow (.int n) (.ident x none) (.int i)
  | toDouble {x m i} : ρ x = some (.int m, .int i) → Means S ρ allow .double (.ident x none) (.floatOf i)
  | list {e xs vs} : MeansAll S ρ allow e xs vs → Means S ρ allow (.list e) (.list xs) (.list vs)
  | set {e xs vs} : MeansAll S ρ allow e xs vs → Means S ρ allow (.set e) (.list xs) (.set vs)
  | map {k v ps qs} : MeansPairs S ρ allow k v ps qs → Means S ρ allow (.map k v) (.map ps) (.map qs)
  | struct {n ps qs} : MeansFields S ρ allow (S.structs n) ps qs → Means S ρ allow (.struct n) (.map ps) (.struct n qs)

inductive MeansAll (S : Schema) (ρ : Env) (allow : Name → Ty → Prop) : Ty → List CV → List Val → Prop
  | nil (e) : MeansAll S ρ allow e [] []
  | cons {e x v xs vs} : Means S ρ allow e x v → MeansAll S ρ allow e xs vs → MeansAll S ρ allow e (x :: xs) (v :: vs)

inductive MeansPairs (S : Schema) (ρ : Env) (allow : Name → Ty → Prop) : Ty → Ty → List (CV × CV) → List (Val × Val) → Prop
  | nil (k v) : MeansPairs S ρ allow k v [] []
  | cons {k v x y a b ps qs} : Means S ρ allow k x a → Means S ρ allow v y b → MeansPairs S ρ allow k v ps qs →
      MeansPairs S ρ allow k v ((x, y) :: ps) ((a, b) :: qs)

inductive MeansFields (S : Schema) (ρ : Env) (allow : Name → Ty → Prop) : List (Name × Ty) → List (CV × CV) → List (Bytes × Val) → Prop
  | nil (fs) : MeansFields S ρ allow fs [] []
  | cons {fs t s y b ps qs} : (s.map UInt8.toNat, t) ∈ fs → Means S ρ allow t y b → MeansFields S ρ allow fs ps qs →
      MeansFields S ρ allow fs ((.str s, y) :: ps) ((s, b) :: qs)
end

/-- The declarations of a file with their meanings, each in terms of the ones before it -/
inductive Program (S : Schema) (allow : Env → Name → Ty → Prop) : Env → List Decl → List (Name × Ty × Val) → Prop
  | nil (ρ) : Program S allow ρ [] []
  | cons {ρ : Env} {d : Decl} {v ds out} : ρ d.name = none → Means S ρ (allow ρ) d.ty d.cv v →
      Program S allow (fun x => if x = d.name then some (d.ty, v) else ρ x) ds out → Program S allow ρ (d :: ds) ((d.name, d.ty, v) :: out)

/-- References to constants of base types, but not to a constant of type `double` that is written as an integer -/
def Simple (ρ : Env) (x : Name) (t : Ty) : Prop :=
  t = .bool ∨ (∃ n, t = .int n) ∨ t = .string ∨ t = .binary ∨ t = .uuid ∨ t = .double ∧ ∃ d, ρ x = some (.double, .float d)

/-- Values of enums and members of structs have different names; the names of the values have no dots. -/
structure Distinct (S : Schema) : Prop where
  plain : ∀ e, ∀ p ∈ S.enums e, 46 ∉ p.1
  enums : ∀ e, ((S.enums e).map (·.1)).Nodup
  structs : ∀ n, ((S.structs n).map (·.1)).Nodup

/-! ### Types

What the compiler accepts, in terms of types. Where this says less than one expects, it is because the compiler accepts more; see the comments. `refs` is false inside
constants of exception types, in which no references are followed. -/

/-- An integer, or the name of a constant of an integer type or of type `bool` -/
def Whole (sc : Scope) (refs : Bool) (cv : CV) : Prop :=
  (∃ i, cv = .int i) ∨ refs = true ∧ ∃ x en c, cv = .ident x en ∧ sc x = some c ∧ (c.ty = .bool ∨ ∃ n, c.ty = .int n)

/-- A string, or the name of a constant that is written as a string -/
def Text (sc : Scope) (refs : Bool) (cv : CV) (s : Bytes) : Prop :=
  cv = .str s ∨ refs = true ∧ ∃ x en c, cv = .ident x en ∧ sc x = some c ∧ (c.ty = .string ∨ c.ty = .binary ∨ c.ty = .uuid) ∧ c.cv = .str s

/-- A number with a fraction, or the name of a constant of type `double` -/
def Fraction (sc : Scope) (refs : Bool) (cv : CV) : Prop :=
  (∃ d, cv = .dbl d) ∨ refs = true ∧ ∃ x en c, cv = .ident x en ∧ sc x = some c ∧ c.ty = .double

/-- `x` ends with a dot and the name `a`, and there is one dot more at most. The prefix does not count. -/
def EndsWith (x a : Name) : Prop := ∃ p, 46 ∉ p ∧ (x = p ++ 46 :: a ∨ ∃ q, 46 ∉ q ∧ x = p ++ 46 :: (q ++ 46 :: a))

mutual
/-- `exc n x`: the constant `x` is accepted for the exception `n`. -/
def Typed (S : Schema) (sc : Scope) (refs : Bool) (exc : Name → Name → Prop) : Ty → CV → Prop
  | .bool, cv => Whole sc refs cv
  | .int _, cv => Whole sc refs cv
  | .double, cv => Whole sc refs cv ∨ Fraction sc refs cv
  | .string, cv => ∃ s, Text sc refs cv s
  | .binary, cv => ∃ s, Text sc refs cv s
  | .uuid, cv => ∃ s, Text sc refs cv s ∧ (Uuid s ∨ ∃ u, Uuid u ∧ s = 123 :: u ++ [125])
  | .enum e, .ident x _ => ∃ a i, (a, i) ∈ S.enums e ∧ EndsWith x a
  | .enum e, .int i => refs = true ∧ ∃ a, (a, i) ∈ S.enums e
  -- anything else counts as 0
  | .enum e, _ => refs = true ∧ ∃ a, (a, 0) ∈ S.enums e
  | .struct n, .map ps => TypedFields S sc refs exc (S.structs n) ps
  | .struct _, _ => False
  | .exception n, .map ps => TypedFields S sc false (fun _ _ => False) (S.structs n) ps
  | .exception n, .ident x _ => exc n x
  | .exception _, _ => False
  | .map k v, .map ps => TypedPairs S sc refs exc k v ps
  | .list e, .list xs => TypedAll S sc refs exc e xs
  | .set e, .list xs => TypedAll S sc refs exc e xs
  -- anything else is accepted for a container
  | .map _ _, _ => True
  | .list _, _ => True
  | .set _, _ => True

def TypedAll (S : Schema) (sc : Scope) (refs : Bool) (exc : Name → Name → Prop) (e : Ty) : List CV → Prop
  | [] => True
  | x :: xs => Typed S sc refs exc e x ∧ TypedAll S sc refs exc e xs

def TypedPairs (S : Schema) (sc : Scope) (refs : Bool) (exc : Name → Name → Prop) (k v : Ty) : List (CV × CV) → Prop
  | [] => True
  | (x, y) :: ps => Typed S sc refs exc k x ∧ Typed S sc refs exc v y ∧ TypedPairs S sc refs exc k v ps

def TypedFields (S : Schema) (sc : Scope) (refs : Bool) (exc : Name → Name → Prop) (fs : List (Name × Ty)) : List (CV × CV) → Prop
  | [] => True
  | (x, y) :: ps => (∃ s t, x = .str s ∧ fs.lookup (s.map UInt8.toNat) = some t ∧ Typed S sc refs exc t y) ∧ TypedFields S sc refs exc fs ps
end

/-- No reference is accepted. -/
abbrev NoRef : Name → Name → Prop := fun _ _ => False

/-- A constant of a map type is accepted for an exception, if its keys are the names of members. One of a map type that is not written as a map counts as empty. -/
def MapRef (S : Schema) (sc : Scope) (n x : Name) : Prop :=
  ∃ c k v, sc x = some c ∧ c.ty = .map k v ∧ ∀ ps, c.cv = .map ps → TypedFields S sc false NoRef (S.structs n) ps

/-- The declaration is accepted. -/
def Accepted (S : Schema) (sc : Scope) (t : Ty) (cv : CV) : Prop := Typed S sc true (MapRef S sc) t cv

end Thrift.Spec.Consts
