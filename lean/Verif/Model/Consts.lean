import Verif.Model.Base
/-
Constants and defaults in the compiler: `t_const_value`, `parse/t_const_value.h`; references to other constants, `resolve_const_value`, `parse/t_scope.h`
109-210; the checks of `validate_const_rec`, `main.cc` 742-867; the values of enums, `thrifty.yy` 467-523; and the value that the expression of
`render_const_value`, `t_py_generator.cc` 606-736, has in Python.

Simplifications. Typedefs are replaced by what they stand for. A literal of type `double` is its 64 bits, a string its bytes; for their text see
`Verif.Model.Source` and `Verif.Model.Numbers`. `map_` of a `t_const_value` is a list of pairs in the order of its `std::map`. A `set` and a `dict` of
Python are the elements in the order in which they are written; a struct is its class and the keyword arguments of the call (see
`Verif.Model.Defaults`). `none` is an error message of the compiler.
-/

namespace Thrift.Consts

abbrev Name := PyStr

inductive Ty where
  | bool | int (bits : Nat) | double | string | binary | uuid
  | enum (name : Name)
  | struct (name : Name)
  | exception (name : Name)
  | list (e : Ty) | set (e : Ty) | map (k v : Ty)
  deriving DecidableEq, Repr

/-- The enums with their values, the structs and exceptions with their members -/
structure Schema where
  enums : Name → List (Name × Int)
  structs : Name → List (Name × Ty)

/-- `t_const_value`: the kind `valType_` with the member that goes with it. The other members have the values of the constructor, `t_const_value.h` 49-53. -/
inductive CV where
  | int (i : Int)
  | dbl (bits : UInt64)
  | str (s : Bytes)
  | map (ps : List (CV × CV))
  | list (xs : List CV)
  | ident (name : Name) (enum : Option Name)

/-- `get_double`, `t_const_value.h` 98 -/
def CV.getDouble : CV → UInt64
  | .dbl d => d
  | _ => 0

/-- `get_string` -/
def CV.getString : CV → Bytes
  | .str s => s
  | _ => []

/-- `get_map` -/
def CV.getMap : CV → List (CV × CV)
  | .map ps => ps
  | _ => []

/-- `get_list` -/
def CV.getList : CV → List CV
  | .list xs => xs
  | _ => []

/-- What follows the last dot, `t_const_value.h` 72-76 -/
def afterLastDot (x : Name) : Name := (x.reverse.takeWhile (· ≠ 46)).reverse

/-- `get_identifier_name`, `t_const_value.h` 119-130: what follows the first dot, then what follows the next one if there is one; `none` if there is no dot. -/
def identifierName (x : Name) : Option Name :=
  match x.dropWhile (· ≠ 46) with
  | [] => none
  | _ :: r =>
    match r.dropWhile (· ≠ 46) with
    | [] => some r
    | _ :: r' => some r'

/-- `get_constant_by_name` -/
def byName (vs : List (Name × Int)) (n : Name) : Option Int := vs.lookup n

/-- `get_constant_by_value`: the first one -/
def byValue (vs : List (Name × Int)) (i : Int) : Option Name := (vs.find? fun p => p.2 = i).map (·.1)

/-- `get_integer`, `t_const_value.h` 66-87 -/
def CV.getInteger (S : Schema) : CV → Option Int
  | .int i => some i
  | .ident x (some e) => byName (S.enums e) (afterLastDot x)
  | .ident _ none => none
  | _ => some 0

/-- A constant in a scope, with its value after `resolve_const_value` -/
structure Const where
  ty : Ty
  cv : CV

abbrev Scope := Name → Option Const

/-- The part of `resolve_const_value` for an identifier that does not stand for a value of an enum, `t_scope.h` 149-195 -/
def resolveIdent (S : Schema) (sc : Scope) (x : Name) (en : Option Name) : Option CV :=
  match sc x with
  | none => none
  | some c =>
    match c.ty with
    | .bool | .int _ => (c.cv.getInteger S).map .int
    | .string | .binary | .uuid => some (.str c.cv.getString)
    | .double => some (.dbl c.cv.getDouble)
    | .map _ _ => some (.map c.cv.getMap)
    | .list _ => some (.list c.cv.getList)
    | .enum _ | .struct _ | .exception _ | .set _ => some (.ident x en)

/-- The rest, `t_scope.h` 145-209 -/
def resolveBase (S : Schema) (sc : Scope) (ty : Ty) (cv : CV) : Option CV :=
  match cv with
  | .ident x en =>
    match ty with
    | .enum e => some (.ident x (some e))
    | _ => resolveIdent S sc x en
  | cv =>
    match ty with
    | .enum e =>
      match (cv.getInteger S).bind (byValue (S.enums e)) with
      | some n => some (.ident (e ++ 46 :: n) (some e))
      | none => none
    | _ => some cv

mutual
/-- `resolve_const_value`, `t_scope.h` 109-210. `is_struct()` does not hold for exceptions, `t_struct.h` 114. A value of the wrong kind has an empty `get_map()`
and `get_list()`. -/
def resolve (S : Schema) (sc : Scope) : Ty → CV → Option CV
  | .map k v, .map ps => (resolvePairs S sc k v ps).map .map
  | .map _ _, cv => some cv
  | .list e, .list xs => (resolveAll S sc e xs).map .list
  | .list _, cv => some cv
  | .set e, .list xs => (resolveAll S sc e xs).map .list
  | .set _, cv => some cv
  | .struct n, .map ps => (resolveFields S sc (S.structs n) ps).map .map
  | .struct _, cv => some cv
  | ty, cv => resolveBase S sc ty cv

def resolveAll (S : Schema) (sc : Scope) (e : Ty) : List CV → Option (List CV)
  | [] => some []
  | x :: xs => do
    let y ← resolve S sc e x
    let ys ← resolveAll S sc e xs
    some (y :: ys)

def resolvePairs (S : Schema) (sc : Scope) (k v : Ty) : List (CV × CV) → Option (List (CV × CV))
  | [] => some []
  | (x, y) :: ps => do
    let x ← resolve S sc k x
    let y ← resolve S sc v y
    let ps ← resolvePairs S sc k v ps
    some ((x, y) :: ps)

def resolveFields (S : Schema) (sc : Scope) (fs : List (Name × Ty)) : List (CV × CV) → Option (List (CV × CV))
  | [] => some []
  | (x, y) :: ps => do
    let t ← fs.lookup (x.getString.map UInt8.toNat)
    let y ← resolve S sc t y
    let ps ← resolveFields S sc fs ps
    some ((x, y) :: ps)
end

/-- The "usual Windows GUID format", `t_const_value.h` 208-211 -/
def stripBraces (s : Bytes) : Bytes := if s.length = 38 ∧ s[0]? = some 123 ∧ s[37]? = some 125 then (s.drop 1).take 36 else s

/-- 36 characters, dashes in their places, hexadecimal digits elsewhere, `t_const_value.h` 213-234 -/
def uuidForm (s : Bytes) : Bool :=
  s.length == 36 && s.zipIdx.all fun p =>
    if p.2 ∈ [8, 13, 18, 23] then p.1 = 45 else (48 ≤ p.1 && p.1 ≤ 57) || (65 ≤ p.1 && p.1 ≤ 70) || (97 ≤ p.1 && p.1 ≤ 102)

/-- `validate_uuid`, `t_const_value.h` 205-240 -/
def validateUuid (s : Bytes) : Option Bytes := if uuidForm (stripBraces s) then some (stripBraces s) else none

mutual
/-- `validate_const_rec`, `main.cc` 742-867 -/
def validate (S : Schema) : Ty → CV → Bool
  | .bool, .int _ => true
  | .int _, .int _ => true
  | .double, .int _ => true
  | .double, .dbl _ => true
  | .string, .str _ => true
  | .binary, .str _ => true
  | .uuid, .str s => (validateUuid s).isSome
  | .enum e, .ident x _ =>
    match identifierName x with
    | some n => (S.enums e).any fun p => p.1 = n
    | none => false
  | .struct n, .map ps => validateFields S (S.structs n) ps
  | .exception n, .map ps => validateFields S (S.structs n) ps
  | .map k v, .map ps => validatePairs S k v ps
  | .map _ _, _ => true
  | .list e, .list xs => validateAll S e xs
  | .list _, _ => true
  | .set e, .list xs => validateAll S e xs
  | .set _, _ => true
  | _, _ => false

def validateAll (S : Schema) (e : Ty) : List CV → Bool
  | [] => true
  | x :: xs => validate S e x && validateAll S e xs

def validatePairs (S : Schema) (k v : Ty) : List (CV × CV) → Bool
  | [] => true
  | (x, y) :: ps => validate S k x && validate S v y && validatePairs S k v ps

def validateFields (S : Schema) (fs : List (Name × Ty)) : List (CV × CV) → Bool
  | [] => true
  | (.str s, y) :: ps =>
    match fs.lookup (s.map UInt8.toNat) with
    | some t => validate S t y && validateFields S fs ps
    | none => false
  | _ :: _ => false
end

/-- The values of constants in Python -/
inductive Val where
  | bool (b : Bool)
  | int (i : Int)
  | float (bits : UInt64)
  | floatOf (i : Int)
  | text (s : Bytes)
  | bytes (s : Bytes)
  | uuid (s : Bytes)
  | list (xs : List Val)
  | set (xs : List Val)
  | map (ps : List (Val × Val))
  | struct (name : Name) (args : List (Bytes × Val))

mutual
/-- The value of `render_const_value`, cc 606-736, without the option `enum` -/
def eval (S : Schema) : Ty → CV → Option Val
  | .bool, cv => (cv.getInteger S).map fun i => .bool (0 < i)
  | .int _, cv => (cv.getInteger S).map .int
  | .double, .int i => some (.floatOf i)
  | .double, cv => some (.float cv.getDouble)
  | .string, cv => some (.text cv.getString)
  | .binary, cv => some (.bytes cv.getString)
  | .uuid, cv => (validateUuid cv.getString).map .uuid
  | .enum _, cv => (cv.getInteger S).map .int
  | .struct n, .map ps => (evalFields S (S.structs n) ps).map (.struct n)
  | .struct n, _ => some (.struct n [])
  | .exception n, .map ps => (evalFields S (S.structs n) ps).map (.struct n)
  | .exception n, _ => some (.struct n [])
  | .map k v, .map ps => (evalPairs S k v ps).map .map
  | .map _ _, _ => some (.map [])
  | .list e, .list xs => (evalAll S e xs).map .list
  | .list _, _ => some (.list [])
  | .set e, .list xs => (evalAll S e xs).map .set
  | .set _, _ => some (.set [])

def evalAll (S : Schema) (e : Ty) : List CV → Option (List Val)
  | [] => some []
  | x :: xs => do
    let y ← eval S e x
    let ys ← evalAll S e xs
    some (y :: ys)

def evalPairs (S : Schema) (k v : Ty) : List (CV × CV) → Option (List (Val × Val))
  | [] => some []
  | (x, y) :: ps => do
    let x ← eval S k x
    let y ← eval S v y
    let ps ← evalPairs S k v ps
    some ((x, y) :: ps)

def evalFields (S : Schema) (fs : List (Name × Ty)) : List (CV × CV) → Option (List (Bytes × Val))
  | [] => some []
  | (x, y) :: ps => do
    let t ← fs.lookup (x.getString.map UInt8.toNat)
    let v ← eval S t y
    let ps ← evalFields S fs ps
    some ((x.getString, v) :: ps)
end

/-- A declaration `const ty name = value`, thrifty.yy 525-542 -/
structure Decl where
  name : Name
  ty : Ty
  cv : CV

/-- What one declaration adds to the scope; a name that is taken is an error, `add_constant`, `t_scope.h` 73-79. -/
def declare (S : Schema) (sc : Scope) (d : Decl) : Option Const :=
  match sc d.name with
  | some _ => none
  | none =>
    match resolve S sc d.ty d.cv with
    | some cv => if validate S d.ty cv then some ⟨d.ty, cv⟩ else none
    | none => none

/-- The declarations of a file in their order; the constants in the order of the generated `constants.py`. -/
def program (S : Schema) : Scope → List Decl → Option (List (Name × Const))
  | _, [] => some []
  | sc, d :: ds => do
    let c ← declare S sc d
    let cs ← program S (fun x => if x = d.name then some c else sc x) ds
    some ((d.name, c) :: cs)

end Thrift.Consts
