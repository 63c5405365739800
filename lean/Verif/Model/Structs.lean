import Verif.Model.Rpc
/-
How the compiler makes structs, unions, exceptions and functions of their declarations in the IDL: the grammar actions for fields, field lists, structs and functions
(`compiler/cpp/src/thrift/thrifty.yy` 634-646, 690-700, 745-811, 819-850, 1018-1066), `t_struct` (`parse/t_struct.h`), `t_function` (`parse/t_function.h`), `t_service`
(`parse/t_service.h`), and the structs that the Python generator adds (`generate/t_py_generator.cc` 1341-1376).

Types are of a type `T`. In `compile` they are resolved: a type is a `Ty`, in which structs, unions and exceptions have numbers; in `Audit` they are written as in the source. A default value is the Python value that it denotes; whether the compiler accepts it
is not modelled here (see `Consts`). `xsd_attrs` (a field list within a field) is not modelled, nor is `extends` of services.
-/

namespace Thrift.Structs
open Rpc

/-- `t_field::e_req`, `t_field.h` 75 -/
inductive Req where
  | required | optional | default_
  deriving DecidableEq, Repr

/-- A field as it is written: `id: req type name = value`. The id is the value of a `tok_int_constant`, an `int64_t`. -/
structure Decl (T : Type := Ty) where
  id : Option Int
  req : Req := .default_
  ty : T
  name : PyStr
  value : Option Val := none

/-- `t_field` -/
structure Member (T : Type := Ty) where
  key : Int
  req : Req
  ty : T
  name : PyStr
  value : Option Val

/-- Command line options: `-strict` (`main.cc` 110, 1132) and `-allow-neg-keys` (`main.cc` 140, 1139) -/
structure Options where
  strict : Nat := 127
  allowNeg : Bool := false

/-- Why a declaration is rejected -/
inductive Reject where
  /-- `thrifty.yy` 825-828 -/
  | implicitKey
  /-- `main.cc` 873-879 -/
  | dot
  /-- `thrifty.yy` 807-810 -/
  | used
  /-- `t_struct.h` 195-198 -/
  | anotherDefault
  /-- `thrifty.yy` 792-795 -/
  | notException
  /-- `t_function.h` 59-61 -/
  | onewayThrows
  /-- `t_service.h` 40-42 -/
  | function
  deriving DecidableEq, Repr

/-- `static_cast<int32_t>` -/
def int32 (i : Int) : Int := (i + 2 ^ 31) % 2 ^ 32 - 2 ^ 31

/-- `t_field_id`, `t_field.h` 127-130 -/
structure FieldId where
  value : Int
  auto_ : Bool

/-- `FieldIdentifier`, `thrifty.yy` 1018-1066, without warnings. The second result is the new `y_field_val`. The decrements of `y_field_val` and of `$1` are taken to wrap around,
as they do not in the standard of C++. -/
def identify (allowNeg : Bool) (id : Option Int) (y : Int) : FieldId × Int :=
  match id with
  | some n =>
    if n ≤ 0 then
      if allowNeg then ({ value := int32 n, auto_ := false }, int32 (n - 1))
      else ({ value := y, auto_ := true }, int32 (y - 1))
    else ({ value := int32 n, auto_ := false }, y)
  | none => ({ value := y, auto_ := true }, int32 (y - 1))

/-- `t_struct`: `members_`, `members_in_id_order_`. The other attributes do not change while fields are appended. -/
structure TStruct (T : Type := Ty) where
  members : List (Member T) := []
  sorted : List (Member T) := []

/-- `t_struct::append`, `t_struct.h` 83-105; `none` is `false`. `std::equal_range` on a sorted vector gives the part with the key of the new field. While a field list is parsed,
its struct has no name and is neither a union nor a `throws` clause, so that nothing is validated (165-174, 188-190, 204-206). -/
def append {T : Type} (m : Member T) (s : TStruct T) : Option (TStruct T) :=
  if s.sorted.any (fun x => x.key == m.key) then none
  else if s.sorted.any (fun x => x.name == m.name) then none
  else some
    { members := s.members ++ [m]
      sorted := s.sorted.takeWhile (fun x => x.key ≤ m.key) ++ m :: s.sorted.dropWhile (fun x => x.key ≤ m.key) }

/-- `validate_simple_identifier`, `main.cc` 873-879 -/
def simple (name : PyStr) : Bool := !name.contains 46

/-- `FieldList` and `Field`, `thrifty.yy` 802-850, from `y_field_val = y` on -/
def fieldList {T : Type} (o : Options) : List (Decl T) → Int → TStruct T → Except Reject (TStruct T)
  | [], _, s => .ok s
  | d :: ds, y, s =>
    let (i, y') := identify o.allowNeg d.id y
    if i.auto_ && 192 ≤ o.strict then .error .implicitKey
    else if !simple d.name then .error .dot
    else
      match append { key := i.value, req := d.req, ty := d.ty, name := d.name, value := d.value } s with
      | none => .error .used
      | some s' => fieldList o ds y' s'

/-- `$$ = new t_struct(g_program)`, `y_field_val = -1`: `thrifty.yy` 812-817 -/
def fields {T : Type} (o : Options) (ds : List (Decl T)) : Except Reject (TStruct T) := fieldList o ds (-1) {}

/-- An assignment to an attribute of all fields, which both vectors of a struct point to -/
def TStruct.each {T : Type} (f : Member T → Member T) (s : TStruct T) : TStruct T := { members := s.members.map f, sorted := s.sorted.map f }

/-- `struct`, `union`, `exception` -/
inductive Kind where
  | struct | union | exception
  deriving DecidableEq, Repr

/-- A declaration of a struct, union or exception -/
structure StructDecl (T : Type := Ty) where
  kind : Kind := .struct
  name : PyStr
  fields : List (Decl T)

/-- The actions of `Struct`, `thrifty.yy` 634-646, and `Xception`, 690-700. For a union, `set_name` validates the members (`t_struct.h` 61-65, 165-200, 230-237): they become
optional, and at most one may have a default. -/
def struct {T : Type} (o : Options) (d : StructDecl T) : Except Reject (TStruct T) :=
  match fields o d.fields with
  | .error e => .error e
  | .ok s =>
    if !simple d.name then .error .dot
    else if d.kind = .union then
      if 1 < (s.sorted.filter (·.value.isSome)).length then .error .anotherDefault
      else .ok (s.each fun m => { m with req := .optional })
    else .ok s

/-- A declaration of a function; `returns` is `none` for `void`. -/
structure FnDecl (T : Type := Ty) where
  oneway : Bool := false
  returns : Option T := none
  name : PyStr
  args : List (Decl T) := []
  throws : List (Decl T) := []

/-- `t_function` -/
structure Function (T : Type := Ty) where
  oneway : Bool
  returns : Option T
  name : PyStr
  args : TStruct T
  xceptions : TStruct T

/-- `validate_throws`, `main.cc` 898-907. `isExc` tells which types are exceptions. -/
def throwsOk {T : Type} (isExc : T → Bool) (s : TStruct T) : Bool := s.members.all fun m => isExc m.ty

/-- `Throws` and `Function`, `thrifty.yy` 758-800, and the constructor of `t_function`, `t_function.h` 48-66. `set_method_xcepts` changes required exceptions to default
(`t_struct.h` 69-73, 203-215). -/
def function {T : Type} (o : Options) (isExc : T → Bool) (d : FnDecl T) : Except Reject (Function T) :=
  match fields o d.args with
  | .error e => .error e
  | .ok a =>
    match fields o d.throws with
    | .error e => .error e
    | .ok x =>
      if !throwsOk isExc x then .error .notException
      else if !simple d.name then .error .dot
      else if d.oneway && !x.members.isEmpty then .error .onewayThrows
      else .ok
        { oneway := d.oneway
          returns := d.returns
          name := d.name
          args := a
          xceptions := x.each fun m => { m with req := if m.req = .required then .default_ else m.req } }

/-- `result.append(…)` in the generator, whose result is ignored -/
def tryAppend {T : Type} (m : Member T) (s : TStruct T) : TStruct T := (append m s).getD s

def successField : PyStr := pyStr "success"

/-- The struct `name_result`, `t_py_generator.cc` 1361-1376 -/
def resultStruct {T : Type} (f : Function T) : TStruct T :=
  let s := match f.returns with
    | some ty => tryAppend { key := 0, req := .default_, ty := ty, name := successField, value := none } {}
    | none => {}
  f.xceptions.members.foldl (fun s m => tryAppend m s) s

/-- The fields of the generated class: they are written and read in the order of their ids (`t_py_generator.cc` 779, 1211). -/
def TStruct.schema (s : TStruct) : List Field :=
  s.sorted.map fun m => { fid := m.key, ty := m.ty, required := m.req = .required, dflt := m.value }

/-- The functions of a service, `thrifty.yy` 745-756 and `t_service.h` 39-44 -/
def functions {T : Type} (o : Options) (isExc : T → Bool) : List (FnDecl T) → List (Function T) → Except Reject (List (Function T))
  | [], fs => .ok fs
  | d :: ds, fs =>
    match function o isExc d with
    | .error e => .error e
    | .ok f => if fs.any (fun g => g.name == f.name) then .error .function else functions o isExc ds (fs ++ [f])

/-- The structs of a program and the functions of its service -/
structure Program where
  structs : List StructDecl
  fns : List FnDecl

def structs (o : Options) : List StructDecl → Except Reject (List TStruct)
  | [] => .ok []
  | d :: ds =>
    match struct o d with
    | .error e => .error e
    | .ok s =>
      match structs o ds with
      | .error e => .error e
      | .ok ss => .ok (s :: ss)

/-- Is the type one of an exception? -/
def Program.isExc (p : Program) : Ty → Bool
  | .struct sid => p.structs[sid]?.any fun d => d.kind = .exception
  | _ => false

/-- The generated code: the fields of its classes and the functions of the service -/
structure Generated where
  schema : Schema
  fns : List Fn

/-- The number of the class of an exception type -/
def classOf : Ty → Nat
  | .struct sid => sid
  | _ => 0

/-- The function as its generated methods see it: `except` clauses and the tests of a client are in the order of `get_members` (`t_py_generator.cc` 1719, 2108), while `Fn`
has the exceptions in the order of the ids. -/
def Function.fn (f : Function) (argsId resultId : Nat) : Fn :=
  { name := f.name, argsId := argsId, resultId := resultId, returns := f.returns.isSome, throws := f.xceptions.sorted.map fun m => classOf m.ty, oneway := f.oneway }

/-- The classes: those of the program (`t_generator.cc` 30-77), then for each function `name_args` and, unless it is oneway, `name_result` (`t_py_generator.cc` 1341-1376);
here a oneway function has one that is not used. -/
def classes (ss : List TStruct) (fs : List Function) : List TStruct := ss ++ fs.flatMap fun f => [f.args, resultStruct f]

/-- The functions, with the classes of their arguments and results from number `n` on -/
def fnsFrom (n : Nat) : List Function → List Fn
  | [] => []
  | f :: fs => f.fn n (n + 1) :: fnsFrom (n + 2) fs

/-- The compiler -/
def compile (o : Options) (p : Program) : Except Reject Generated :=
  match structs o p.structs with
  | .error e => .error e
  | .ok ss =>
    match functions o p.isExc p.fns [] with
    | .error e => .error e
    | .ok fs => .ok { schema := fun i => ((classes ss fs)[i]?.map TStruct.schema).getD [], fns := fnsFrom ss.length fs }

end Thrift.Structs
