import Verif.Model.Structs
/-
`thrift --audit old.thrift new.thrift`: `compiler/cpp/src/thrift/audit/t_audit.cpp` and `audit` in `main.cc` 1056-1082, which tell whether a new version of a service breaks the old
one. Also what both programs mean: how names of types are looked up (`thrifty.yy` 359-373, 1125-1145, `parse/t_typedef.cc`, `parse/parse.cc` 29-35, `parse/t_scope.h`), services that
extend others (`thrifty.yy` 703-756, `parse/t_service.h`, `parse/t_program.h` 115-118, 141-182), and the classes that are generated from the program.

A program is one file: `include` is in `Includes`. Warnings of the audit are not modelled, so that `compare_namespace`, `compare_consts`, `compare_defaults` and the names of fields
and of enum values do not occur. Names of types are looked up in the whole program; in the source, a type that is used in a `throws` clause and a service that is extended have
to be declared before.
-/

namespace Thrift.Audit
open Structs Rpc

/-- `t_base_type`, `common.cc` 35-45 (`byte` is `i8`, `thrifty.yy` 1189-1193) -/
inductive Base where
  | bool | i8 | i16 | i32 | i64 | double | string | binary | uuid
  deriving DecidableEq, Repr

/-- `get_name()`, `common.cc` 36-45 -/
def Base.name : Base → PyStr
  | .bool => pyStr "bool"
  | .i8 => pyStr "i8"
  | .i16 => pyStr "i16"
  | .i32 => pyStr "i32"
  | .i64 => pyStr "i64"
  | .double => pyStr "double"
  | .string => pyStr "string"
  | .binary => pyStr "string"
  | .uuid => pyStr "string"

/-- The type of the Python code, `type_to_enum` and `type_to_spec_args`, `t_py_generator.cc` 2961-3037 -/
def Base.ty : Base → Ty
  | .bool => .bool
  | .i8 => .byte
  | .i16 => .i16
  | .i32 => .i32
  | .i64 => .i64
  | .double => .double
  | .string => .string
  | .binary => .binary
  | .uuid => .uuid

/-- A type as it is written in the IDL -/
inductive Written where
  | base (b : Base)
  | named (n : PyStr)
  | list (e : Written)
  | set (e : Written)
  | map (k v : Written)
  deriving DecidableEq, Repr

/-- `get_name()` of a type: the name of a struct, an enum or a typedef (also of one that is not yet declared, `t_typedef.h` 46-52) is what is written; containers have none. -/
def Written.name : Written → PyStr
  | .base b => b.name
  | .named n => n
  | _ => []

/-- `t_struct` after parsing -/
structure Struct where
  kind : Kind
  name : PyStr
  made : TStruct Written

/-- `t_service` -/
structure Service where
  name : PyStr
  extends_ : Option PyStr := none
  fns : List (Function Written)

/-- `t_enum`: its name and values -/
structure Enum where
  name : PyStr
  values : List Int

/-- `t_program`: `typedefs_`, `enums_`, `structs_` (with unions), `xceptions_`, `services_` -/
structure Program where
  typedefs : List (PyStr × Written) := []
  enums : List Enum := []
  structs : List Struct := []
  xceptions : List Struct := []
  services : List Service := []

/-! ### The audit -/

/-- What the audit complains about -/
inductive Failure where
  | enumValue (enum : PyStr) (value : Int)
  | fieldType (struct : PyStr) (key : Int)
  | requiredness (struct : PyStr) (key : Int)
  | removed (struct : PyStr) (key : Int)
  | requiredAdded (struct : PyStr) (key : Int)
  | middle (struct : PyStr) (key : Int)
  | structMissing (struct : PyStr)
  | oneway (fn : PyStr)
  | returnType (fn : PyStr)
  | functionMissing (fn : PyStr)
  | serviceMissing (service : PyStr)
  | inheritance (service : PyStr)
  deriving DecidableEq, Repr

/-- `compare_type`, `t_audit.cpp` 119-164 -/
def compareType : Written → Written → Bool
  | .list a, .list b => compareType a b
  | .map k v, .map k' v' => compareType k k' && compareType v v'
  | .set a, .set b => compareType a b
  | a, b => if a.name = [] ∧ b.name = [] then false else a.name == b.name

/-- `compare_struct_field`, `t_audit.cpp` 216-247 -/
def compareField (s : PyStr) (new old : Member Written) : List Failure :=
  (if compareType new.ty old.ty then [] else [.fieldType s new.key]) ++
    (if decide (new.req ≠ .required) = decide (old.req ≠ .required) then [] else [.requiredness s new.key])

/-- `compare_single_struct`, `t_audit.cpp` 249-299. The lists are in the order of the ids. -/
def compareStruct (s : PyStr) : List (Member Written) → List (Member Written) → List Failure
  | [], [] => []
  | [], o :: os => .removed s o.key :: compareStruct s [] os
  | n :: ns, [] => (if n.req = .required then [.requiredAdded s n.key] else []) ++ compareStruct s ns []
  | n :: ns, o :: os =>
    if n.key = o.key then compareField s n o ++ compareStruct s ns os
    else if n.key < o.key then .middle s n.key :: compareStruct s ns (o :: os)
    else .removed s o.key :: compareStruct s (n :: ns) os
termination_by new old => new.length + old.length

/-- The last of a list with a name: what a `std::map` from names has after the assignments -/
def byName {α : Type} (name : α → PyStr) (l : List α) (n : PyStr) : Option α := l.reverse.find? fun x => name x == n

/-- `compare_structs`, `t_audit.cpp` 301-325 -/
def compareStructs (new old : List Struct) : List Failure :=
  old.flatMap fun o =>
    match byName Struct.name new o.name with
    | none => [.structMissing o.name]
    | some n => compareStruct o.name n.made.sorted o.made.sorted

/-- `compare_enum_values`, `t_audit.cpp` 71-92 -/
def compareEnum (new old : Enum) : List Failure :=
  old.values.flatMap fun v => if new.values.any (· == v) then [] else [.enumValue old.name v]

/-- `compare_enums`, `t_audit.cpp` 94-117 -/
def compareEnums (new old : List Enum) : List Failure :=
  old.flatMap fun o =>
    match byName Enum.name new o.name with
    | none => []
    | some n => compareEnum n o

/-- `compare_type` of return types; `none` is `void`, whose name is `void`. -/
def compareReturn : Option Written → Option Written → Bool
  | none, none => true
  | some a, some b => compareType a b
  | some a, none => a.name == pyStr "void"
  | none, some b => pyStr "void" == b.name

/-- `compare_single_function`, `t_audit.cpp` 327-345. The struct of arguments has no name. -/
def compareFunction (new old : Function Written) : List Failure :=
  (if new.oneway = old.oneway then [] else [.oneway old.name]) ++
    (if compareReturn new.returns old.returns then [] else [.returnType old.name]) ++
    compareStruct [] new.args.sorted old.args.sorted ++ compareStruct (old.name ++ pyStr "_exception") new.xceptions.sorted old.xceptions.sorted

/-- `compare_functions`, `t_audit.cpp` 347-371 -/
def compareFunctions (new old : List (Function Written)) : List Failure :=
  old.flatMap fun o =>
    match byName Function.name new o.name with
    | none => [.functionMissing o.name]
    | some n => compareFunction n o

/-- `t_audit.cpp` 395-416 -/
def compareExtends (s : PyStr) (new old : Option PyStr) : List Failure :=
  match old, new with
  | none, _ => []
  | some _, none => [.inheritance s]
  | some o, some n => if n ≠ o then [.inheritance s] else []

/-- `compare_services`, `t_audit.cpp` 373-423 -/
def compareServices (new old : List Service) : List Failure :=
  old.flatMap fun o =>
    match byName Service.name new o.name with
    | none => [.serviceMissing o.name]
    | some n => compareExtends o.name n.extends_ o.extends_ ++ compareFunctions n.fns o.fns

/-- `audit`, `main.cc` 1056-1082. The exit status is 2 if the list is not empty, unless `--audit-nofatal` is given (`main.cc` 1190-1191, 1315-1317). -/
def audit (new old : Program) : List Failure :=
  compareServices new.services old.services ++ compareEnums new.enums old.enums ++ compareStructs new.structs old.structs ++ compareStructs new.xceptions old.xceptions

/-! ### What a program means -/

/-- The classes of the generated code: `ttypes.name`, and `service.name_args` and `service.name_result` for a function -/
inductive Class where
  | type (n : PyStr)
  | args (service fn : PyStr)
  | result (service fn : PyStr)
  deriving DecidableEq, Repr

/-- Numbers for the classes. In `Ty`, structs have numbers; the numbers are the same for all versions of a program. -/
structure Numbering where
  num : Class → Nat
  dec : Nat → Option Class
  ok : ∀ c, dec (num c) = some c

/-- What a type means: `get_true_type` (`parse.cc` 29-35) at every level of the type. `none`: a name is not declared, or the compiler does not end because typedefs are circular. An
enum is an `i32`. -/
def Program.resolve (p : Program) (N : Numbering) : Nat → Written → Option Ty
  | 0, _ => none
  | _ + 1, .base b => some b.ty
  | k + 1, .list e => (p.resolve N k e).map .list
  | k + 1, .set e => (p.resolve N k e).map .set
  | k + 1, .map a b =>
    match p.resolve N k a, p.resolve N k b with
    | some x, some y => some (.map x y)
    | _, _ => none
  | k + 1, .named n =>
    match p.typedefs.find? (fun d => d.1 == n) with
    | some d => p.resolve N k d.2
    | none =>
      if p.enums.any (fun e => e.name == n) then some .i32
      else if (p.structs ++ p.xceptions).any (fun s => s.name == n) then some (.struct (N.num (.type n)))
      else none

/-- The functions of a service by name -/
def Program.function (p : Program) (s f : PyStr) : Option (Function Written) :=
  (p.services.find? fun x => x.name == s).bind fun x => x.fns.find? fun y => y.name == f

/-- The fields of a class, in the order of their ids: `t_py_generator.cc` 779, 1211, 1341-1376 -/
def Program.members (p : Program) : Class → Option (List (Member Written))
  | .type n => ((p.structs ++ p.xceptions).find? fun s => s.name == n).map fun s => s.made.sorted
  | .args s f => (p.function s f).map fun x => x.args.sorted
  | .result s f => (p.function s f).map fun x => (resultStruct x).sorted

/-- The fields with their types -/
def Program.fields (p : Program) (N : Numbering) (deep : Nat) : List (Member Written) → Option (List Field)
  | [] => some []
  | m :: ms =>
    match p.resolve N deep m.ty, p.fields N deep ms with
    | some t, some fs => some ({ fid := m.key, ty := t, required := m.req = .required, dflt := m.value } :: fs)
    | _, _ => none

/-- The fields of a class with their types -/
def Program.class_ (p : Program) (N : Numbering) (deep : Nat) (c : Class) : Option (List Field) := (p.members c).bind (p.fields N deep)

/-- All classes -/
def Program.classes (p : Program) : List Class :=
  (p.structs ++ p.xceptions).map (fun s => .type s.name) ++
    p.services.flatMap fun s => s.fns.flatMap fun f => [.args s.name f.name, .result s.name f.name]

/-- The generated classes. `none`: the compiler fails because of a type. -/
def Program.generate (p : Program) (N : Numbering) (deep : Nat) : Option Schema :=
  if p.classes.all fun c => (p.class_ N deep c).isSome then some fun i => ((N.dec i).bind (p.class_ N deep)).getD [] else none

/-- A function as its generated methods see it (see `Structs.Function.fn`). Types that do not exist do not occur if `generate` succeeds. -/
def Program.fn (p : Program) (N : Numbering) (deep : Nat) (s : PyStr) (f : Function Written) : Fn :=
  { name := f.name
    argsId := N.num (.args s f.name)
    resultId := N.num (.result s f.name)
    returns := f.returns.isSome
    throws := f.xceptions.sorted.map fun m => ((p.resolve N deep m.ty).map classOf).getD 0
    oneway := f.oneway }

/-- The functions of a service and those that it inherits, each with the service that declares it. The services are given from the last one to the first. The processor of a service first
has the functions of the one that it extends (`t_py_generator.cc` 1996-2016). -/
def inherited : List Service → PyStr → List (PyStr × Function Written)
  | [], _ => []
  | s :: before, n =>
    if s.name = n then
      (match s.extends_ with | none => [] | some e => inherited before e) ++ s.fns.map fun f => (s.name, f)
    else inherited before n

/-- `_processMap` of the processor of a service -/
def Program.processor (p : Program) (N : Numbering) (deep : Nat) (n : PyStr) : List Fn :=
  (inherited p.services.reverse n).map fun x => p.fn N deep x.1 x.2

/-! ### Parsing -/

/-- A service as it is written -/
structure ServiceDecl where
  name : PyStr
  extends_ : Option PyStr := none
  fns : List (FnDecl Written)

/-- The declarations of a file -/
structure Source where
  typedefs : List (PyStr × Written) := []
  enums : List Enum := []
  structs : List (StructDecl Written) := []
  services : List ServiceDecl := []

/-- Is the type an exception? `get_true_type` in `validate_throws`, `main.cc` 898-907 -/
def Source.isExc (src : Source) : Nat → Written → Bool
  | 0, _ => false
  | k + 1, .named n =>
    match src.typedefs.find? (fun d => d.1 == n) with
    | some d => src.isExc k d.2
    | none => src.structs.any fun s => s.name == n && s.kind == .exception
  | _ + 1, _ => false

/-- The structs of a program; `none` if one is rejected -/
def parseStructs (o : Options) : List (StructDecl Written) → Option (List Struct)
  | [] => some []
  | d :: ds =>
    match struct o d, parseStructs o ds with
    | .ok s, some ss => some ({ kind := d.kind, name := d.name, made := s } :: ss)
    | _, _ => none

/-- The services, after `before` (from the last one to the first): a service that is extended has to be declared before (`thrifty.yy` 727-740), and no function of it may be declared again
(`t_service.h` 47-57, `t_program.h` 115-118). -/
def parseServices (o : Options) (isExc : Written → Bool) : List ServiceDecl → List Service → Option (List Service)
  | [], before => some before.reverse
  | d :: ds, before =>
    match functions o isExc d.fns [] with
    | .error _ => none
    | .ok fs =>
      if !simple d.name then none
      else
        match d.extends_ with
        | none => parseServices o isExc ds ({ name := d.name, fns := fs } :: before)
        | some e =>
          if !before.any (fun s => s.name == e) then none
          else if fs.any (fun f => (inherited before e).any fun g => g.2.name == f.name) then none
          else parseServices o isExc ds ({ name := d.name, extends_ := some e, fns := fs } :: before)

/-- All names of types and services: `is_unique_typename`, `t_program.h` 141-182, `thrifty.yy` 367-370, 383-386 -/
def Source.names (src : Source) : List PyStr :=
  src.typedefs.map (·.1) ++ src.enums.map (·.name) ++ src.structs.map (·.name) ++ src.services.map (·.name)

/-- `parse`, `main.cc` 930-1006, as far as the declarations are concerned; `none` if they are rejected. `deep` is how far typedefs are followed. -/
def parse (o : Options) (deep : Nat) (src : Source) : Option Program :=
  if ¬ src.names.Nodup then none
  else
    match parseStructs o src.structs, parseServices o (src.isExc deep) src.services [] with
    | some ss, some svs =>
      some
        { typedefs := src.typedefs
          enums := src.enums
          structs := ss.filter fun s => s.kind ≠ .exception
          xceptions := ss.filter fun s => s.kind = .exception
          services := svs }
    | _, _ => none

end Thrift.Audit
