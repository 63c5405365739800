import Verif.Model.Audit
/-
Programs of several files: `include`, `compiler/cpp/src/thrift/main.cc` 309-322, 930-1004 and 1009-1054, `thrifty.yy` 276-400, 690-790 and 1125-1145, `parse/t_scope.h`, `parse/t_program.h`
141-232, `parse/t_service.h`, `parse/t_typedef.cc`; and the modules that the Python generator writes for them, `t_py_generator.cc` 281-294, 399-470, 1295-1325 and 2873-2885.

Simplified: an `include` is the real path that `include_file` (`main.cc` 343-386) has found; one that is not found is left out. Constants are left out, also those for the values of enums
(a file with enums that is included twice by one file is rejected, because its constants are defined twice). The numbers, names and values of fields and which types may be thrown are in
`Structs` and `Audit`; here a field is its type, and a function is its name and the types that it mentions. Python keywords are not treated (see `Names`). Options of the generator are the
default ones, so that `package_prefix_` is empty. A file is parsed anew for each `include`; in the model, programs are known by their file.
-/

namespace Thrift.Includes
open Rpc
open Audit (Written Base)

/-- A real path -/
abbrev Path := PyStr

/-- What is declared in a file, by its name -/
structure Id where
  file : Path
  name : PyStr
  deriving DecidableEq, Repr

/-! ### Sources -/

/-- What is declared for a type -/
inductive Body where
  | typedef (w : Written)
  | enum
  /-- structs, unions and exceptions, with the types of the fields -/
  | struct (fields : List Written)
  deriving DecidableEq, Repr

/-- A function: its name, and the types in its declaration -/
abbrev FnDecl := PyStr × List Written

/-- `Definition`, `thrifty.yy` 350-389 -/
inductive Decl where
  | type (name : PyStr) (body : Body)
  | service (name : PyStr) (extends_ : Option PyStr) (fns : List FnDecl)
  deriving DecidableEq, Repr

/-- A file: its headers and its definitions, `thrifty.yy` 248-348 -/
structure File where
  namespaces : List (PyStr × PyStr) := []
  includes : List Path := []
  decls : List Decl := []
  deriving DecidableEq

/-- The files that there are -/
abbrev Files := List (Path × File)

/-- `program_name`, `main.cc` 312-322 -/
def programName (path : Path) : PyStr :=
  let base := (path.reverse.takeWhile (· != 47)).reverse
  if 46 ∈ base then (base.reverse.dropWhile (· != 46)).tail.reverse else base

/-! ### What the parser makes of them -/

/-- `t_type`. `forward` is the typedef that is made for a name which is not yet declared, `thrifty.yy` 1134-1143. -/
inductive Typ where
  | base (b : Base)
  | list (e : Typ)
  | set (e : Typ)
  | map (k v : Typ)
  | enum (id : Id)
  | struct (id : Id)
  | typedef (id : Id) (t : Typ)
  | forward (file : Path) (name : PyStr)
  deriving DecidableEq, Repr

/-- `t_service`, which has a pointer to the service that it extends -/
inductive Svc where
  | root (id : Id) (fns : List (PyStr × List Typ))
  | child (id : Id) (fns : List (PyStr × List Typ)) (base : Svc)
  deriving DecidableEq, Repr

def Svc.id : Svc → Id
  | .root i _ => i
  | .child i _ _ => i

/-- The functions that the service declares -/
def Svc.fns : Svc → List (PyStr × List Typ)
  | .root _ f => f
  | .child _ f _ => f

/-- `get_extends` -/
def Svc.base : Svc → Option Svc
  | .root _ _ => none
  | .child _ _ b => some b

/-- The functions of a service and those that it inherits, each with the service that declares it: what the generated processor has in its `_processMap`, `t_py_generator.cc` 1996-2016 -/
def Svc.functions : Svc → List (Id × PyStr × List Typ)
  | .root i fs => fs.map fun f => (i, f)
  | .child i fs b => b.functions ++ fs.map fun f => (i, f)

/-- The functions of the generated processor; `mk` makes a method and its classes for a function of a service, `t_py_generator.cc` 1996-2016 and 1341-1376. -/
def Svc.processor (mk : Id → PyStr × List Typ → Fn) (v : Svc) : List Fn := v.functions.map fun x => mk x.1 x.2

/-- Is `get_function_by_name` not null? `t_service.h` 59-75 -/
def Svc.has (s : Svc) (n : PyStr) : Bool :=
  match s with
  | .root _ fs => fs.any fun f => f.1 == n
  | .child _ fs b => b.has n || fs.any fun f => f.1 == n

/-- What a program declares. The maps `types_` and `services_` of `t_scope` are lists, the latest first. -/
structure State where
  types : List (PyStr × Typ) := []
  enums : List PyStr := []
  objects : List (PyStr × List Typ) := []
  services : List (PyStr × Svc) := []
  deriving DecidableEq

/-- `t_program`, after it was parsed -/
structure TProgram where
  file : Path
  src : File
  /-- what the included programs have put into the scope -/
  outerTypes : List (PyStr × Typ)
  outerServices : List (PyStr × Svc)
  own : State
  deriving DecidableEq

/-- The scope of a program -/
def TProgram.types (p : TProgram) : List (PyStr × Typ) := p.own.types ++ p.outerTypes

def TProgram.services (p : TProgram) : List (PyStr × Svc) := p.own.services ++ p.outerServices

/-- All names that a program declares -/
def TProgram.names (p : TProgram) : List PyStr := p.own.types.map (·.1) ++ p.own.services.map (·.1)

inductive Reject where
  | recursion | cannotOpen | dot | defined | function | noService
  deriving DecidableEq, Repr

/-- `get_namespace`, `t_program.h` 317-324. What is assigned last to a key of the map counts. -/
def getNamespace (ns : List (PyStr × PyStr)) (lang : PyStr) : PyStr :=
  match ns.reverse.lookup lang with
  | some x => x
  | none => (ns.reverse.lookup (pyStr "*")).getD []

/-- `is_common_namespace` for different programs, `t_program.h` 196-232 -/
def commonNamespace (a b : List (PyStr × PyStr)) : Bool :=
  a.all (fun x => a.reverse.lookup x.1 == some (getNamespace b x.1)) && b.all fun x => b.reverse.lookup x.1 == some (getNamespace a x.1)

/-- `FieldType`, `thrifty.yy` 1125-1156, and containers, `thrifty.yy` 1224-1276 -/
def fieldType (scope : List (PyStr × Typ)) (file : Path) : Written → Typ
  | .base b => .base b
  | .list e => .list (fieldType scope file e)
  | .set e => .set (fieldType scope file e)
  | .map k v => .map (fieldType scope file k) (fieldType scope file v)
  | .named n =>
    match scope.lookup n with
    | some t => t
    | none => .forward file n

/-- `is_unique_typename`, `t_program.h` 141-182: the new declaration is not counted. -/
def unique (src : File) (incs : List TProgram) (s : State) (name : PyStr) : Bool :=
  !(s.types.any fun x => x.1 == name) && !(s.services.any fun x => x.1 == name) &&
    !(incs.any fun i => i.names.contains name && commonNamespace i.src.namespaces src.namespaces)

/-- `add_function`, `t_service.h` 40-45: no name twice -/
def distinct : List FnDecl → Bool
  | [] => true
  | f :: fs => !(fs.any fun g => g.1 == f.1) && distinct fs

/-- `Definition`, `thrifty.yy` 350-389, and `Extends`, `Service`, `thrifty.yy` 703-745. `outerT` and `outerS` are what included programs have put into the scope. -/
def declare (file : Path) (src : File) (incs : List TProgram) (outerT : List (PyStr × Typ)) (outerS : List (PyStr × Svc)) (s : State) : Decl → Except Reject State
  | .type n body =>
    if !Structs.simple n then .error .dot
    else if !unique src incs s n then .error .defined
    else
      match body with
      | .typedef w => .ok { s with types := (n, .typedef ⟨file, n⟩ (fieldType (s.types ++ outerT) file w)) :: s.types }
      | .enum => .ok { s with types := (n, .enum ⟨file, n⟩) :: s.types, enums := s.enums ++ [n] }
      | .struct ws =>
        .ok { s with types := (n, .struct ⟨file, n⟩) :: s.types, objects := s.objects ++ [(n, ws.map (fieldType (s.types ++ outerT) file))] }
  | .service n ext fns =>
    let fs := fns.map fun f => (f.1, f.2.map (fieldType (s.types ++ outerT) file))
    match ext with
    | none =>
      if !distinct fns then .error .function
      else if !Structs.simple n then .error .dot
      else if !unique src incs s n then .error .defined
      else .ok { s with services := (n, .root ⟨file, n⟩ fs) :: s.services }
    | some e =>
      match (s.services ++ outerS).lookup e with
      | none => .error .noService
      | some b =>
        if !distinct fns then .error .function
        else if !Structs.simple n then .error .dot
        else if fns.any fun f => b.has f.1 then .error .function
        else if !unique src incs s n then .error .defined
        else .ok { s with services := (n, .child ⟨file, n⟩ fs b) :: s.services }

/-- `DefinitionList` -/
def declareAll (file : Path) (src : File) (incs : List TProgram) (outerT : List (PyStr × Typ)) (outerS : List (PyStr × Svc)) : List Decl → State → Except Reject State
  | [], s => .ok s
  | d :: ds, s =>
    match declare file src incs outerT outerS s d with
    | .error e => .error e
    | .ok s' => declareAll file src incs outerT outerS ds s'

/-- What an included program puts into the scope of the one that includes it: `g_parent_prefix`, `main.cc` 981, and `thrifty.yy` 364-366, 379-381 -/
def exported {α : Type} (file : Path) (l : List (PyStr × α)) : List (PyStr × α) := l.map fun x => (programName file ++ 46 :: x.1, x.2)

/-- The second pass of `parse`, `main.cc` 972-1001, after the included programs were parsed -/
def program (file : Path) (src : File) (incs : List TProgram) : Except Reject TProgram :=
  let outerT := incs.reverse.flatMap fun i => exported i.file i.own.types
  let outerS := incs.reverse.flatMap fun i => exported i.file i.own.services
  match declareAll file src incs outerT outerS src.decls {} with
  | .error e => .error e
  | .ok s => .ok { file := file, src := src, outerTypes := outerT, outerServices := outerS, own := s }

theorem mem_of_lookup {α : Type} {l : List (PyStr × α)} {n : PyStr} {x : α} (h : l.lookup n = some x) : (n, x) ∈ l := by
  induction l with
  | nil => cases h
  | cons y ys ih =>
    rw [List.lookup_cons] at h
    split at h
    · rename_i e
      cases h
      exact (eq_of_beq e) ▸ List.mem_cons_self
    · exact List.mem_cons_of_mem _ (ih h)

/-- There are fewer files that are not known. -/
theorem filter_lt (fs : Files) (known : List Path) (path : Path) (f : File) (hk : path ∉ known) (hf : fs.lookup path = some f) :
    (fs.filter fun x => !(path :: known).contains x.1).length < (fs.filter fun x => !known.contains x.1).length := by
  have h : (fs.filter fun x => !(path :: known).contains x.1) = (fs.filter fun x => !known.contains x.1).filter fun x => !(x.1 == path) := by
    rw [List.filter_filter]
    congr 1
    funext x
    rw [List.contains_cons, Bool.not_or]
  rw [h]
  exact List.length_filter_lt_length_iff_exists.2 ⟨(path, f), List.mem_filter.2 ⟨mem_of_lookup hf, by simpa using hk⟩, by simp⟩

mutual
/-- `parse`, `main.cc` 930-1004: the programs that are included, in the order in which they are finished, and the program itself. `known` is `known_includes`. -/
def parse (fs : Files) (known : List Path) (path : Path) : Except Reject (List TProgram × TProgram) :=
  if _hk : path ∈ known then .error .recursion
  else
    match _hf : fs.lookup path with
    | none => .error .cannotOpen
    | some src =>
      match parseAll fs (path :: known) src.includes with
      | .error e => .error e
      | .ok rs =>
        match program path src (rs.map (·.2)) with
        | .error e => .error e
        | .ok p => .ok (rs.flatMap fun r => r.1 ++ [r.2], p)
termination_by ((fs.filter fun x => !known.contains x.1).length, 0)
decreasing_by exact Prod.Lex.left _ _ (filter_lt fs known path src _hk _hf)

/-- `main.cc` 966-970 -/
def parseAll (fs : Files) (known : List Path) : List Path → Except Reject (List (List TProgram × TProgram))
  | [] => .ok []
  | i :: is =>
    match parse fs known i with
    | .error e => .error e
    | .ok r =>
      match parseAll fs known is with
      | .error e => .error e
      | .ok rs => .ok (r :: rs)
termination_by is => ((fs.filter fun x => !known.contains x.1).length, is.length + 1)
decreasing_by
  · exact Prod.Lex.right _ (by simp)
  · exact Prod.Lex.right _ (by simp)
end

/-- All programs, in the order in which code is generated for them with `-r`: `main.cc` 1009-1021 -/
def compile (fs : Files) (path : Path) : Except Reject (List TProgram) :=
  match parse fs [] path with
  | .error e => .error e
  | .ok (ps, p) => .ok (ps ++ [p])

/-! ### What a type is -/

/-- A type without typedefs -/
inductive Mean where
  | base (b : Base)
  | list (e : Mean)
  | set (e : Mean)
  | map (k v : Mean)
  | enum (id : Id)
  | struct (id : Id)
  deriving DecidableEq, Repr

/-- The program of a file -/
def progOf (ps : List TProgram) (file : Path) : Option TProgram := ps.find? fun p => p.file == file

/-- `get_true_type` (`parse.cc` 29-35) at every level of a type, and `t_typedef::get_type`, `t_typedef.cc` 28-38. `none`: a name is not declared, or the compiler does not end because typedefs
are circular. -/
def meaning (ps : List TProgram) : Nat → Typ → Option Mean
  | 0, _ => none
  | _ + 1, .base b => some (.base b)
  | k + 1, .list e => (meaning ps k e).map .list
  | k + 1, .set e => (meaning ps k e).map .set
  | k + 1, .map a b =>
    match meaning ps k a, meaning ps k b with
    | some x, some y => some (.map x y)
    | _, _ => none
  | _ + 1, .enum i => some (.enum i)
  | _ + 1, .struct i => some (.struct i)
  | k + 1, .typedef _ t => meaning ps k t
  | k + 1, .forward file n =>
    match (progOf ps file).bind fun p => p.types.lookup n with
    | some t => meaning ps k t
    | none => none

/-- The classes that generated code for the type uses: `generate_deserialize_field`, `generate_deserialize_struct`, `type_to_spec_args`, `t_py_generator.cc` 2340-2445, 3005-3037. Enums only with
the option `enum`. -/
def Mean.classes : Mean → List Id
  | .base _ => []
  | .list e => e.classes
  | .set e => e.classes
  | .map k v => k.classes ++ v.classes
  | .enum i => [i]
  | .struct i => [i]

/-! ### The generated modules -/

/-- The parts of a dotted name -/
def split : PyStr → List PyStr
  | [] => [[]]
  | c :: cs =>
    if c = 46 then [] :: split cs
    else
      match split cs with
      | [] => [[c]]
      | h :: t => (c :: h) :: t

/-- `get_real_py_module`, `t_py_generator.cc` 281-294, and the directories of `init_generator`, `t_py_generator.cc` 399-422 -/
def TProgram.module (p : TProgram) : List PyStr :=
  let real := getNamespace p.src.namespaces (pyStr "py")
  split (if real = [] then programName p.file else real)

/-- What a name of a Python module is bound to -/
inductive Obj where
  | package (path : List PyStr)
  | module (path : List PyStr)
  /-- the class generated for a struct or an enum -/
  | cls (id : Id)
  /-- anything else -/
  | other
  deriving DecidableEq, Repr

/-- A generated file: the modules it imports, and the names of the module when it was executed, the latest first. `from x import …` of modules of the library is not followed. `all_structs`,
which is deleted at the end, is kept as something that is not a class. That the module can be executed is assumed; it cannot if a type is called like something that the generated code uses
(`all_structs`, `fix_spec`, …). -/
structure PyModule where
  imports : List (List PyStr)
  globals : List (PyStr × Obj)
  deriving DecidableEq, Repr

/-- `import a.b.c` binds `a`. -/
def bound (path : List PyStr) : PyStr × Obj := (path.headD [], .package [path.headD []])

/-- `py_imports`, `t_py_generator.cc` 485-509 -/
def libraryNames : List (PyStr × Obj) :=
  ["sys", "UUID", "fix_spec", "TProtocolException", "TApplicationException", "TException", "TFrozenDict", "TMessageType", "TType"].map fun n => (pyStr n, .other)

/-- The modules of the included programs: `render_includes`, `t_py_generator.cc` 465-472 -/
def included (ps : List TProgram) (p : TProgram) : List (List PyStr) := p.src.includes.filterMap fun i => (progOf ps i).map fun q => q.module ++ [pyStr "ttypes"]

/-- The classes in `ttypes.py`: enums, then structs, `t_generator.cc` 34-61 -/
def TProgram.classNames (p : TProgram) : List PyStr := p.own.enums ++ p.own.objects.map (·.1)

/-- `ttypes.py`, `t_py_generator.cc` 424-456 -/
def ttypes (ps : List TProgram) (p : TProgram) : PyModule :=
  { imports := included ps p
    globals := (p.classNames.reverse.map fun n => (n, .cls ⟨p.file, n⟩)) ++ [(pyStr "all_structs", .other), (pyStr "TTransport", .other)] ++ (included ps p).reverse.map bound ++ libraryNames }

/-- The module of a service -/
def svcModule (ps : List TProgram) (id : Id) : List PyStr := ((progOf ps id.file).map TProgram.module).getD [] ++ [id.name]

/-- What a service module defines, `t_py_generator.cc` 1310-1320, 1341-1376 -/
def svcNames (s : Svc) : List (PyStr × Obj) :=
  ((["all_structs", "Iface", "Client", "Processor"].map pyStr) ++ s.fns.flatMap fun f => [f.1 ++ pyStr "_args", f.1 ++ pyStr "_result"]).map fun n => (n, .other)

/-- `from .ttypes import *`: names that begin with an underscore are left out. -/
def star (l : List (PyStr × Obj)) : List (PyStr × Obj) := l.filter fun x => x.1.head? != some 95

/-- `generate_service`, `t_py_generator.cc` 1291-1325: `service.py` -/
def service (ps : List TProgram) (p : TProgram) (s : Svc) : PyModule :=
  { imports := (s.base.map fun b => svcModule ps b.id).toList ++ [p.module ++ [pyStr "ttypes"]]
    globals :=
      svcNames s ++ [(pyStr "TTransport", .other), (pyStr "TProcessor", .other)] ++ star (ttypes ps p).globals ++ [(pyStr "logging", .other)] ++
        (s.base.map fun b => bound (svcModule ps b.id)).toList ++ libraryNames }

/-- `type_name` of the service that is extended, `t_py_generator.cc` 2878-2880 -/
def baseName (ps : List TProgram) (id : Id) : List PyStr := svcModule ps id

/-- The files of one program, in the order in which they are written: `t_generator.cc` 30-78, `close_generator` last -/
def written (ps : List TProgram) (p : TProgram) : List (List PyStr × PyModule) :=
  p.own.services.reverse.map (fun s => (p.module ++ [s.1], service ps p s.2)) ++
    [(p.module ++ [pyStr "ttypes"], ttypes ps p), (p.module ++ [pyStr "constants"], { imports := [p.module ++ [pyStr "ttypes"]], globals := [] })]

/-- All files in the output directory; what is written later replaces what was written before. -/
abbrev World := List (List PyStr × PyModule)

/-- `thrift -r --gen py` -/
def generate (ps : List TProgram) : World := ps.flatMap (written ps)

def World.get (w : World) (m : List PyStr) : Option PyModule := w.reverse.lookup m

/-! ### What Python does with them -/

/-- There is a directory of this name. -/
def World.dir (w : World) (m : List PyStr) : Bool := w.any fun x => m.isPrefixOf x.1 && m != x.1

/-- An attribute of an object. `loaded` are the modules that were imported; a package has its parts as attributes once they are imported, and directories come before files. -/
def attr (w : World) (loaded : List (List PyStr)) : Obj → PyStr → Option Obj
  | .package p, a =>
    if w.dir (p ++ [a]) then
      if loaded.any fun m => (p ++ [a]).isPrefixOf m then some (.package (p ++ [a])) else none
    else if loaded.contains (p ++ [a]) then some (.module (p ++ [a])) else none
  | .module p, a => (w.get p).bind fun m => m.globals.lookup a
  | _, _ => none

/-- `o.a.b.c` -/
def attrs (w : World) (loaded : List (List PyStr)) : Obj → List PyStr → Option Obj
  | o, [] => some o
  | o, a :: as =>
    match attr w loaded o a with
    | some o' => attrs w loaded o' as
    | none => none

/-- `a.b.c` in code of the module `m`; names that are local in a function are not considered (see `Locals`). -/
def eval (w : World) (loaded : List (List PyStr)) (m : List PyStr) : List PyStr → Option Obj
  | [] => none
  | a :: as =>
    match (w.get m).bind fun x => x.globals.lookup a with
    | some o => attrs w loaded o as
    | none => none

/-- `type_name` of a struct or an enum in the code of the program `p`, `t_py_generator.cc` 2873-2885 -/
def typeName (ps : List TProgram) (p : TProgram) (id : Id) : List PyStr :=
  if id.file = p.file then [id.name] else ((progOf ps id.file).map TProgram.module).getD [] ++ [pyStr "ttypes", id.name]

end Thrift.Includes
