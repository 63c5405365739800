import Verif.Model.Names
/-
Default values in generated struct classes: `__init__` and its default arguments, `t_py_generator.cc` 896-941 and 2780-2806; the
defaults in `thrift_spec`, cc 776-812; the order in which `ttypes.py` is executed, `t_generator.cc` 30-77 (all classes, then all
`thrift_spec`s) and cc 746-770; `render_const_value`, cc 591-736; `read` of immutable structs, cc 1127-1138 and 1187-1195.

What is modelled is which Python objects exist and who refers to them. The heap is a list of objects; a reference is an index.

Simplifications. Values of base types and enums are atoms, of which only the number matters; every evaluation makes a new one, while
CPython may use one object for equal ones: the identity of atoms and of the empty tuple and frozenset never matters here, since no
operation changes them. The elements of sets and the keys of maps are atoms (in a literal they cannot be structs or containers that
are not hashable anyway). Options `slots`, `enum` and `dynamic` are not set.
-/

namespace Thrift.Defaults
open Names

abbrev Ref := Nat

/-- `None`, or a value of a base type or enum -/
inductive Atom where
  | none
  | val (n : Int)
  deriving DecidableEq, Repr

/-- The exceptions that occur; `syntaxError` stands for a module that is not compiled at all. -/
inductive PyErr where
  | typeError | indexError | nameError | recursionError | syntaxError
  deriving DecidableEq, Repr

/-- A constant of the IDL, which `render_const_value`, cc 591-736, writes as an expression of Python: a number, string and so on;
`set((…))` or `frozenset((…))`; `[…]` or `(…)`; `{…}` or `TFrozenDict({…})`; `Class(**{"name": …})`. The values of a map or struct
belong to the keys or names at the same position. -/
inductive Lit where
  | atom (a : Atom)
  | set (immutable : Bool) (items : List Atom)
  | list (immutable : Bool) (items : List Lit)
  | map (immutable : Bool) (keys : List Atom) (vals : List Lit)
  | struct (c : Nat) (names : List PyStr) (vals : List Lit)
  deriving Repr

/-- A Python object -/
inductive Obj where
  | atom (a : Atom)
  /-- `set`, `frozenset` -/
  | set (immutable : Bool) (items : List Atom)
  /-- `list`, `tuple` -/
  | list (immutable : Bool) (items : List Ref)
  /-- `dict`, `TFrozenDict` -/
  | map (immutable : Bool) (items : List (Atom × Ref))
  /-- an instance of the class `c`, with its `__dict__` -/
  | inst (c : Nat) (attrs : List (PyStr × Ref))
  deriving DecidableEq, Repr

abbrev Heap := List Obj

/-- A member of a struct. -/
structure Member where
  name : PyStr
  key : Int
  dflt : Option Lit
  /-- cc 907: the type is neither a base type nor an enum; this is so, too, for a typedef of one (`get_type`, not `get_true_type`) -/
  compound : Bool
  deriving Repr

/-- `maybe_escape_identifier`: the name of the parameter and of the attribute, cc 2783 and 937. -/
def Member.param (m : Member) : PyStr := escape m.name

/-- `render_field_default_value`, cc 2799-2806 -/
def Member.lit (m : Member) : Lit := m.dflt.getD (.atom .none)

/-- cc 907: `__init__` compares the argument with the default in `thrift_spec`. -/
def Member.compares (m : Member) : Bool := m.compound && m.dflt.isSome

/-- A generated class -/
structure Cls where
  immutable : Bool
  members : List Member
  /-- the values of the default arguments, evaluated when `__init__` was defined -/
  dflts : List Ref
  /-- `none` is `thrift_spec = None`, cc 848; of the entries only `[4]` is of interest here -/
  spec : Option (List (Option Ref))
  deriving Repr

/-- `self.thrift_spec[key][4]`, cc 908-909. `None` cannot be indexed; negative indices count from the end. -/
def specItem (spec : Option (List (Option Ref))) (key : Int) : Except PyErr Ref :=
  match spec with
  | none => .error .typeError
  | some l =>
    let i := if key < 0 then key + l.length else key
    if i < 0 then .error .indexError
    else match l[i.toNat]? with
      | none => .error .indexError
      | some none => .error .typeError
      | some (some r) => .ok r

mutual
/-- The value of a literal: a new object. `call c args` is `c(**args)`. -/
def eval (call : Nat → List (PyStr × Ref) → Heap → Except PyErr Ref × Heap) : Lit → Heap → Except PyErr Ref × Heap
  | .atom a, h => (.ok h.length, h ++ [.atom a])
  | .set imm as, h => (.ok h.length, h ++ [.set imm as])
  | .list imm ls, h =>
    match evals call ls h with
    | (.error e, h') => (.error e, h')
    | (.ok rs, h') => (.ok h'.length, h' ++ [.list imm rs])
  | .map imm ks ls, h =>
    match evals call ls h with
    | (.error e, h') => (.error e, h')
    | (.ok rs, h') => (.ok h'.length, h' ++ [.map imm (ks.zip rs)])
  | .struct c ns ls, h =>
    match evals call ls h with
    | (.error e, h') => (.error e, h')
    | (.ok rs, h') => call c (ns.zip rs) h'

/-- From left to right -/
def evals (call : Nat → List (PyStr × Ref) → Heap → Except PyErr Ref × Heap) : List Lit → Heap → Except PyErr (List Ref) × Heap
  | [], h => (.ok [], h)
  | l :: ls, h =>
    match eval call l h with
    | (.error e, h') => (.error e, h')
    | (.ok r, h') =>
      match evals call ls h' with
      | (.error e, h'') => (.error e, h'')
      | (.ok rs, h'') => (.ok (r :: rs), h'')
end

/-- The body of `__init__`, cc 904-940, for the members with the values of their default arguments: the attributes it sets. `ev`
evaluates a literal. -/
def initMembers (ev : Lit → Heap → Except PyErr Ref × Heap) (spec : Option (List (Option Ref))) (kw : List (PyStr × Ref)) :
    List (Member × Ref) → Heap → Except PyErr (List (PyStr × Ref)) × Heap
  | [], h => (.ok [], h)
  | (m, d) :: ms, h =>
    let x := (kw.lookup m.param).getD d
    match (if m.compares then
        match specItem spec m.key with
        | .error e => (.error e, h)
        | .ok r => if x = r then ev m.lit h else (.ok x, h)
      else (.ok x, h) : Except PyErr Ref × Heap) with
    | (.error e, h') => (.error e, h')
    | (.ok y, h') =>
      match initMembers ev spec kw ms h' with
      | (.error e, h'') => (.error e, h'')
      | (.ok as, h'') => (.ok ((m.param, y) :: as), h'')

/-- `c(**kw)`. The first argument bounds the depth of the recursion: `RecursionError`. A keyword that is no parameter is a `TypeError`.
The instance is allocated after its attributes, not before; nobody else sees it meanwhile. -/
def init (tbl : List Cls) : Nat → Nat → List (PyStr × Ref) → Heap → Except PyErr Ref × Heap
  | 0, _, _, h => (.error .recursionError, h)
  | n + 1, c, kw, h =>
    match tbl[c]? with
    | none => (.error .nameError, h)
    | some cls =>
      if kw.any (fun a => !(cls.members.map Member.param).contains a.1) then (.error .typeError, h)
      else match initMembers (eval (init tbl n)) cls.spec kw (cls.members.zip cls.dflts) h with
        | (.error e, h') => (.error e, h')
        | (.ok as, h') => (.ok h'.length, h' ++ [.inst c as])

/-- The classes that exist, and the heap -/
structure World where
  tbl : List Cls
  heap : Heap
  deriving Repr

/-- A struct of the IDL: `is_immutable`, cc 296-307, and its members in the order of declaration -/
structure Struct where
  immutable : Bool
  members : List Member
  deriving Repr

/-- The class statement, cc 820-1090: the default arguments are evaluated, `thrift_spec = None`. A parameter that occurs twice is a
`SyntaxError` (of the whole module, before anything is executed). -/
def defineClass (fuel : Nat) (s : Struct) (w : World) : Except PyErr World :=
  if (s.members.map Member.param).Nodup then
    match evals (init w.tbl fuel) (s.members.map Member.lit) w.heap with
    | (.error e, _) => .error e
    | (.ok rs, h) => .ok { tbl := w.tbl ++ [{ immutable := s.immutable, members := s.members, dflts := rs, spec := none }], heap := h }
  else .error .syntaxError

def defineAll (fuel : Nat) : List Struct → World → Except PyErr World
  | [], w => .ok w
  | s :: ss, w =>
    match defineClass fuel s w with
    | .error e => .error e
    | .ok w' => defineAll fuel ss w'

/-- `get_sorted_members`: by key -/
def insertMember (m : Member) : List Member → List Member
  | [] => [m]
  | x :: xs => if m.key ≤ x.key then m :: x :: xs else x :: insertMember m xs

def sorted (ms : List Member) : List Member := ms.foldr insertMember []

/-- The entries from position `pos` on, cc 788-803; gaps are filled with `None`. -/
def entries (pos : Nat) : List (Member × Ref) → List (Option Ref)
  | [] => []
  | (m, r) :: ms => List.replicate (m.key.toNat - pos) none ++ some r :: entries (m.key.toNat + 1) ms

/-- The tuple of `generate_py_thrift_spec`, cc 776-812: empty if the smallest key is negative. -/
def specOf (fuel : Nat) (tbl : List Cls) (ms : List Member) (h : Heap) : Except PyErr (List (Option Ref)) × Heap :=
  if (sorted ms).all (fun m => 0 ≤ m.key) then
    match evals (init tbl fuel) ((sorted ms).map Member.lit) h with
    | (.error e, h') => (.error e, h')
    | (.ok rs, h') => (.ok (entries 0 ((sorted ms).zip rs)), h')
  else (.ok [], h)

/-- `Class.thrift_spec = …` for the classes with the numbers `c`, `c + 1`, … -/
def specAll (fuel : Nat) : Nat → Nat → World → Except PyErr World
  | _, 0, w => .ok w
  | c, n + 1, w =>
    match w.tbl[c]? with
    | none => .error .nameError
    | some cls =>
      match specOf fuel w.tbl cls.members w.heap with
      | (.error e, _) => .error e
      | (.ok l, h) => specAll fuel (c + 1) n { tbl := w.tbl.set c { cls with spec := some l }, heap := h }

/-- Execution of one `ttypes.py`: all classes, then all `thrift_spec`s. -/
def importModule (fuel : Nat) (ss : List Struct) (w : World) : Except PyErr World :=
  match defineAll fuel ss w with
  | .error e => .error e
  | .ok w' => specAll fuel w.tbl.length ss.length w'

/-- The modules of a program, the included ones first, `render_includes`, cc 462-472 -/
def importAll (fuel : Nat) : List (List Struct) → World → Except PyErr World
  | [], w => .ok w
  | m :: ms, w =>
    match importModule fuel m w with
    | .error e => .error e
    | .ok w' => importAll fuel ms w'

/-- `read` of an immutable struct in Python code, cc 1127-1138 and 1187-1195: the defaults are evaluated, then the fields that are
present are read (`given`: new objects that show these values), then the class is called with all. -/
def readNew (tbl : List Cls) (fuel : Nat) (c : Nat) (given : List (PyStr × Lit)) (h : Heap) : Except PyErr Ref × Heap :=
  match tbl[c]? with
  | none => (.error .nameError, h)
  | some cls =>
    match evals (init tbl fuel) (cls.members.map Member.lit) h with
    | (.error e, h') => (.error e, h')
    | (.ok ds, h') =>
      match evals (init tbl fuel) (given.map (·.2)) h' with
      | (.error e, h'') => (.error e, h'')
      | (.ok rs, h'') => init tbl fuel c ((given.map (·.1)).zip rs ++ (cls.members.map Member.param).zip ds) h''

/-- What a program does with these classes -/
inductive Op where
  /-- `c(**kw)` -/
  | new (c : Nat) (kw : List (PyStr × Ref))
  /-- `c.read(iprot)` of an immutable struct -/
  | read (c : Nat) (given : List (PyStr × Lit))
  /-- any change in place of a `list`: `append`, `r[i] = x`, `sort`, … -/
  | setList (r : Ref) (items : List Ref)
  | setSet (r : Ref) (items : List Atom)
  | setMap (r : Ref) (items : List (Atom × Ref))
  /-- `r.name = x` -/
  | setAttr (r : Ref) (name : PyStr) (x : Ref)
  deriving Repr

/-- One operation. Immutable objects have no method that changes them (of `TFrozenDict`, see `Verif.Model.FrozenDict`); `__setattr__` of
an immutable struct raises, cc 943-962. -/
def step (tbl : List Cls) (fuel : Nat) : Op → Heap → Heap
  | .new c kw, h => (init tbl fuel c kw h).2
  | .read c given, h => (readNew tbl fuel c given h).2
  | .setList r xs, h => match h[r]? with
    | some (.list false _) => h.set r (.list false xs)
    | _ => h
  | .setSet r xs, h => match h[r]? with
    | some (.set false _) => h.set r (.set false xs)
    | _ => h
  | .setMap r xs, h => match h[r]? with
    | some (.map false _) => h.set r (.map false xs)
    | _ => h
  | .setAttr r n x, h => match h[r]? with
    | some (.inst c as) => match tbl[c]? with
      | some cls => if cls.immutable then h else h.set r (.inst c ((n, x) :: as.filter (fun a => a.1 ≠ n)))
      | none => h
    | _ => h

/-- A run of the program -/
def steps (tbl : List Cls) (fuel : Nat) (ops : List Op) (h : Heap) : Heap := ops.foldl (fun h op => step tbl fuel op h) h

end Thrift.Defaults
