import Verif.Model.Locals
/-
The attributes of instances of generated classes: `t_py_generator.cc` 819-1090 (class body, `__init__`, `__setattr__`, `__delattr__`, `__hash__`,
`__eq__`), the accesses in generated `read`/`write` (cc 1157-1200, 1227-1244), and the accesses of the C extension by the names in `thrift_spec`
(protocol.tcc 569-590, 938-1056).

An instance is the list of its attributes. Names in the body of a class that begin with two underscores are mangled by Python. Values are taken
from a type `V`; `none` is `None`.

Simplifications. The options `dynamic`, `enum` and `old_style` are not used; classes are not subclassed. Members do not have the names of
other class attributes than those listed in `classAttrs` (those of other generated classes and `__…__` names are excluded).
-/

namespace Thrift.Attrs
open Rpc Names Locals

/-- A generated class: its name, the options, and the names of its members as in the IDL -/
structure Cls where
  name : PyStr
  immutable : Bool
  slots : Bool
  exc : Bool
  members : List PyStr
  deriving DecidableEq, Repr

variable {V : Type}

/-- An instance: its class and its attributes -/
structure Inst (V : Type) where
  cls : Cls
  attrs : List (PyStr × Option V)
  deriving DecidableEq, Repr

/-- The mangling of names in the body of a class (The Python Language Reference, 6.2.1) -/
def mangle (cls n : PyStr) : PyStr :=
  let c := cls.dropWhile (· = 95)
  if pyStr "__" <+: n ∧ ¬ pyStr "__" <:+ n ∧ c ≠ [] then pyStr "_" ++ c ++ n else n

/-- A member, as the code of the class writes it: `self.name` -/
def Cls.attr (c : Cls) (m : PyStr) : PyStr := mangle c.name (escape m)

/-- The attributes of the class -/
def classAttrs : List PyStr := ["thrift_spec", "read", "write", "validate"].map pyStr

/-- The execution of the class statement. `__slots__`, cc 879-887, must not name an attribute of the class: a `ValueError`. -/
def create (c : Cls) : Except PyErr Unit :=
  if Accepted c.members then
    if c.slots ∧ ∃ m ∈ c.members, m ∈ classAttrs then .error .valueError else .ok ()
  else .error .syntaxError

/-- The names in `__slots__`, as Python mangles them -/
def Cls.slotNames (c : Cls) : List PyStr := if c.slots then c.members.map (mangle c.name) else []

/-- `object.__setattr__`: without `__slots__`, and in every exception, there is a `__dict__`. -/
def objSet (o : Inst V) (n : PyStr) (v : Option V) : Except PyErr (Inst V) :=
  if o.cls.slots = false ∨ o.cls.exc = true ∨ n ∈ o.cls.slotNames then
    .ok { o with attrs := (n, v) :: o.attrs.filter fun a => a.1 ≠ n }
  else .error .attributeError

/-- `object.__delattr__` -/
def objDel (o : Inst V) (n : PyStr) : Except PyErr (Inst V) :=
  match o.attrs.lookup n with
  | some _ => .ok { o with attrs := o.attrs.filter fun a => a.1 ≠ n }
  | none => .error .attributeError

/-- `getattr(o, n)` for an attribute that is a value -/
def get (o : Inst V) (n : PyStr) : Except PyErr (Option V) :=
  match o.attrs.lookup n with
  | some v => .ok v
  | none => .error .attributeError

/-- The body of `__init__`, cc 907-940: `self.name = name`, and for immutable classes `super().__setattr__('name', name)` with the name of the
IDL, which is text and not mangled. The values are those of the parameters. -/
def initBody (c : Cls) : List (PyStr × Option V) → Inst V → Except PyErr (Inst V)
  | [], o => .ok o
  | (m, v) :: as, o => do
    let o ← objSet o (if c.immutable then m else c.attr m) v
    initBody c as o

/-- `C(a=…, b=…)` by a program outside of the class: keyword arguments, all of them. An unknown one is a `TypeError`. -/
def construct (c : Cls) (kw : List (PyStr × Option V)) : Except PyErr (Inst V) := do
  create c
  if ∀ a ∈ kw, a.1 ∈ c.members.map c.attr then
    initBody c (c.members.map fun m => (m, (kw.lookup (c.attr m)).getD none)) ⟨c, []⟩
  else .error .typeError

/-- `o.n = v` by a program, cc 942-962: `__setattr__` of immutable classes compares with the names in `__slots__`. -/
def setattr (o : Inst V) (n : PyStr) (v : Option V) : Except PyErr (Inst V) :=
  if o.cls.immutable then
    if o.cls.slots ∧ n ∉ o.cls.members then objSet o n v else .error .typeError
  else objSet o n v

/-- `del o.n` by a program, cc 963-981 -/
def delattr (o : Inst V) (n : PyStr) : Except PyErr (Inst V) :=
  if o.cls.immutable then
    if o.cls.slots ∧ n ∉ o.cls.members then objDel o n else .error .typeError
  else objDel o n

/-- The call of a method of the class: an attribute of the instance hides it. -/
def call (o : Inst V) (n : String) : Except PyErr Unit :=
  match o.attrs.lookup (pyStr n) with
  | some _ => .error .typeError
  | none => .ok ()

/-- The fields that `o.write(oprot)` writes, cc 1213-1244, without acceleration: the members that are not `None`. -/
def write (o : Inst V) : Except PyErr (List (PyStr × V)) := do
  call o "write"
  call o "validate"
  let l ← o.cls.members.mapM fun m => do pure (m, ← get o (o.cls.attr m))
  pure (l.filterMap fun a => a.2.map fun v => (a.1, v))

/-- The fields that the C extension writes, protocol.tcc 569-590: `PyObject_GetAttr` with the name in `thrift_spec`. It is called in `write`,
cc 1215-1221. -/
def fastWrite (o : Inst V) : Except PyErr (List (PyStr × V)) := do
  call o "write"
  call o "validate"
  let l ← o.cls.members.mapM fun m => do pure (m, ← get o m)
  pure (l.filterMap fun a => a.2.map fun v => (a.1, v))

/-- `o.read(iprot)` without acceleration: the fields on the wire in their order, mutable classes, cc 1157-1183 -/
def readFields (o : Inst V) : List (PyStr × V) → Except PyErr (Inst V)
  | [] => .ok o
  | (m, v) :: ws => do
    let o ← setattr o (o.cls.attr m) (some v)
    readFields o ws

/-- The same by the C extension, protocol.tcc 1032-1036: `PyObject_SetAttr` with the name in `thrift_spec` -/
def fastFields (o : Inst V) : List (PyStr × V) → Except PyErr (Inst V)
  | [] => .ok o
  | (m, v) :: ws => do
    let o ← setattr o m (some v)
    fastFields o ws

/-- The last value of each name, in the order of the members -/
def latest (c : Cls) (ws : List (PyStr × V)) : List (PyStr × Option V) :=
  c.members.map fun m => (m, ((ws.filter fun w => w.1 = m).getLast?).map (·.2))

/-- A new instance of a mutable class, filled by `read`. `fast`: by the C extension. For an immutable class the fields are collected first,
and the class is called with keyword arguments: in generated code (cc 1187-1196, see `Locals`) all of them (the names of
keyword arguments in a call are not mangled), in the C extension (protocol.tcc 962-975, 1037-1052) those received, by the names in `thrift_spec`. -/
def readNew (fast : Bool) (c : Cls) (ws : List (PyStr × V)) : Except PyErr (Inst V) :=
  if c.immutable then
    if fast then construct c ((latest c ws).filter fun a => a.2.isSome)
    else construct c ((latest c ws).map fun a => (escape a.1, a.2))
  else do
    let o ← construct c []
    call o "read"
    if fast then fastFields o ws else readFields o ws

/-- `==` of two instances: `isinstance(other, self.__class__)` and `__dict__ == __dict__`, cc 1034-1037; with slots a walk over `__slots__`, cc
1060-1070. `veq` compares values; `None` equals only `None`. -/
def eq (veq : V → V → Bool) (a b : Inst V) : Except PyErr Bool :=
  let veq' : Option V → Option V → Bool := fun x y => match x, y with
    | some x, some y => veq x y
    | none, none => true
    | _, _ => false
  if b.cls ≠ a.cls then .ok false
  else if a.cls.slots then
    let rec walk : List PyStr → Except PyErr Bool
      | [] => .ok true
      | m :: ms => do
        let x ← get a m
        let y ← get b m
        if veq' x y then walk ms else .ok false
    walk a.cls.members
  else .ok (decide (a.attrs.length = b.attrs.length) && a.attrs.all fun e => match b.attrs.lookup e.1 with
    | some y => veq' e.2 y
    | none => false)

/-- `hash(o)`, cc 984-994, of immutable classes; a class with `__eq__` and without `__hash__` is not hashable. `vhash` is the hash of a
value, `none` if it has none; `mix` is `hash(self.__class__) ^ hash((…))`. -/
def hash (vhash : Option V → Option Int) (mix : Cls → List Int → Int) (o : Inst V) : Except PyErr Int :=
  if o.cls.immutable then do
    let hs ← o.cls.members.mapM fun m => do
      match vhash (← get o (o.cls.attr m)) with
      | some h => pure h
      | none => .error .typeError
    pure (mix o.cls hs)
  else .error .typeError

end Thrift.Attrs
