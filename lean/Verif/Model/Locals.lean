import Verif.Model.Names
import Verif.Spec.Names
/-
The local variables of generated functions: `read` of immutable structs, `t_py_generator.cc` 1095-1206; the client methods and
`send_*`, cc 1536-1664; `process_*`, cc 2087-2354. The names of members, parameters and declared exceptions become names
of local variables there, next to those the generator uses itself.

A function is modelled by what it does to its variables: a list of bindings, the last assignment first. Values of the program are taken
from a type `V`. A Python `SyntaxError` makes the module unusable; it is the outcome of each function of it.

Simplifications. No member, parameter or exception has the name of something at module level that the function uses (`TType`,
`TMessageType`, `f_args`, the exception classes, …) or of a temporary (`_size0`, …), or begins with two underscores (see `Attrs`). The protocol is not accelerated. Reading a field from the
protocol, and writing, succeed. The options `slots`, `dynamic` and `enum` are not used.
-/

namespace Thrift.Locals
open Rpc Names

/-- Python objects, as far as these functions handle them -/
inductive Obj (V : Type) where
  | none
  | int (i : Int)
  /-- a value of the program -/
  | val (v : V)
  | self | cls | iprot | oprot
  /-- the instance of `f_args`, of `f_result` -/
  | args | result
  /-- a new `Future` -/
  | future
  /-- a `Failure` of Twisted -/
  | error
  deriving DecidableEq, Repr

inductive PyErr where
  | syntaxError | attributeError | typeError | unboundLocal | valueError
  deriving DecidableEq, Repr

/-- The local variables -/
abbrev Frame (V : Type) := List (PyStr × Obj V)

variable {V : Type}

/-- The value of a variable -/
def look (f : Frame V) (n : PyStr) : Except PyErr (Obj V) :=
  match f.lookup n with
  | some o => .ok o
  | none => .error .unboundLocal

/-- `n = o` -/
def put (n : PyStr) (o : Obj V) (f : Frame V) : Frame V := (n, o) :: f

/-- `del n` -/
def del (n : PyStr) (f : Frame V) : Frame V := f.filter fun a => a.1 ≠ n

/-- Using a variable that has to be the object `o`: a method call on another object is an `AttributeError`, as far as the values of a
program have no such methods. -/
def expect [DecidableEq V] (f : Frame V) (n : PyStr) (o : Obj V) (e : PyErr) : Except PyErr Unit := do
  let x ← look f n
  if x = o then pure () else .error e

/-- A member of a struct: its name, key, wire type and default -/
structure Mem (V : Type) where
  name : PyStr
  key : Int
  ttype : Int
  dflt : Option V
  deriving DecidableEq, Repr

/-- Python accepts a function with the parameters `self` and these, cc 899-925 and 2780-2840: the names of parameters differ, and none is a
reserved word of Python. The generator does not know `async` and `await` as such. -/
def Accepted (names : List PyStr) : Prop :=
  (pyStr "self" :: names.map escape).Nodup ∧ ∀ n ∈ names, escape n ∉ Spec.Names.reserved

instance (names : List PyStr) : Decidable (Accepted names) := inferInstanceAs (Decidable (_ ∧ _))

/-- The name of the variable, cc 1131 -/
def Mem.var (m : Mem V) : PyStr := escape m.name

/-- A Python value, `None` if absent -/
def orNone : Option V → Obj V
  | some v => .val v
  | none => .none

/-- A field on the wire: what `readFieldBegin` returns of it and the value that would be read -/
structure Wire (V : Type) where
  fid : Int
  ftype : Int
  v : V
  deriving DecidableEq, Repr

/-- `if fid == 1: if ftype == …: name = … else: skip elif fid == 2: …`, cc 1157-1180: the first member with this key. -/
def branch (ms : List (Mem V)) (w : Wire V) (f : Frame V) : Frame V :=
  match ms.find? (fun m => decide (w.fid = m.key)) with
  | some m => if w.ftype = m.ttype then put m.var (.val w.v) f else f
  | none => f

/-- The loop, cc 1141-1183. All protocols return `(None, ftype, fid)`, and `(None, TType.STOP, 0)` at the end (TBinaryProtocol.py 167-172,
TCompactProtocol.py 297-316, TJSONProtocol.py 443-453). `fid` and `ftype` are not used after a member is assigned. -/
def readLoop [DecidableEq V] (ms : List (Mem V)) : List (Wire V) → Frame V → Except PyErr (Frame V)
  | [], f => do
    expect f (pyStr "iprot") .iprot .attributeError
    pure (put (pyStr "fid") (.int 0) (put (pyStr "ftype") (.int 0) (put (pyStr "fname") .none f)))
  | w :: ws, f => do
    expect f (pyStr "iprot") .iprot .attributeError
    let f := put (pyStr "fid") (.int w.fid) (put (pyStr "ftype") (.int w.ftype) (put (pyStr "fname") .none f))
    let f := branch ms w f
    expect f (pyStr "iprot") .iprot .attributeError
    readLoop ms ws f

/-- `read(cls, iprot)` of an immutable struct, cc 1095-1206: the keyword arguments that `cls` is called with at the end. The members are the
parameters of `__init__(self, …)`, cc 899-925. -/
def readImmutable [DecidableEq V] (ms : List (Mem V)) (ws : List (Wire V)) : Except PyErr (List (PyStr × Obj V)) :=
  if Accepted (ms.map Mem.name) then do
    let f : Frame V := [(pyStr "iprot", .iprot), (pyStr "cls", .cls)]
    let f := ms.foldl (fun f m => put m.var (orNone m.dflt) f) f
    let f ← readLoop ms ws f
    expect f (pyStr "iprot") .iprot .attributeError
    expect f (pyStr "cls") .cls .typeError
    ms.mapM fun m => do pure (m.var, ← look f m.var)
  else .error .syntaxError

/-- `args.a = a` for every parameter, cc 1647-1650: the attributes of `args`. -/
def setArgs (f : Frame V) (ps : List PyStr) : Except PyErr (List (PyStr × Obj V)) :=
  ps.mapM fun p => do pure (escape p, ← look f (escape p))

/-- The call of the method `n` of an object of a generated class with the given members. `__init__` sets an attribute for each member, and an
attribute of the object hides the method of the class: its value cannot be called. -/
def method (members : List PyStr) (n : String) : Except PyErr Unit :=
  if pyStr n ∈ members.map escape then .error .typeError else pure ()

/-- The call of `write`, which calls `validate`, cc 1213-1215 -/
def callWrite (members : List PyStr) : Except PyErr Unit := do
  method members "write"
  method members "validate"

/-- The variables of a method whose parameters have the given values -/
def enter (as : List (PyStr × Obj V)) : Frame V := as.map (fun a => (escape a.1, a.2)) ++ [(pyStr "self", .self)]

/-- `send_f`, cc 1629-1662, with the given parameters: the attributes of `args` when it is written. -/
def send [DecidableEq V] (k : Kind) (as : List (PyStr × Obj V)) : Except PyErr (List (PyStr × Obj V)) := do
  let f := enter as
  expect f (pyStr "self") .self .attributeError
  let f := if k = .blocking then f else put (pyStr "oprot") .oprot f
  let f := put (pyStr "args") .args f
  let attrs ← setArgs f (as.map (·.1))
  expect f (pyStr "args") .args .attributeError
  callWrite (as.map (·.1))
  if k = .blocking then expect f (pyStr "self") .self .attributeError
  else expect f (pyStr "oprot") .oprot .attributeError
  pure attrs

/-- The method `f` of the client, cc 1545-1578, up to the call of `send_f` included. `n` is the new sequence id. -/
def call [DecidableEq V] (k : Kind) (oneway : Bool) (n : Int) (as : List (PyStr × V)) : Except PyErr (List (PyStr × Obj V)) :=
  if Accepted (as.map (·.1)) then do
    let f := enter (as.map fun a => (a.1, .val a.2))
    expect f (pyStr "self") .self .attributeError
    let f := match k with
      | .blocking => f
      | .twisted => put (pyStr "seqid") (.int n) f
      | .tornado => if oneway then f else put (pyStr "future") .future f
    let bs ← as.mapM fun a => do pure (a.1, ← look f (escape a.1))
    send k bs
  else .error .syntaxError

/-- A function that is not oneway: the names of its parameters, whether it returns nothing, and the declared exceptions with their keys. -/
structure Sig where
  params : List PyStr
  void : Bool
  throws : List (PyStr × Int)
  deriving DecidableEq, Repr

/-- `t_struct::append`, t_struct.h 87-108: a member of a name or a key that is there already is left out. -/
def append (ms : List (PyStr × Int)) (m : PyStr × Int) : List (PyStr × Int) :=
  if ms.any fun a => decide (a.2 = m.2 ∨ a.1 = m.1) then ms else ms ++ [m]

/-- The members of `f_result`, cc 1360-1377. What `append` returns is ignored there. -/
def Sig.members (s : Sig) : List (PyStr × Int) :=
  s.throws.foldl append (if s.void then [] else [(pyStr "success", 0)])

/-- What `process_f` writes: the message type, the sequence id, and the fields of the struct with their keys -/
structure Reply (V : Type) where
  mtype : Obj V
  seqid : Obj V
  fields : List (Int × Obj V)
  deriving DecidableEq, Repr

/-- The fields that `f_result.write` writes, cc 1227-1244: the members that have been set. The order of the keys is not modelled. -/
def written (ms : List (PyStr × Int)) (attrs : List (PyStr × Obj V)) : List (Int × Obj V) :=
  ms.filterMap fun m => (attrs.lookup (escape m.1)).map fun o => (m.2, o)

/-- What is written at the end, cc 2200-2206, 2270-2276, 2343-2348 -/
def answer [DecidableEq V] (s : Sig) (f : Frame V) (attrs : List (PyStr × Obj V)) : Except PyErr (Reply V) := do
  expect f (pyStr "oprot") .oprot .attributeError
  let t ← look f (pyStr "msg_type")
  let q ← look f (pyStr "seqid")
  expect f (pyStr "result") .result .attributeError
  callWrite (s.members.map (·.1))
  pure ⟨t, q, written s.members attrs⟩

/-- `process_f` when the handler raises the exception `e` declared under the name `x`: `except X as x:` and `result.x = x`, with
`msg_type = TMessageType.REPLY` between them (cc 2315-2325) or before (Twisted and Tornado, cc 2166-2182 and 2224-2250). At the end of the
clause Python deletes `x`. Of Twisted, this is `write_results_exception_f`. An exception is immutable, unless it is declared otherwise:
setting an attribute of it is a `TypeError`. -/
def processRaises [DecidableEq V] (k : Kind) (s : Sig) (seqid : Int) (x : PyStr) (e : V) : Except PyErr (Reply V) :=
  if Accepted s.params ∧ Accepted (s.members.map (·.1)) ∧ escape x ∉ Spec.Names.reserved then do
    method s.params "read"
    let f : Frame V := match k with
      | .twisted =>
        [(pyStr "msg_type", .int 2), (pyStr "oprot", .oprot), (pyStr "seqid", .int seqid), (pyStr "result", .result), (pyStr "error", .error),
          (pyStr "self", .self)]
      | .tornado =>
        [(pyStr "msg_type", .int 2), (pyStr "result", .result), (pyStr "args", .args), (pyStr "oprot", .oprot), (pyStr "iprot", .iprot),
          (pyStr "seqid", .int seqid), (pyStr "self", .self)]
      | .blocking =>
        [(pyStr "result", .result), (pyStr "args", .args), (pyStr "oprot", .oprot), (pyStr "iprot", .iprot),
          (pyStr "seqid", .int seqid), (pyStr "self", .self)]
    let f := put (escape x) (.val e) f
    let f := if k = .blocking then put (pyStr "msg_type") (.int 2) f else f
    let a ← look f (escape x)
    expect f (pyStr "result") .result .typeError
    let f := del (escape x) f
    answer s f [(escape x, a)]
  else .error .syntaxError

end Thrift.Locals
