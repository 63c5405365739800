import Verif.Model.Attrs
/-
Copies of instances of generated classes: `copy.copy`, `copy.deepcopy`, and `pickle.loads(pickle.dumps(o))`. The generated code does not mention them: Python
asks `__reduce_ex__(4)` how to make an instance and what state to give it, and what comes of that depends on the base class, `__slots__`, `__init__` and
`__setattr__`, `t_py_generator.cc` 819-981 and `Thrift.py:86-91`. What Python does is written down from `copy.py` (`_reconstruct`), `copyreg.py` (`_slotnames`),
`object.__reduce_ex__` and `BaseException.__reduce__`, `__setstate__` and `__new__` of CPython.

Instances are those of `Verif.Model.Attrs`, with the simplifications listed there. An exception has members (without members it has the constructor of `TException`).
-/

namespace Thrift.Copies
open Rpc Names Locals Attrs

variable {V : Type}

/-- An instance. `args` is the attribute of exceptions, where `BaseException.__new__` puts the positional arguments. The generated `__init__` does not call that of the
base class, cc 894-940. -/
structure Obj (V : Type) where
  inst : Inst V
  args : List (Option V)
  deriving DecidableEq, Repr

/-- `C(x, …, a=y, …)`: too many arguments, or two for a parameter, are a `TypeError`. -/
def make (c : Cls) (pos : List (Option V)) (kw : List (PyStr × Option V)) : Except PyErr (Obj V) :=
  if c.members.length < pos.length ∨ ∃ a ∈ kw, a.1 ∈ (c.members.map c.attr).take pos.length then .error .typeError
  else do
    let o ← construct c ((c.members.map c.attr).zip pos ++ kw)
    .ok ⟨o, if c.exc then pos else []⟩

/-- `for n, v in state.items(): setattr(y, n, v)` -/
def setAll : Inst V → List (PyStr × Option V) → Except PyErr (Inst V)
  | o, [] => .ok o
  | o, (n, v) :: as => do
    let o ← setattr o n v
    setAll o as

/-- The copy. `cp` gives the copies of the values: they are the values themselves for `copy.copy`. An exception: `BaseException.__reduce__` has the class, `args` and
`__dict__`, where the slots are not; `__setstate__` sets attributes. Others: `copyreg.__newobj__` calls `__new__` only; the state is `__dict__`, which is updated
directly, or, with slots, the values of the slots, which are set as attributes. -/
def copy (cp : V → V) (o : Obj V) : Except PyErr (Obj V) :=
  let c := o.inst.cls
  let state := o.inst.attrs.map fun a => (a.1, a.2.map cp)
  if c.exc then do
    let y ← make c (o.args.map (Option.map cp)) []
    let i ← setAll y.inst (state.filter fun a => a.1 ∉ c.slotNames)
    .ok ⟨i, y.args⟩
  else if c.slots then do
    let i ← setAll ⟨c, []⟩ state
    .ok ⟨i, []⟩
  else .ok ⟨⟨c, state⟩, []⟩

end Thrift.Copies
