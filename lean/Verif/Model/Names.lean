import Verif.Model.Rpc
/-
The names in the generated code: `t_py_generator.cc` 55-58 and 381-386, the client methods 1457-1760 and the processor 1990-2110.

The generated class `Client` is the list of its methods in the order of their definition: a later definition of the same name replaces an
earlier one. A service is the list of the functions of the service itself and of those it extends, the base last; each has a class of its
own, derived from the next. Functions whose names are names of other attributes (`_seqid`, `__init__`, …) are not modelled.
-/

namespace Thrift.Names
open Rpc

/-- `python_keywords_`, cc 55-58 -/
def keywords : List PyStr :=
  ["False", "None", "True", "and", "as", "assert", "break", "class", "continue", "def", "del", "elif", "else", "except", "exec", "finally",
    "for", "from", "global", "if", "import", "in", "is", "lambda", "nonlocal", "not", "or", "pass", "print", "raise", "return", "try",
    "while", "with", "yield"].map pyStr

/-- `maybe_escape_identifier`, cc 381-386 -/
def escape (n : PyStr) : PyStr := if n ∈ keywords then n ++ pyStr "_" else n

/-- The options `py`, `py:twisted` and `py:tornado` -/
inductive Kind where
  | blocking | twisted | tornado
  deriving DecidableEq, Repr

/-- A generated method, of `Client` or of `Processor` -/
inductive Def where
  /-- cc 1545 -/
  | method (f : Fn)
  /-- cc 1610 -/
  | cbSend (f : Fn)
  /-- cc 1622 -/
  | ebSend (f : Fn)
  /-- cc 1632 -/
  | send (f : Fn)
  /-- cc 1672 and 1677-1679 -/
  | recv (f : Fn)
  /-- cc 2092-2096 -/
  | process (f : Fn)

/-- What is defined for one function in `Client`, in this order, cc 1536-1757 -/
def clientDefs (k : Kind) (f : Fn) : List (PyStr × Def) :=
  (escape f.name, .method f) ::
  ((if k = .twisted then [(pyStr "cb_send_" ++ f.name, .cbSend f), (pyStr "eb_send_" ++ f.name, .ebSend f)] else []) ++
  ((pyStr "send_" ++ escape f.name, .send f) ::
  (if f.oneway then [] else [(pyStr "recv_" ++ escape f.name, .recv f)])))

/-- What is defined for one function in `Processor`, cc 2072-2075. Of the Twisted processor, the further `write_results_*` and
`handle_exception_*` are not modelled. -/
def processorDefs (f : Fn) : List (PyStr × Def) := [(pyStr "process_" ++ escape f.name, .process f)]

/-- `getattr` of an object: the class, then its base, and so on; in each the last definition of the name. -/
def attr (defs : Fn → List (PyStr × Def)) (svc : List (List Fn)) (n : PyStr) : Option Def :=
  svc.findSome? fun fns => ((fns.flatMap defs).reverse.find? fun e => e.1 = n).map (·.2)

/-- The attributes of `self` that the client method of `f` uses, cc 1553-1559, 1585, 1602-1605. With Tornado and Twisted,
`recv_*` is found through the name in the reply, cc 1520 and TTwisted.py 103-107. -/
def uses (k : Kind) (f : Fn) : List PyStr :=
  match k with
  | .blocking => (pyStr "send_" ++ f.name) :: if f.oneway then [] else [pyStr "recv_" ++ f.name]
  | .tornado => [pyStr "send_" ++ f.name]
  | .twisted => [pyStr "send_" ++ f.name, pyStr "cb_send_" ++ f.name, pyStr "eb_send_" ++ f.name]

/-- `getattr(self, 'recv_' + fname)` -/
def receiver (k : Kind) (svc : List (List Fn)) (name : PyStr) : Option Def := attr (clientDefs k) svc (pyStr "recv_" ++ name)

/-- `self._processMap` after `__init__`, cc 2004-2015: the base class fills in its entries first. Each class takes its methods from the
class `Processor` of its own module. -/
def processMap : List (List Fn) → List (PyStr × Option Def)
  | [] => []
  | fns :: base => processMap base ++ fns.map fun f => (f.name, attr processorDefs (fns :: base) (pyStr "process_" ++ escape f.name))

/-- `self._processMap[name]`: `none`, if there is no such entry -/
def dispatch (svc : List (List Fn)) (name : PyStr) : Option (Option Def) :=
  ((processMap svc).reverse.find? fun e => e.1 = name).map (·.2)

end Thrift.Names
