import Verif.Model.HttpServer
/-
`on_message_begin`: the callback that a processor calls after it has read the header of a message.

Generated processors: `t_py_generator.cc` 2016-2035; `TMultiplexedProcessor`: `lib/py/src/TMultiplexedProcessor.py` 25-44; `THttpServer`, which
answers oneway messages from such a callback: `lib/py/src/server/THttpServer.py` 77-115.

Processor objects are numbers. The processors that are registered are generated ones; a multiplexer in a multiplexer does not work (C98).
-/

namespace Thrift.Callbacks
open Rpc

/-- A callback, with the state of the application -/
abbrev Callback (χ : Type) := PyStr → Int → Int → χ → Except Exc Unit × χ

/-- The attribute `_on_message_begin` of each generated processor (`None` at first, cc 2016), and the attributes `defaultProcessor` and `services` of
the multiplexer (py 26-28) -/
structure World (χ : Type) where
  callback : Nat → Option (Callback χ) := fun _ => none
  dflt : Option Nat := none
  services : List (PyStr × Nat) := []

/-- `d[key] = value` of a dictionary: the place of an old key is kept. -/
def setItem (key : PyStr) (value : Nat) : List (PyStr × Nat) → List (PyStr × Nat)
  | [] => [(key, value)]
  | (k, v) :: d => if k = key then (key, value) :: d else (k, v) :: setItem key value d

/-- What a program does with the multiplexer, or with one of the processors itself -/
inductive Op (χ : Type) where
  | registerDefault (i : Nat)
  | registerProcessor (name : PyStr) (i : Nat)
  | onMessageBegin (f : Callback χ)
  | onMessageBeginOf (i : Nat) (f : Callback χ)

/-- A generated processor's `on_message_begin`, cc 2020-2024 -/
def World.arm (w : World χ) (i : Nat) (f : Callback χ) : World χ := { w with callback := fun j => if j = i then some f else w.callback j }

/-- `registerDefault`, py 30-37; `registerProcessor`, py 39-40; `on_message_begin`, py 42-44 -/
def World.step (w : World χ) : Op χ → World χ
  | .registerDefault i => { w with dflt := some i }
  | .registerProcessor name i => { w with services := setItem name i w.services }
  | .onMessageBegin f => w.services.foldl (fun w s => w.arm s.2 f) w
  | .onMessageBeginOf i f => w.arm i f

def World.run (w : World χ) (ops : List (Op χ)) : World χ := ops.foldl World.step w

section
variable {σ τ χ ω : Type}

/-- The multiplexer's `process`: the processors run with their callbacks, `if self._on_message_begin`, cc 2031-2035. `code` is what each of them does with a callback. -/
def World.process (code : Nat → Option (Callback χ) → Processor σ τ χ ω) (w : World χ) : Processor σ τ χ ω :=
  multiProcess { dflt := w.dflt.map fun i => code i (w.callback i), services := w.services.map fun s => (s.1, code s.2 (w.callback s.2)) }

end

/-! ### `THttpServer` -/

section
open HttpServer
variable {σ τ χ : Type}

/-- What a generated processor works with: the tables of its service and its handler -/
structure Service (χ : Type) where
  sch : Schema
  mode : Mode := .gen
  fuel : Nat
  fns : List Fn
  handler : Handler χ

/-- A server with the protocols of another, and this processor -/
def withService (S : Server σ τ χ) (v : Service χ) : Server σ τ χ := { S with sch := v.sch, mode := v.mode, fuel := v.fuel, fns := v.fns, handler := v.handler }

/-- The processor of service `i` -/
def code [HasDepth σ] [HasDepth τ] (S : Server σ τ χ) (svc : Nat → Service χ) (i : Nat) (cb : Option (Callback (Web χ))) : Processor σ τ (Web χ) Bytes :=
  process (withService S (svc i)).env (handle (svc i).handler) cb (svc i).fns

/-- `do_POST`, 80-102, of a server whose processor is a multiplexer: `on_message_begin`, 90, before each request. (Only the protocols and the exceptions of `S` count.) -/
def doPost [HasDepth σ] [HasDepth τ] (S : Server σ τ χ) (svc : Nat → Service χ) (w : World (Web χ)) (size : Except Exc Int) (f : File) (x : χ) :
    Option ((Except Exc Unit × Web χ) × File) :=
  match size with
  | .error e => some ((.error e, { user := x }), f)
  | .ok n =>
    match ((w.step (.onMessageBegin HttpServer.onBegin)).process (code S svc) S.p { inp := S.inp, out := S.out, sink := [], app := { user := x } }).run
        (P.over Buffered.read fileRead) ({ rbufSize := n.toNat }, f) with
    | none => none
    | some ((r, c), (_, f')) => some (finish S c r, f')

end
end Thrift.Callbacks
