import Verif.Model.Tornado
import Verif.Spec.Transport
/-
What is seen of the lock.
-/

namespace Thrift.Spec.Tornado
open Thrift.Tornado

/-- The coroutines that were let in, in order. -/
def granted (os : List Obs) : List Nat := os.filterMap fun o => match o with | .granted i => some i | _ => none
/-- The coroutines that left, in order. -/
def released (os : List Obs) : List Nat := os.filterMap fun o => match o with | .released i => some i | _ => none

/-- The calls of `readFrame` that have ended, in order, with their results. -/
def results (os : List TObs) : List (Nat × Except Exc Bytes) :=
  os.filterMap fun o => match o with | .ended i r => some (i, r) | _ => none

/-- What was read from the stream. -/
def consumed (os : List TObs) : Bytes := os.flatMap fun o => match o with | .got _ b => b | _ => []

/-- What call `i` got from the stream. -/
def gotBy (i : Nat) (os : List TObs) : List Bytes :=
  os.filterMap fun o => match o with | .got j b => if j = i then some b else none | _ => none

/-- What was given to the stream, call by call. -/
def sent (os : List TObs) : List Bytes := os.filterMap fun o => match o with | .sent b => some b | _ => none

/-- The writes and flushes among the events. -/
def writeOps (es : List TEvent) : List WriteOp :=
  es.filterMap fun e => match e with | .write (.bytes b) => some (.write b) | .write .other => some .bad | .flush _ => some .flush | _ => none

end Thrift.Spec.Tornado
