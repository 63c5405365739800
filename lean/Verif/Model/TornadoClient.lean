import Verif.Model.Twisted
import Verif.Model.Tornado
/-
The client that the compiler generates for Tornado: `t_py_generator.cc` 1457-1800 where `gen_tornado_` is set.

`_start_receiving` runs as a coroutine on the event loop; its iterations, from one frame to the next, and the client methods are the
events. Callbacks of futures are scheduled on the loop, so that they are further events. A `Future` is an `asyncio.Future` (Tornado 5 and
later).

The transport is a `TTornadoStreamTransport` (`Model/Tornado.lean`): of it, the frames that `readFrame` returns and the exceptions that
`readFrame` and `flush` raise are part of the events.

Not modelled: frames of 2^31 bytes or more (`flush` raises `struct.error` and keeps its buffer) and functions whose name is a keyword of
Python (`Model/Names.lean`).
-/

namespace Thrift.TornadoClient
open Rpc Twisted

/-- What a `Future` is resolved with. -/
inductive Resolved where
  /-- `set_result` or `set_exception` with what the reply says -/
  | reply (r : Result)
  /-- `set_exception` with the exception that reading the reply raised -/
  | unread (e : Exc)
  /-- `set_exception` with the `TTransportException` that `readFrame` raised -/
  | lost (type : Int)
  | cancelled

/-- Why `_start_receiving` ended. -/
inductive Stop where
  /-- `return`, cc 1515, after a `TTransportException` -/
  | closed
  /-- it raised -/
  | raised (e : Exc)
  /-- `asyncio.InvalidStateError` -/
  | invalidState
  /-- it does not come back -/
  | hangs
  deriving DecidableEq

structure St where
  /-- `_start_receiving` is running -/
  receiving : Bool := true
  seqid : Nat := 0
  /-- `self._reqs`: a dictionary in insertion order -/
  reqs : List (Nat × Nat) := []
  /-- how many futures were made -/
  made : Nat := 0
  /-- the futures that are resolved or cancelled -/
  done : List Nat := []
  /-- `__wbuf` of the transport -/
  wbuf : Bytes := []
  deriving DecidableEq, Repr

inductive Event where
  /-- a client method is called; `stream.write` may raise -/
  | call (fn : Fn) (args : List (Option Val)) (w : Option Tornado.Fail)
  /-- `cancel()` of a future, for instance by `asyncio.wait_for` -/
  | cancel (d : Nat)
  /-- `readFrame` returns a frame -/
  | frame (b : Bytes)
  /-- `readFrame` raises -/
  | fail (e : Exc)

inductive Obs where
  /-- a client method made a future and entered it under a sequence id -/
  | issued (d : Nat) (seqid : Nat)
  /-- a client method returns; with the future, if it made one -/
  | returned
  /-- a client method raises -/
  | refused (e : Exc)
  /-- the content of a frame that is given to the stream -/
  | string (b : Bytes)
  | resolved (d : Nat) (r : Resolved)
  | stopped (why : Stop)

/-- `set_result` and `set_exception`: a future that is done raises `InvalidStateError`, which ends `_start_receiving`. -/
def St.resolve (s : St) (d : Nat) (r : Resolved) : St × List Obs :=
  if d ∈ s.done then ({ s with receiving := false }, [.stopped .invalidState])
  else ({ s with done := d :: s.done }, [.resolved d r])

/-- `for future in self._reqs.values(): future.set_exception(e)`, then `self._reqs = {}` and `return`, cc 1511-1515. -/
def St.failAll (t : Int) : List (Nat × Nat) → St → St × List Obs
  | [], s => ({ s with reqs := [], receiving := false }, [.stopped .closed])
  | e :: es, s =>
    if e.2 ∈ s.done then ({ s with receiving := false }, [.stopped .invalidState])
    else
      let r := St.failAll t es { s with done := e.2 :: s.done }
      (r.1, .resolved e.2 (.lost t) :: r.2)

section
variable {σ τ : Type} [HasDepth σ] [HasDepth τ]

/-- A client method, cc 1554-1560, 1582-1586, with `send_*`, cc 1630-1658. -/
def St.call (env : Env σ τ) (s : St) (fn : Fn) (args : List (Option Val)) (w : Option Tornado.Fail) : St × List Obs :=
  let n := s.seqid + 1
  let type := if fn.oneway then TMessageType.ONEWAY else TMessageType.CALL
  let s := { s with seqid := n }
  let r : St × List Obs := if fn.oneway then (s, []) else ({ s with made := s.made + 1, reqs := setItem n s.made s.reqs }, [.issued s.made n])
  match message env.q fn.name type (n : Int)
      (writeVal env.q.wr env.sch env.mode (.struct fn.argsId) (.struct args)) env.t₀ s.wbuf with
  | (.error e, _, b) => ({ r.1 with wbuf := b }, r.2 ++ [.refused e])
  | (.ok (), _, b) =>
    match w with
    | some f => ({ r.1 with wbuf := [] }, r.2 ++ [.refused f.exc])
    | none => ({ r.1 with wbuf := [] }, r.2 ++ [.string b, .returned])

/-- The loop body after `readFrame`, cc 1516-1529 -/
def St.frame (env : Env σ τ) (s : St) (b : Bytes) : St × List Obs :=
  match exec env.p.readMessageBegin env.s₀ b with
  | none => ({ s with receiving := false }, [.stopped .hangs])
  | some ((.error e, _), _) => ({ s with receiving := false }, [.stopped (.raised e)])
  | some ((.ok m, i), rest) =>
    match recvMethod env.fns m.1 with
    | none => ({ s with receiving := false }, [.stopped (.raised .attributeError)])
    | some fn =>
      match getItem m.2.2 s.reqs with
      | none => (s, [])
      | some e =>
        let s' := { s with reqs := delItem e.1 s.reqs }
        match exec (recvBody env.p env.sch env.mode env.fuel fn m.2.1) i rest with
        | none => ({ s' with receiving := false }, [.stopped .hangs])
        | some ((.error x, _), _) => s'.resolve e.2 (.unread x)
        | some ((.ok r, _), _) => s'.resolve e.2 (.reply r)

/-- `readFrame` raises, cc 1508-1515 -/
def St.fail (s : St) : Exc → St × List Obs
  | .ttransport t => St.failAll t s.reqs s
  | e => ({ s with receiving := false }, [.stopped (.raised e)])

/-- One event; `none`: it cannot happen. Cancelling a future that is done has no effect. -/
def St.step (env : Env σ τ) (s : St) : Event → Option (St × List Obs)
  | .call fn args w => some (s.call env fn args w)
  | .cancel d =>
    if d < s.made then
      if d ∈ s.done then some (s, []) else some ({ s with done := d :: s.done }, [.resolved d .cancelled])
    else none
  | .frame b => if s.receiving then some (s.frame env b) else none
  | .fail e => if s.receiving then some (s.fail e) else none

def St.run (env : Env σ τ) (s : St) : List Event → Option (St × List Obs)
  | [] => some (s, [])
  | e :: es =>
    match s.step env e with
    | none => none
    | some (s', o) =>
      match s'.run env es with
      | none => none
      | some (s'', os) => some (s'', o ++ os)

end
end Thrift.TornadoClient
