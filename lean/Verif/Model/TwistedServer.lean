import Verif.Model.Twisted
/-
The server side of `lib/py/src/transport/TTwisted.py`: `ThriftServerProtocol`, 214-239, and `ThriftResource`, 294-329, with the processor that
the compiler generates for Twisted (`t_py_generator.cc` 2022-2062 and 2088-2214 where `gen_twisted_` is set).

Every request has its own buffers and protocol objects. A handler method returns, raises, or returns a `Deferred` that is fired later; what
it does is chosen by the event. Nothing here says which events the reactor still delivers after the connection was closed or an exception
left `stringReceived` (after which Twisted closes the connection): all are allowed.

Not modelled: `_on_message_begin`; `sendString` of 2^32 bytes or more; names of functions that coincide (see `Model/Names.lean`); that the
connection is lost (what is sent is then dropped by Twisted).
-/

namespace Thrift.TwistedServer
open Rpc

export Twisted (Env)

/-- `ThriftServerProtocol`, or `ThriftResource` -/
inductive Kind where
  | protocol | resource
  deriving DecidableEq, Repr

inductive Event where
  /-- `stringReceived` (or `render_POST`). The handler method, if one is called, does this at once, or (`none`) returns a `Deferred`. -/
  | frame (b : Bytes) (o : Option Outcome)
  /-- the `Deferred` that the handler returned for the request with this number is fired -/
  | finish (k : Nat) (o : Outcome)

inductive Obs where
  /-- the handler method is called for the request with this number, with these arguments -/
  | invoked (k : Nat) (fn : Fn) (args : List (Option Val))
  /-- `sendString` (or `request.write` and `request.finish`) for the request with this number -/
  | reply (k : Nat) (b : Bytes)
  /-- `loseConnection` -/
  | closed (k : Nat)
  /-- the `Deferred` of `process` failed and there is no errback: Twisted logs the error -/
  | unhandled (k : Nat)
  /-- `stringReceived` (or `render_POST`) raises -/
  | raised (k : Nat) (e : Exc)
  /-- `stringReceived` does not return -/
  | hangs (k : Nat)

/-- A request that waits for its handler -/
structure Waiting where
  k : Nat
  fn : Fn
  seqid : Int

/-- The number of requests so far, and those that wait -/
structure St where
  made : Nat := 0
  waiting : List Waiting := []

/-- How the `Deferred` that `process` returned ends: with what is in `tmo`, or with an error -/
inductive Final where
  | done (b : Bytes)
  | failed
  deriving DecidableEq, Repr

section
variable {σ τ : Type} [HasDepth σ] [HasDepth τ]

/-- `result.write(oprot)` -/
def writeReply (env : Env σ τ) (fn : Fn) : Reply → W τ Unit
  | .result attrs => writeVal env.q.wr env.sch env.mode (.struct fn.resultId) (.struct attrs)
  | .application x => appWrite env.q x

/-- The `except` clauses of `write_results_exception_*`, cc 2174-2201: `none`, if the exception is raised again -/
def clauses (fn : Fn) : Outcome → Option (Int × Reply)
  | .declared sid attrs =>
    match fn.throws.findIdx? (· == sid) with
    | some i => some (TMessageType.REPLY, .result (setException fn i (.struct attrs)))
    | none => some (TMessageType.EXCEPTION, .application { type := some 6, message := some (pyStr "Internal error") })
  | .transport _ => none
  | .application x => some (TMessageType.EXCEPTION, .application x)
  | .base _ => none
  | _ => some (TMessageType.EXCEPTION, .application { type := some 6, message := some (pyStr "Internal error") })

/-- `write_results_exception_*`, cc 2166-2207, on what was written to `oprot` so far. `flush` of a `TMemoryBuffer` does nothing. -/
def writeException (env : Env σ τ) (fn : Fn) (seqid : Int) (o : Outcome) (t : τ) (b : Bytes) : Final :=
  match clauses fn o with
  | none => .failed
  | some (type, r) =>
    match message env.q fn.name type seqid (writeReply env fn r) t b with
    | (.ok (), _, b) => .done b
    | (.error _, _, _) => .failed

/-- An exception that was raised while writing, for the `except` clauses -/
def caught : Exc → Outcome
  | .ttransport t => .transport t
  | .tapplication t => .application { type := some t }
  | _ => .other 0

/-- The callbacks of a function that is not `oneway`, cc 2138-2143: `write_results_success_*`, cc 2152-2164. Its exceptions get to the errback
that was added after it. -/
def finishTwoWay (env : Env σ τ) (fn : Fn) (seqid : Int) : Outcome → Final
  | .returned v =>
    match message env.q fn.name TMessageType.REPLY seqid (writeReply env fn (.result (setSuccess fn v))) env.t₀ [] with
    | (.ok (), _, b) => .done b
    | (.error e, t, b) => writeException env fn seqid (caught e) t b
  | o => writeException env fn seqid o env.t₀ []

/-- `handle_exception_*` of a `oneway` function, cc 2135-2137, 2148-2150, 2184-2186, 2208-2212 -/
def finishOneway : Outcome → Final
  | .transport _ => .failed
  | .base _ => .failed
  | _ => .done []

/-- `processOk` and `processError`, TTwisted.py 221-228; `_cbProcess`, 311-316, which has no errback beside it, 328 -/
def settle (kind : Kind) (k : Nat) : Final → List Obs
  | .done b =>
    match kind with
    | .protocol => if 0 < b.length then [.reply k b] else []
    | .resource => [.reply k b]
  | .failed =>
    match kind with
    | .protocol => [.closed k]
    | .resource => [.unhandled k]

/-- The rest of a `process_*` method after the handler is done -/
def finish (env : Env σ τ) (kind : Kind) (w : Waiting) (o : Outcome) : List Obs :=
  settle kind w.k (if w.fn.oneway then finishOneway o else finishTwoWay env w.fn w.seqid o)

/-- `name not in self._processMap`, cc 2039-2057: what follows `readMessageBegin` -/
def unknown (env : Env σ τ) (kind : Kind) (k : Nat) (name : PyStr) (seqid : Int) (s : σ) (rest : Bytes) : List Obs :=
  match exec (do
      skip env.p.rd env.fuel skipDepth TType.STRUCT
      env.p.readMessageEnd) s rest with
  | none => [.hangs k]
  | some ((.error e, _), _) => [.raised k e]
  | some ((.ok (), _), _) =>
    match message env.q name TMessageType.EXCEPTION seqid
        (appWrite env.q { type := some 1, message := some (pyStr "Unknown function " ++ name) }) env.t₀ [] with
    | (.error e, _, _) => [.raised k e]
    | (.ok (), _, b) => settle kind k (.done b)

/-- `stringReceived`, TTwisted.py 230-239, and `render_POST`, 318-329, with `process`, cc 2022-2062, and the beginning of `process_*`,
cc 2102-2133. -/
def St.frame (env : Env σ τ) (kind : Kind) (s : St) (b : Bytes) (o : Option Outcome) : St × List Obs :=
  let k := s.made
  let s := { s with made := k + 1 }
  match exec env.p.readMessageBegin env.s₀ b with
  | none => (s, [.hangs k])
  | some ((.error e, _), _) => (s, [.raised k e])
  | some ((.ok m, i), rest) =>
    match lookup env.fns m.1 with
    | none => (s, unknown env kind k m.1 m.2.2 i rest)
    | some fn =>
      match exec (do
          let args ← readVal env.p.rd env.sch env.mode env.fuel (.struct fn.argsId)
          env.p.readMessageEnd
          pure args) i rest with
      | none => (s, [.hangs k])
      | some ((.error e, _), _) => (s, [.raised k e])
      | some ((.ok args, _), _) =>
        let w : Waiting := ⟨k, fn, m.2.2⟩
        match o with
        | none => ({ s with waiting := w :: s.waiting }, [.invoked k fn (attrsOf args)])
        | some o => (s, .invoked k fn (attrsOf args) :: finish env kind w o)

/-- The request with this number -/
def St.find (s : St) (k : Nat) : Option Waiting := s.waiting.find? fun w => w.k = k

/-- One event; `none`: it cannot happen. -/
def St.step (env : Env σ τ) (kind : Kind) (s : St) : Event → Option (St × List Obs)
  | .frame b o => some (s.frame env kind b o)
  | .finish k o =>
    match s.find k with
    | none => none
    | some w => some ({ s with waiting := s.waiting.filter fun w => w.k ≠ k }, finish env kind w o)

def St.run (env : Env σ τ) (kind : Kind) (s : St) : List Event → Option (St × List Obs)
  | [] => some (s, [])
  | e :: es =>
    match s.step env kind e with
    | none => none
    | some (s', o) =>
      match s'.run env kind es with
      | none => none
      | some (s'', os) => some (s'', o ++ os)

end
end Thrift.TwistedServer
