import Verif.Model.Rpc
/-
`lib/py/src/transport/TTwisted.py`: `ThriftClientProtocol`, 61-109, with `TCallbackTransport`, 34-58, and the client that the compiler
generates for Twisted (`t_py_generator.cc` 1457-1800 where `gen_twisted_` is set).

Twisted runs on one thread. What is called by it (a client method, `stringReceived`, `connectionLost`) runs to its end, except that
firing a `Deferred` runs the callbacks of the user, who may call client methods from there. `stringReceived` fires a `Deferred` as the
last thing it does, so that such calls are further events; `connectionLost` fires in a loop, one iteration of which is an event.

Not modelled: a method whose name is a keyword of Python (see `Model/Names.lean`), `sendString` of 2^32 bytes or more (raises),
`connectionLost` before `connectionMade`.
-/

namespace Thrift.Twisted
open Rpc

/-- The classes and the service of a client: `iprot_factory` and `oprot_factory` make objects `s₀` of class `p` and `t₀` of class `q`;
the functions of the service include those of the services it extends. -/
structure Env (σ τ : Type) where
  p : Proto σ
  s₀ : σ
  q : Proto τ
  t₀ : τ
  sch : Schema
  mode : Mode := .gen
  fuel : Nat
  fns : List Fn

/-- What a `Deferred` is fired with. -/
inductive Fired where
  /-- `callback(None)` of a `oneway` call, cc 1615 -/
  | sent
  /-- `callback` or `errback` with what the reply says -/
  | reply (r : Result)
  /-- `errback` with the exception that `send_*` raised, cc 1626 -/
  | unsent (e : Exc)
  /-- `errback` with `TTransportException(END_OF_FILE)`, TTwisted.py 89-94 -/
  | lost
  /-- `errback` with `CancelledError`, by `cancel` -/
  | cancelled

/-- `self.client` of the protocol: set; set, and `connectionLost` is in its loop; `None` -/
inductive Phase where
  | up | losing | gone
  deriving DecidableEq, Repr

/-- The state of the client, from `connectionMade` on, cc 1469-1472 and TTwisted.py 79-82. A `Deferred` is a number. -/
structure St where
  phase : Phase := .up
  seqid : Nat := 0
  /-- `self._reqs`: a dictionary in insertion order -/
  reqs : List (Nat × Nat) := []
  /-- how many were made -/
  made : Nat := 0
  /-- `called` of a `Deferred` -/
  called : List Nat := []
  /-- `_suppressAlreadyCalled` of a `Deferred` -/
  suppress : List Nat := []
  /-- `__wbuf` of the transport -/
  wbuf : Bytes := []
  deriving DecidableEq, Repr

inductive Event where
  /-- a client method is called -/
  | call (fn : Fn) (args : List (Option Val))
  /-- `cancel()` of the `Deferred` that a client method returned -/
  | cancel (d : Nat)
  /-- `stringReceived` -/
  | frame (b : Bytes)
  /-- `connectionLost` -/
  | lose
  /-- the test of the loop of `connectionLost` and what follows it -/
  | pop

inductive Obs where
  /-- a client method made a `Deferred` and entered it under a sequence id -/
  | issued (d : Nat) (seqid : Nat)
  /-- a client method raises -/
  | refused (e : Exc)
  /-- `sendString` -/
  | string (b : Bytes)
  | fired (d : Nat) (r : Fired)
  /-- `AlreadyCalledError` -/
  | already (d : Nat)
  /-- `stringReceived` raises -/
  | raised (e : Exc)
  /-- `stringReceived` does not return -/
  | hangs

/-- `d[k] = v` of a dictionary -/
def setItem (k v : Nat) : List (Nat × Nat) → List (Nat × Nat)
  | [] => [(k, v)]
  | (k', v') :: m => if k' = k then (k, v) :: m else (k', v') :: setItem k v m

/-- `del d[k]` of a dictionary -/
def delItem (k : Nat) (m : List (Nat × Nat)) : List (Nat × Nat) := m.filter fun e => e.1 ≠ k

/-- `d[k]` of a dictionary; a message can have any sequence id. -/
def getItem (k : Int) (m : List (Nat × Nat)) : Option (Nat × Nat) := m.find? fun e => (e.1 : Int) = k

/-- `Deferred.callback` and `errback` (of Twisted): a `Deferred` that was fired raises, unless it was fired by `cancel`: then one further
firing is ignored. -/
def St.fire (s : St) (d : Nat) (r : Fired) : St × List Obs :=
  if d ∈ s.called then
    if d ∈ s.suppress then ({ s with suppress := s.suppress.filter (· ≠ d) }, [])
    else (s, [.already d])
  else ({ s with called := d :: s.called }, [.fired d r])

section
variable {σ τ : Type} [HasDepth σ] [HasDepth τ]

/-- The method `recv_*` for a name, TTwisted.py 103-107; the methods in `recv_map` are the same. Only functions that are not `oneway`
have one, cc 1669. -/
def recvMethod (fns : List Fn) (name : PyStr) : Option Fn := fns.reverse.find? fun f => f.name == name && !f.oneway

/-- `recv_*` after `d = self._reqs.pop(rseqid)`, cc 1689-1753 -/
def recvBody (p : Proto σ) (sch : Schema) (mode : Mode) (fuel : Nat) (fn : Fn) (type : Int) : P σ Result :=
  if type = TMessageType.EXCEPTION then do
    let x ← appRead p fuel
    p.readMessageEnd
    pure (.application x)
  else do
    let result ← readVal p.rd sch mode fuel (.struct fn.resultId)
    p.readMessageEnd
    pure (outcome fn (attrsOf result))

/-- A client method, cc 1548-1553 and 1598-1627, with `send_*`, cc 1630-1658, `cb_send_*` and `eb_send_*`. The `Deferred` that is
returned waits for the one in `_reqs`; the two are one in this model. -/
def St.call (env : Env σ τ) (s : St) (fn : Fn) (args : List (Option Val)) : St × List Obs :=
  let n := s.seqid + 1
  if s.phase = .gone then ({ s with seqid := n }, [.refused .attributeError])
  else
    let d := s.made
    let type := if fn.oneway then TMessageType.ONEWAY else TMessageType.CALL
    let reqs := setItem n d s.reqs
    match message env.q fn.name type (n : Int)
        (writeVal env.q.wr env.sch env.mode (.struct fn.argsId) (.struct args)) env.t₀ s.wbuf with
    | (.error e, _, b) =>
      let r := { s with seqid := n, made := d + 1, reqs := delItem n reqs, wbuf := b }.fire d (.unsent e)
      (r.1, .issued d n :: r.2)
    | (.ok (), _, b) =>
      if fn.oneway then
        let r := { s with seqid := n, made := d + 1, reqs := delItem n reqs, wbuf := [] }.fire d .sent
        (r.1, .issued d n :: .string b :: r.2)
      else ({ s with seqid := n, made := d + 1, reqs := reqs, wbuf := [] }, [.issued d n, .string b])

/-- `stringReceived`, TTwisted.py 98-109, with `recv_*`, cc 1684-1753 -/
def St.frame (env : Env σ τ) (s : St) (b : Bytes) : St × List Obs :=
  match exec env.p.readMessageBegin env.s₀ b with
  | none => (s, [.hangs])
  | some ((.error e, _), _) => (s, [.raised e])
  | some ((.ok m, i), rest) =>
    match recvMethod env.fns m.1 with
    | none => (s, [.raised .attributeError])
    | some fn =>
      match getItem m.2.2 s.reqs with
      | none => (s, [.raised .keyError])
      | some e =>
        let s' := { s with reqs := delItem e.1 s.reqs }
        match exec (recvBody env.p env.sch env.mode env.fuel fn m.2.1) i rest with
        | none => (s', [.hangs])
        | some ((.error x, _), _) => (s', [.raised x])
        | some ((.ok r, _), _) => s'.fire e.2 (.reply r)

/-- One iteration of the loop of `connectionLost`, TTwisted.py 92-96; `popitem` removes the item that was entered last. -/
def St.pop (s : St) : St × List Obs :=
  match s.reqs.getLast? with
  | none => ({ s with phase := .gone }, [])
  | some e => { s with reqs := s.reqs.dropLast }.fire e.2 .lost

/-- `Deferred.cancel` (of Twisted), where no canceller is given. -/
def St.cancel (s : St) (d : Nat) : St × List Obs :=
  if d ∈ s.called then (s, [])
  else { s with suppress := d :: s.suppress }.fire d .cancelled

/-- One event; `none`: it cannot happen. -/
def St.step (env : Env σ τ) (s : St) : Event → Option (St × List Obs)
  | .call fn args => some (s.call env fn args)
  | .cancel d => if d < s.made then some (s.cancel d) else none
  | .frame b => if s.phase = .up then some (s.frame env b) else none
  | .lose => if s.phase = .up then some ({ s with phase := .losing }, []) else none
  | .pop => if s.phase = .losing then some s.pop else none

def St.run (env : Env σ τ) (s : St) : List Event → Option (St × List Obs)
  | [] => some (s, [])
  | e :: es =>
    match s.step env e with
    | none => none
    | some (s', o) =>
      match s'.run env es with
      | none => none
      | some (s'', os) => some (s'', o ++ os)

end
end Thrift.Twisted
