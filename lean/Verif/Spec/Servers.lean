import Verif.Model.Servers
/-
What a blocking server is expected to do with a connection.
-/

namespace Thrift.Spec.Servers
open Thrift.Servers

/-- Where a connection is, seen from outside. -/
inductive Phase where
  | unseen
  | accepted
  /-- thread `t` serves it and has made these transports and protocols -/
  | serving (t : Nat) (made : List Stage)
  /-- the processor has failed; thread `t` has to close the input transport -/
  | mustClose (t : Nat)
  /-- thread `t` has to close the output transport -/
  | mustCloseOut (t : Nat)
  | over
  deriving DecidableEq, Repr

/-- With THeaderProtocol the same transport is used for both directions. -/
def oneTransport (cfg : Cfg) : Bool := cfg.header && cfg.kind ≠ .processPool

/-- Everything that is needed for the processor has been made. -/
def ready (cfg : Cfg) (made : List Stage) : Bool :=
  made.contains .getI && made.contains .getIP && (oneTransport cfg || made.contains .getO && made.contains .getOP)

/-- After the input transport was closed. -/
def closedIn (cfg : Cfg) (t : Nat) : Phase := if oneTransport cfg then .over else .mustCloseOut t

/-- A failure of `close` that does not keep the other transport from being closed. -/
def harmless (cfg : Cfg) (e : PyExc) : Bool := cfg.kind = .forking && e = .io

/-- The behaviour that is allowed: one thread makes the transports and protocols, each once, then calls the processor
until it raises, then closes the transports. Exceptions that are not `Exception` (and for the
forking server not even those) end it without closing; so do exceptions from the factories and from `close`. -/
def Phase.next (cfg : Cfg) : Phase → Obs → Option Phase
  | .unseen, .accepted _ _ => some .accepted
  | .accepted, .startRaised _ _ _ => some .over
  | .accepted, .did t _ .getI .ok => some (.serving t [.getI])
  | .accepted, .did _ _ .getI (.raise _) => some .over
  | .serving t made, .did t' _ st r =>
    if t' ≠ t then none
    else
      match st, r with
      | .process, .ok => if ready cfg made then some (.serving t made) else none
      | .process, .raise e =>
        if ready cfg made then some (if e.isException || cfg.kind = .forking then .mustClose t else .over) else none
      | .closeI, _ => none
      | .closeO, _ => none
      | st, .ok => if st ∈ made then none else some (.serving t (st :: made))
      | st, .raise _ => if st ∈ made then none else some .over
      | _, _ => none
  | .mustClose t, .did t' _ .closeI .ok => if t' ≠ t then none else some (closedIn cfg t)
  | .mustClose t, .did t' _ .closeI (.raise e) =>
    if t' ≠ t then none else some (if harmless cfg e then closedIn cfg t else .over)
  | .mustCloseOut t, .did t' _ .closeO .ok => if t' ≠ t then none else some .over
  | .mustCloseOut t, .did t' _ .closeO (.raise _) => if t' ≠ t then none else some .over
  | _, _ => none

/-- The connection that an observation is about. What the forking parent does with its copy is not part of the service. -/
def aboutConn : Obs → Option Nat
  | .accepted _ c => some c
  | .startRaised _ c _ => some c
  | .did _ c _ _ => some c
  | _ => none

def ofConn (c : Nat) (os : List Obs) : List Obs := os.filter fun o => aboutConn o == some c

def follow (cfg : Cfg) (p : Phase) (os : List Obs) : Option Phase := os.foldlM (Phase.next cfg) p

/-- Only the processor fails, with an `Exception`; `accept` may fail where the server is prepared for it. -/
def OnlyProcessorFails (cfg : Cfg) : Obs → Prop
  | .accepted _ _ => True
  | .acceptRaised _ e => e.isException = true ∧ cfg.kind ≠ .simple ∧ cfg.kind ≠ .forking
  | .startRaised _ _ _ => False
  | .did _ _ .process (.raise e) => e.isException = true
  | .did _ _ _ (.raise _) => False
  | .did _ _ _ _ => True
  | .parent _ _ _ (.raise _) => False
  | .parent _ _ _ _ => True

/-- Failures that the server is prepared for: those of `OnlyProcessorFails`, and in the two pools an `Exception` of whatever is called
for a connection: a factory, the processor, `close`. -/
def Tolerated (cfg : Cfg) : Obs → Prop
  | .acceptRaised _ e => e.isException = true ∧ cfg.kind ≠ .simple ∧ cfg.kind ≠ .forking
  | .startRaised _ _ _ => False
  | .did _ _ st (.raise e) => e.isException = true ∧ (st = .process ∨ cfg.kind = .pool ∨ cfg.kind = .processPool)
  | .parent _ _ _ (.raise _) => False
  | _ => True

/-- The next thing thread `t` does is call `st` for connection `c`, whatever the result will be. -/
def NextCall (cfg : Cfg) (s : Srv) (t c : Nat) (st : Stage) : Prop :=
  ∀ r, (r = .ok ∨ ∃ e, r = .raise e) → ∃ s', s.step cfg (.go t r) = some (s', [.did t c st r])

/-- Somebody takes care of a connection in this phase. -/
def InCare (cfg : Cfg) (s : Srv) (c : Nat) : Phase → Prop
  | .unseen => s.next ≤ c
  | .accepted => c ∈ s.queue ∨ ∃ (t : Nat) (th : Thread), s.threads[t]? = some th ∧
      (th.pc = .start c ∨ th.pc = .put c ∨ th.pc = .fork c ∨ NextCall cfg s t c .getI)
  | .serving t made => ∃ st, NextCall cfg s t c st ∧ st ∉ made ∧ st ≠ .closeI ∧ st ≠ .closeO
  | .mustClose t => NextCall cfg s t c .closeI
  | .mustCloseOut t => NextCall cfg s t c .closeO
  | .over => c < s.next

end Thrift.Spec.Servers
