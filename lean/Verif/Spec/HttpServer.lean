import Verif.Model.HttpServer
import Verif.Spec.Rpc
/-
What clients of a `THttpServer` see.
-/

namespace Thrift.Spec.HttpServer
open Rpc Thrift.HttpServer

def isResponse : Event → Bool
  | .response _ _ => true
  | .called _ => false

/-- The number of responses -/
def responses (log : List Event) : Nat := log.countP isResponse

/-- The number of calls of the handler -/
def calls (log : List Event) : Nat := log.countP fun e => !isResponse e

/-- The first thing that a reader of messages does is to ask for some bytes of the header, and not for more than every header has. -/
def Starts {σ : Type} (p : Proto σ) (F : Format) (Idle : σ → Prop) : Prop :=
  ∀ s, Idle s → ∃ m k, p.readMessageBegin s = .read m k ∧ 0 < m ∧ ∀ name type seqid, m ≤ (F.header name type seqid).length

/-! ### Several requests -/

/-- The steps of one request, without anything in between -/
def oneRequest (i : Nat) : List Nat := [i, i, i, i]

/-- What a request should get: one response, without body if and only if the message is of type `ONEWAY`. -/
def Answered (oneway : Nat → Bool) (i : Nat) (s : Shared) : Prop := s.sent i = [oneway i]

end Thrift.Spec.HttpServer
