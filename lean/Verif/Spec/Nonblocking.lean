import Verif.Model.Nonblocking
import Verif.Spec.Transport
/-
What a connection of the nonblocking server is expected to do.
-/

namespace Thrift.Spec
open Thrift.Nonblocking

/-- Where a connection is, seen from outside. -/
inductive Phase where
  /-- no request is being processed, nothing is to be sent -/
  | idle
  | processing
  /-- an answer is being sent; these bytes of it are left -/
  | sending (left : Bytes)
  /-- the request failed, the connection is about to be closed -/
  | failed
  | closed
  deriving DecidableEq, Repr

/-- The behaviour that is allowed: one request after the other; the answer to a request, if it is not
empty, is sent as one frame before the next request; nothing happens after the close. -/
def Phase.next : Phase → Obs → Option Phase
  | .idle, .received _ _ => some .idle
  | .idle, .dispatched _ _ => some .processing
  | .idle, .closed _ => some .closed
  | .processing, .finished _ none => some .failed
  | .processing, .finished _ (some m) =>
    if m = [] then some .idle else if m.length < 2 ^ 31 then some (.sending (frame m)) else some .failed
  | .sending left, .sent _ b =>
    if b = left then some .idle else if b <+: left then some (.sending (left.drop b.length)) else none
  | .sending _, .closed _ => some .closed
  | .failed, .closed _ => some .closed
  | _, _ => none

/-- The connection that an observation is about. -/
def aboutConn : Obs → Option Nat
  | .received i _ => some i
  | .dispatched i _ => some i
  | .finished i _ => some i
  | .sent i _ => some i
  | .closed i => some i
  | _ => none

/-- What can be seen of connection `i`. -/
def ofConn (i : Nat) (os : List Obs) : List Obs := os.filter fun o => aboutConn o == some i

/-- Follow the allowed behaviour. -/
def follow (p : Phase) (os : List Obs) : Option Phase := os.foldlM Phase.next p

/-- The bytes received on connection `i`. -/
def receivedOn (i : Nat) (os : List Obs) : Bytes :=
  os.flatMap fun o => match o with | .received j b => if j = i then b else [] | _ => []

/-- The requests of connection `i` that were queued for the processor: what the processor can read from the
transport it is given. -/
def inputsOn (i : Nat) (os : List Obs) : List Bytes :=
  os.filterMap fun o => match o with | .dispatched j b => if j = i then some b else none | _ => none

/-- Bytes from which no further frame can be taken yet: no complete header, an incomplete frame, or a
negative length. -/
def NoFrame (b : Bytes) : Prop :=
  b.length < 4 ∨ unpackS (b.take 4) < 0 ∨ (b.length : Int) < 4 + unpackS (b.take 4)

/-- Pairwise relation of two lists of the same length. -/
inductive All2 {α β : Type} (R : α → β → Prop) : List α → List β → Prop
  | nil : All2 R [] []
  | cons {a b as bs} : R a b → All2 R as bs → All2 R (a :: as) (b :: bs)

/-- What the processor is given begins with the content of a frame. -/
def Begins (input content : Bytes) : Prop := ∃ trail, input = content ++ trail

/-- The main thread did something for a client: waited for events, took a connection, read or wrote. -/
def Served : Obs → Prop
  | .waited => True
  | .accepted _ => True
  | .received _ _ => True
  | .sent _ _ => True
  | _ => False

/-- How often `handle` was called. -/
def handles (es : List Event) : Nat :=
  es.countP fun e => match e with | .select .. => true | _ => false

/-- The requests that were received but are still waiting for their turn. -/
def waiting (s : Srv) : Nat := (s.conns.map fun c => c.received.length).sum

/-- The client on connection `i` sent a frame with a negative length. -/
def NegativeFrame (i : Nat) (os : List Obs) : Prop :=
  ∃ ds h rest, receivedOn i os = frames ds ++ h ++ rest ∧ h.length = 4 ∧ unpackS h < 0

end Thrift.Spec
