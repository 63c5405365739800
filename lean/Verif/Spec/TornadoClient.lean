import Verif.Model.TornadoClient
import Verif.Spec.Twisted
/-
What can be seen of a Tornado client.
-/

namespace Thrift.Spec.TornadoClient
open Rpc Thrift.TornadoClient

/-- The futures that client methods made, with the sequence ids they were entered under. -/
def issued (os : List Obs) : List (Nat × Nat) := os.filterMap fun | .issued d n => some (d, n) | _ => none

/-- The futures that were resolved, and with what. -/
def resolutions (os : List Obs) : List (Nat × Resolved) := os.filterMap fun | .resolved d r => some (d, r) | _ => none

/-- The frames that were sent. -/
def strings (os : List Obs) : List Bytes := os.filterMap fun | .string b => some b | _ => none

/-- `_start_receiving` has ended. -/
def Stopped (os : List Obs) : Prop := ∃ w, .stopped w ∈ os

/-- Nothing was received as an answer to the call with sequence id `n`. -/
def NoAnswer {σ τ : Type} (env : Thrift.Twisted.Env σ τ) (es : List Event) (n : Nat) : Prop :=
  ∀ b, .frame b ∈ es → Spec.Twisted.seqidOf env b ≠ some (n : Int)

end Thrift.Spec.TornadoClient
