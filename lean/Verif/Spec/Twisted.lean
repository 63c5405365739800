import Verif.Model.Twisted
/-
What can be seen of a Twisted client.
-/

namespace Thrift.Spec.Twisted
open Rpc Thrift.Twisted

/-- The `Deferred`s that client methods made, with the sequence ids they were entered under. -/
def issued (os : List Obs) : List (Nat × Nat) := os.filterMap fun | .issued d n => some (d, n) | _ => none

/-- The `Deferred`s that were fired, and with what. -/
def firings (os : List Obs) : List (Nat × Fired) := os.filterMap fun | .fired d r => some (d, r) | _ => none

/-- What was given to `sendString`. -/
def strings (os : List Obs) : List Bytes := os.filterMap fun | .string b => some b | _ => none

/-- The sequence id in the header of a frame. -/
def seqidOf {σ τ : Type} (env : Env σ τ) (b : Bytes) : Option Int :=
  match exec env.p.readMessageBegin env.s₀ b with
  | some ((.ok m, _), _) => some m.2.2
  | _ => none

/-- Nothing was received as an answer to the call with sequence id `n`. -/
def NoAnswer {σ τ : Type} (env : Env σ τ) (es : List Event) (n : Nat) : Prop :=
  ∀ b, .frame b ∈ es → seqidOf env b ≠ some (n : Int)

/-- Every argument list could be sent. -/
def AllSent (os : List Obs) : Prop := ∀ d e, (d, Fired.unsent e) ∉ firings os

end Thrift.Spec.Twisted
