import Verif.Model.Callbacks
/-
Who is registered, and whose callback is which, said about the history of calls.
-/

namespace Thrift.Spec.Callbacks
open Thrift.Callbacks Rpc

variable {χ : Type}

/-- The processor last registered under a name -/
def Current (ops : List (Op χ)) (name : PyStr) (i : Nat) : Prop :=
  ∃ pre post, ops = pre ++ .registerProcessor name i :: post ∧ ∀ j, .registerProcessor name j ∉ post

/-- The default processor last registered -/
def CurrentDefault (ops : List (Op χ)) (i : Nat) : Prop :=
  ∃ pre post, ops = pre ++ .registerDefault i :: post ∧ ∀ j, .registerDefault j ∉ post

/-- A call, after the calls `pre`, that should give processor `i` the callback `f`: `on_message_begin` of the processor itself, or of the multiplexer
while the processor is registered for a service -/
def Gives (pre : List (Op χ)) (op : Op χ) (i : Nat) (f : Callback χ) : Prop :=
  op = .onMessageBeginOf i f ∨ op = .onMessageBegin f ∧ ∃ name, Current pre name i

/-- The callback that processor `i` was last given -/
def Given (ops : List (Op χ)) (i : Nat) (f : Callback χ) : Prop :=
  ∃ pre op post, ops = pre ++ op :: post ∧ Gives pre op i f ∧ ∀ mid op' post' g, post = mid ++ op' :: post' → ¬ Gives (pre ++ op :: mid) op' i g

/-- It was not given any. -/
def NotGiven (ops : List (Op χ)) (i : Nat) : Prop := ∀ pre op post g, ops = pre ++ op :: post → ¬ Gives pre op i g

end Thrift.Spec.Callbacks
