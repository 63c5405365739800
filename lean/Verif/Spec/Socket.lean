import Verif.Model.Base
/-
What the operating system promises about `send`.
-/

namespace Thrift.Spec

/-- `send` accepts the first bytes it is given, as many as it says, and nothing if it raises. `acc t` is
all that was accepted so far. -/
def Accepts {τ : Type} (send : Bytes → τ → Except Exc Nat × τ) (acc : τ → Bytes) : Prop :=
  ∀ b t, match send b t with
    | (.ok n, t') => n ≤ b.length ∧ acc t' = acc t ++ b.take n
    | (.error _, t') => acc t' = acc t

/-- A socket driven by a schedule: the next entry says how many bytes are accepted at most or which
exception is raised. After the schedule everything is accepted. -/
def scheduled (b : Bytes) (t : List (Except Exc Nat) × Bytes) :
    Except Exc Nat × (List (Except Exc Nat) × Bytes) :=
  match t.1 with
  | [] => (.ok b.length, ([], t.2 ++ b))
  | .ok n :: sched => (.ok (min n b.length), (sched, t.2 ++ b.take (min n b.length)))
  | .error e :: sched => (.error e, (sched, t.2))

theorem scheduled_accepts : Accepts scheduled (fun t => t.2) := by
  intro b t
  obtain ⟨sched, a⟩ := t
  cases sched with
  | nil => simp [scheduled]
  | cons x sched =>
    cases x with
    | ok n => simp [scheduled]; omega
    | error e => simp [scheduled]

end Thrift.Spec
