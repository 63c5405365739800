import Verif.Model.TwistedServer
import Verif.Spec.Rpc
/-
What a Twisted server has to do.
-/

namespace Thrift.Spec.TwistedServer
open Rpc Thrift.TwistedServer

/-- The requests that something was done about, other than calling the handler. -/
def ends (os : List Obs) : List Nat := os.filterMap fun
  | .reply k _ => some k
  | .closed k => some k
  | .unhandled k => some k
  | .raised k _ => some k
  | .hangs k => some k
  | .invoked .. => none

/-- The calls of handler methods -/
def invoked (os : List Obs) : List Nat := os.filterMap fun
  | .invoked k _ _ => some k
  | _ => none

/-- The frames received in a history -/
def received (es : List Event) : List (Bytes × Option Outcome) := es.filterMap fun
  | .frame b o => some (b, o)
  | _ => none

/-- The same observation about request `k` -/
def _root_.Thrift.TwistedServer.Obs.at (k : Nat) : Obs → Obs
  | .invoked _ fn args => .invoked k fn args
  | .reply _ b => .reply k b
  | .closed _ => .closed k
  | .unhandled _ => .unhandled k
  | .raised _ e => .raised k e
  | .hangs _ => .hangs k

/-- The request an observation is about -/
def _root_.Thrift.TwistedServer.Obs.k : Obs → Nat
  | .invoked k _ _ => k
  | .reply k _ => k
  | .closed k => k
  | .unhandled k => k
  | .raised k _ => k
  | .hangs k => k

/-- An observation is made in the history in which its request is the only one: the same frame arrives, and if the handler returned a
`Deferred` that is fired in the long history, it is fired with the same. -/
def Alone {σ τ : Type} [HasDepth σ] [HasDepth τ] (env : Env σ τ) (kind : Kind) (es : List Event) (x : Obs) : Prop :=
  ∃ b o, (received es)[x.k]? = some (b, o) ∧ ∃ tail, (tail = [] ∨ o = none ∧ ∃ o', tail = [.finish 0 o'] ∧ .finish x.k o' ∈ es) ∧
    ∃ s os, ({} : St).run env kind (.frame b o :: tail) = some (s, os) ∧ x.at 0 ∈ os

/-- A call as a peer sends it -/
structure Request where
  fn : Fn
  type : Nat
  seqid : Int
  sch : Schema
  args : Val

/-- Its bytes -/
def Request.bytes (F : Format) (r : Request) : Bytes :=
  F.header r.fn.name r.type r.seqid ++ F.value r.sch (.struct r.fn.argsId) r.args

/-- What happens: a request arrives and the handler does something at once or later; a handler is done. -/
inductive Act where
  | request (r : Request) (o : Option Outcome)
  | finish (k : Nat) (o : Outcome)

def Act.event (F : Format) : Act → Event
  | .request r o => .frame (r.bytes F) o
  | .finish k o => .finish k o

section
variable {σ τ : Type}

/-- What has to be seen when the handler of request `k` is done. (An HTTP request has a response, if only an empty one.) -/
inductive Settled (env : Env σ τ) (G : Format) (kind : Kind) (k : Nat) (fn : Fn) (seqid : Int) : Outcome → List Obs → Prop
  | reply {o : Outcome} {type : Nat} {sch : Schema} {sid : Nat} {w : Val} : fn.oneway = false → ResultOK env.sch fn →
      Answers env.sch fn o type sch sid w → WT sch (.struct sid) w → structDepth w ≤ 64 →
      Settled env G kind k fn seqid o [.reply k (G.header fn.name type seqid ++ G.value sch (.struct sid) w)]
  | oneway {o : Outcome} : fn.oneway = true → (∀ t, o ≠ .transport t) → (∀ n, o ≠ .base n) →
      Settled env G kind k fn seqid o (match kind with | .protocol => [] | .resource => [.reply k []])
  | transport (t : Int) : kind = .protocol → Settled env G kind k fn seqid (.transport t) [.closed k]
  | base (n : Nat) : kind = .protocol → Settled env G kind k fn seqid (.base n) [.closed k]

/-- The request is a call of one of the functions, and can be read. -/
structure Good (env : Env σ τ) (sl cl : Option Int) (r : Request) : Prop where
  serves : Serves env.fns r.fn.name r.fn
  header : HeaderOK sl r.fn.name r.type r.seqid
  body : BodyOK sl cl env.mode r.sch env.sch r.fn.argsId r.args env.fuel

/-- The request is a call of a function that the server does not have, and can be skipped. -/
structure Unknown (env : Env σ τ) (sl cl : Option Int) (r : Request) : Prop where
  missing : ∀ g ∈ env.fns, g.name ≠ r.fn.name
  header : HeaderOK sl r.fn.name r.type r.seqid
  fields : ∀ sid, FieldsOK (r.sch sid)
  typed : WT r.sch (.struct r.fn.argsId) r.args
  limits : WithinLimits sl cl r.args
  depth : nesting r.args ≤ 64
  texts : BinariesAreText IsUtf8 r.args
  fuel : size r.args ≤ env.fuel
  answer : AppOK (unknownMethod r.fn.name)

/-- The attributes of the arguments object -/
def Request.attrs (env : Env σ τ) (r : Request) : List (Option Val) :=
  attrsOf (project r.sch env.sch (.struct r.fn.argsId) r.args)

/-- What has to be seen of a server, given the number of requests so far and those that wait. -/
inductive Served (env : Env σ τ) (G : Format) (kind : Kind) (sl cl : Option Int) : Nat → List Waiting → List Act → List Obs → Prop
  | nil (n : Nat) (ws : List Waiting) : Served env G kind sl cl n ws [] []
  | now {n : Nat} {ws : List Waiting} {r : Request} {o : Outcome} {as : List Act} {os os' : List Obs} :
      Good env sl cl r → Settled env G kind n r.fn r.seqid o os → Served env G kind sl cl (n + 1) ws as os' →
      Served env G kind sl cl n ws (.request r (some o) :: as) (.invoked n r.fn (r.attrs env) :: os ++ os')
  | later {n : Nat} {ws : List Waiting} {r : Request} {as : List Act} {os : List Obs} :
      Good env sl cl r → Served env G kind sl cl (n + 1) (⟨n, r.fn, r.seqid⟩ :: ws) as os →
      Served env G kind sl cl n ws (.request r none :: as) (.invoked n r.fn (r.attrs env) :: os)
  | unknown {n : Nat} {ws : List Waiting} {r : Request} {o : Option Outcome} {as : List Act} {os : List Obs} :
      Unknown env sl cl r → Served env G kind sl cl (n + 1) ws as os →
      Served env G kind sl cl n ws (.request r o :: as)
        (.reply n (G.header r.fn.name 3 r.seqid ++ G.app (unknownMethod r.fn.name)) :: os)
  | finish {n : Nat} {ws₁ ws₂ : List Waiting} {w : Waiting} {o : Outcome} {as : List Act} {os os' : List Obs} :
      Settled env G kind w.k w.fn w.seqid o os → Served env G kind sl cl n (ws₁ ++ ws₂) as os' →
      Served env G kind sl cl n (ws₁ ++ w :: ws₂) (.finish w.k o :: as) (os ++ os')

end
end Thrift.Spec.TwistedServer
