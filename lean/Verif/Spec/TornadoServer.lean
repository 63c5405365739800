import Verif.Model.TornadoServer
import Verif.Spec.TwistedServer
import Verif.Spec.Transport
/-
What a Tornado server has to do with a connection.
-/

namespace Thrift.Spec.TornadoServer
open Rpc Thrift.TornadoServer
open Spec.TwistedServer (Request)

/-- The frames received in a history -/
def received (es : List Event) : List Bytes := es.filterMap fun
  | .frame (.ok b) _ => some b
  | _ => none

/-- How many handlers are done in a history -/
def finished (es : List Event) : Nat := es.countP fun
  | .done _ _ => true
  | _ => false

/-- How many calls of handler methods are seen -/
def calls (os : List Obs) : Nat := os.countP fun
  | .invoked _ _ => true
  | _ => false

/-- The frames sent -/
def sent (os : List Obs) : List Bytes := os.filterMap fun
  | .sent b => some b
  | _ => none

/-- The coroutine has ended with an error -/
def Last (x : Obs) : Prop := x = .closed ∨ (∃ n, x = .escaped n) ∨ x = .hangs

/-- A whole message in a frame -/
def Whole {σ τ : Type} [HasDepth τ] (env : Env σ τ) (b : Bytes) : Prop :=
  ∃ (name : PyStr) (type seqid : Int) (body : W τ Unit) (t t' : τ) (m : Bytes),
    message env.q name type seqid body t [] = (.ok (), t', m) ∧ b = frame m

section
variable {σ τ : Type} [HasDepth σ] [HasDepth τ]

/-- A request of a function of the server and what its handler does, or a request of another function -/
inductive Item where
  | call (r : Request) (o : Outcome)
  | other (r : Request)

/-- Requests one after another -/
def Item.events (F : Format) : Item → List Event
  | .call r o => [.look false, .frame (.ok (r.bytes F)) none, .done o none]
  | .other r => [.look false, .frame (.ok (r.bytes F)) none]

/-- One request and what is to be seen of it, if the connection goes on -/
inductive Turn (env : Env σ τ) (G : Format) (sl cl : Option Int) : Item → List Obs → Prop
  | reply {r : Request} {o : Outcome} {type : Nat} {sch : Schema} {sid : Nat} {w : Val} : TwistedServer.Good env sl cl r →
      r.fn.oneway = false → ResultOK env.sch r.fn → Answers env.sch r.fn o type sch sid w → WT sch (.struct sid) w → structDepth w ≤ 64 →
      (G.header r.fn.name type r.seqid ++ G.value sch (.struct sid) w).length < 2 ^ 31 →
      Turn env G sl cl (.call r o)
        [.invoked r.fn (r.attrs env), .sent (frame (G.header r.fn.name type r.seqid ++ G.value sch (.struct sid) w))]
  | oneway {r : Request} {o : Outcome} : TwistedServer.Good env sl cl r → r.fn.oneway = true → (∀ t, o ≠ .transport t) → (∀ n, o ≠ .base n) →
      Turn env G sl cl (.call r o) [.invoked r.fn (r.attrs env)]
  | unknown {r : Request} : TwistedServer.Unknown env sl cl r →
      (G.header r.fn.name 3 r.seqid ++ G.app (unknownMethod r.fn.name)).length < 2 ^ 31 →
      Turn env G sl cl (.other r) [.sent (frame (G.header r.fn.name 3 r.seqid ++ G.app (unknownMethod r.fn.name)))]

/-- A conversation: one request after the other, each with what is to be seen of it -/
inductive Served (env : Env σ τ) (G : Format) (sl cl : Option Int) : List Item → List Obs → Prop
  | nil : Served env G sl cl [] []
  | cons {i : Item} {is : List Item} {os os' : List Obs} : Turn env G sl cl i os → Served env G sl cl is os' →
      Served env G sl cl (i :: is) (os ++ os')

/-- A call that ends the connection without an answer: `TTransportException`, or a result that cannot be written -/
inductive Break (env : Env σ τ) (IdleOut : τ → Prop) (sl cl : Option Int) : Request → Outcome → Prop
  | transport {r : Request} (t : Int) : TwistedServer.Good env sl cl r → Break env IdleOut sl cl r (.transport t)
  | unwritable {r : Request} {v : Option Val} : TwistedServer.Good env sl cl r → r.fn.oneway = false →
      (∀ t, IdleOut t → ∃ e t' b, message env.q r.fn.name TMessageType.REPLY r.seqid
        (writeVal env.q.wr env.sch env.mode (.struct r.fn.resultId) (.struct (setSuccess r.fn v))) t [] = (.error e, t', b)) →
      Break env IdleOut sl cl r (.returned v)

/-- A frame that cannot be read: its header, or the arguments of a function of the server -/
inductive Unreadable (env : Env σ τ) : Bytes → Prop
  | header {b b' : Bytes} {e : Exc} {i : σ} : exec env.p.readMessageBegin env.s₀ b = some ((.error e, i), b') → Unreadable env b
  | arguments {b b' b'' : Bytes} {e : Exc} {i i' : σ} {fn : Fn} {type seqid : Int} :
      exec env.p.readMessageBegin env.s₀ b = some ((.ok (fn.name, type, seqid), i), b') → Serves env.fns fn.name fn →
      exec (readVal env.p.rd env.sch env.mode env.fuel (.struct fn.argsId)) i b' = some ((.error e, i'), b'') → Unreadable env b
  | unknown {b b' b'' : Bytes} {e : Exc} {i i' : σ} {name : PyStr} {type seqid : Int} :
      exec env.p.readMessageBegin env.s₀ b = some ((.ok (name, type, seqid), i), b') → (∀ fn ∈ env.fns, fn.name ≠ name) →
      exec (skip env.p.rd env.fuel skipDepth TType.STRUCT) i b' = some ((.error e, i'), b'') → Unreadable env b

end
end Thrift.Spec.TornadoServer
