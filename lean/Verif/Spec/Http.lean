import Verif.Model.Http
import Verif.Spec.Transport
/-
What a user of `THttpClient` expects.
-/

namespace Thrift.Spec.Http
open Thrift.Http
variable {ρ : Type}

/-- Does a flush with this fate get as far as sending the header? -/
def reachesHead : Fate ρ → Bool
  | .rejected _ => false
  | _ => true

/-- Does a flush with this fate get as far as sending the body? -/
def reachesBody : Fate ρ → Bool
  | .rejected _ => false
  | .unreachable _ => false
  | _ => true

/-- The flushes of a history, each with the bytes written since the flush before it, whether that
one succeeded or not. -/
def flushes : Bytes → List (Op ρ) → List (Bytes × Fate ρ)
  | _, [] => []
  | pending, .write (.bytes b) :: ops => flushes (pending ++ b) ops
  | pending, .flush f :: ops => (pending, f) :: flushes [] ops
  | pending, _ :: ops => flushes pending ops

/-- The bodies that were sent. -/
def bodies : List Act → List Bytes
  | [] => []
  | .body _ b :: l => b :: bodies l
  | _ :: l => bodies l

/-- The request heads that were sent: connection, target, fields. -/
def heads : List Act → List (Nat × String × List Header)
  | [] => []
  | .head c t h :: l => (c, t, h) :: heads l
  | _ :: l => heads l

/-- The values of the fields with a name (names do not depend on case). -/
def valuesOf (name : String) (headers : List Header) : List String :=
  (headers.filter fun h => h.1.toList.map Char.toLower = name.toList.map Char.toLower).map (·.2)

/-- The custom fields set by a history have no field with this name. -/
def NoCustom (name : String) (ops : List (Op ρ)) : Prop :=
  ∀ hs, .setCustomHeaders (some hs) ∈ ops → valuesOf name hs = []

/-- For each flush that sends a head, the last answer before it. -/
def answersBefore : Option (Response ρ) → List (Op ρ) → List (Option (Response ρ))
  | _, [] => []
  | a, .flush f :: ops =>
    let a' := match f with
      | .answered r => some r
      | _ => a
    if reachesHead f then a :: answersBefore a' ops else answersBefore a' ops
  | a, _ :: ops => answersBefore a ops

/-- The first value of `Set-Cookie` in an answer. -/
def cookie (r : Option (Response ρ)) : List String :=
  match r with
  | none => []
  | some r => (valuesOf "Set-Cookie" r.msg).take 1

/-- The reads of a history with what they returned. -/
def readLog : List (Op ρ) → List Ret → List (Nat × Except Exc Bytes)
  | .read n :: ops, .bytes r :: rs => (n, r) :: readLog ops rs
  | _ :: ops, _ :: rs => readLog ops rs
  | _, _ => []

/-- What the flushes of a history returned. -/
def flushLog : List (Op ρ) → List Ret → List (Except Exc Unit)
  | .flush _ :: ops, .unit r :: rs => r :: flushLog ops rs
  | _ :: ops, _ :: rs => flushLog ops rs
  | _, _ => []

/-- The exception of `http.client`, unless the request was answered. -/
def outcome : Fate ρ → Except Exc Unit
  | .rejected e => .error e
  | .unreachable e => .error e
  | .broken e => .error e
  | .noAnswer e => .error e
  | .answered _ => .ok ()

/-- A call that keeps the answer being read. -/
def keepsAnswer : Op ρ → Bool
  | .flush _ => false
  | .close => false
  | _ => true

/-- The connections that were created. -/
def created : List Act → List Nat
  | [] => []
  | .create c :: l => c :: created l
  | _ :: l => created l

/-- The connections that were created and not closed. -/
def openConnections (l : List Act) : List Nat :=
  (created l).filter fun c => !(l.contains (.close c))

/-- The answer that reading is about: that of the last flush, if it was answered and the client has
not been closed since. -/
def lastAnswer : Option (Response ρ) → List (Op ρ) → Option (Response ρ)
  | r, [] => r
  | _, .flush (.answered r) :: ops => lastAnswer (some r) ops
  | _, .flush _ :: ops => lastAnswer none ops
  | r, .write _ :: ops => lastAnswer r ops
  | r, .read _ :: ops => lastAnswer r ops
  | r, .open_ :: ops => lastAnswer r ops
  | r, .setCustomHeaders _ :: ops => lastAnswer r ops
  | _, .close :: ops => lastAnswer none ops

end Thrift.Spec.Http
