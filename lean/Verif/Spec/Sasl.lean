import Verif.Model.Sasl
import Verif.Spec.Transport
/-
What the SASL transport is expected to do.
-/

namespace Thrift.Spec.Sasl
open Thrift.Sasl
variable {μ ω : Type}

/-- A message of the negotiation: one byte of status, four bytes of length, most significant first,
and the content. -/
def msg (status : Nat) (body : Bytes) : Bytes := UInt8.ofNat status :: (beInt 4 body.length ++ body)

/-- The challenges of a server, status 2. -/
def challenges (cs : List Bytes) : Bytes := (cs.map (msg 2)).flatten

/-- The client answers the challenges in order: the mechanism processes each of them and its response
(empty if there is none) is sent with status 2. Starting and final states of the mechanism and of the
transport. -/
inductive Answers (c : Mech μ) (k : Sink ω) : μ × ω → List Bytes → μ × ω → Prop
  | done (x : μ × ω) : Answers c k x [] x
  | next {m m1 : μ} {w w1 : ω} {ch : Bytes} {r : Option Bytes} {cs : List Bytes} {y : μ × ω} :
    c.process (some ch) m = (.ok r, m1) → (r.getD []).length < 2 ^ 32 →
    k.writeFlush (msg 2 (r.getD [])) w = (.ok (), w1) → Answers c k (m1, w1) cs y →
    Answers c k (m, w) (ch :: cs) y

/-- The client starts: it opens the transport unless it is open, sends the name of the mechanism with
status 1 and the initial response with status 2. -/
inductive Starts (c : Mech μ) (k : Under ω) : μ × ω → μ × ω → Prop
  | mk {m m1 : μ} {w w0 w1 w2 : ω} {r : Option Bytes} :
    (k.isOpen w = true ∧ w0 = w ∨ k.isOpen w = false ∧ k.open_ w = (.ok (), w0)) →
    k.writeFlush (msg 1 c.name) w0 = (.ok (), w1) →
    c.process none m = (.ok r, m1) → (r.getD []).length < 2 ^ 32 →
    k.writeFlush (msg 2 (r.getD [])) w1 = (.ok (), w2) → Starts c k (m, w) (m1, w2)

/-- The last message of the server: its content, unless empty, is processed by the mechanism. -/
inductive Verifies (c : Mech μ) : μ → Bytes → μ → Prop
  | empty (m : μ) : Verifies c m [] m
  | data {m m1 : μ} {b : Bytes} {r : Option Bytes} : b ≠ [] → c.process (some b) m = (.ok r, m1) →
    Verifies c m b m1

/-- The mechanism wraps a sequence of batches one after the other. -/
inductive Wraps (c : Mech μ) : μ → List Bytes → List Bytes → μ → Prop
  | done (m : μ) : Wraps c m [] [] m
  | next {m m1 m2 : μ} {b e : Bytes} {bs es : List Bytes} :
    c.wrap b m = (.ok e, m1) → e.length < 2 ^ 31 → Wraps c m1 bs es m2 → Wraps c m (b :: bs) (e :: es) m2

/-- The contract between the security layers of two peers: what one wraps the other unwraps, in
order. -/
def Peers {μ' : Type} (c : Mech μ) (c' : Mech μ') (R : μ → μ' → Prop) : Prop :=
  ∀ m m' b e m1, R m m' → c.wrap b m = (.ok e, m1) →
    ∃ m1', c'.unwrap e m' = (.ok b, m1') ∧ R m1 m1'

end Thrift.Spec.Sasl
