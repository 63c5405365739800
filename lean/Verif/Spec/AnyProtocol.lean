import Verif.Model.JsonProto
import Verif.Spec.Json
import Verif.Spec.Versions
/-
Protocols that read messages from a transport that delivers them in pieces, with what they accept.
-/

namespace Thrift.Spec
open Rpc

/-- What a protocol object accepts, beside what it can read at all: headers (name, type, sequence id), structs (with
their schema and number) and values of fields that the reader does not know. -/
structure Acceptance where
  header : PyStr → Nat → Int → Prop
  value : Schema → Nat → Val → Prop
  unknown : Val → Prop

/-- The binary and the compact protocol with limits for strings and containers. -/
def Acceptance.limits (stringLimit containerLimit : Option Int) : Acceptance where
  header name _ _ := Within stringLimit (utf8Len name)
  value _ _ v := WithinLimits stringLimit containerLimit v
  unknown := BinariesAreText IsUtf8

/-- The JSON protocol: no number, string or name in the document is longer than `p` allows, and all doubles are finite. -/
def Acceptance.json (fmt : UInt64 → Bytes) (p : Nat → Prop) : Acceptance where
  header name type seqid := p 1 ∧ p (Json.escaped name).length ∧ p (Json.decimal type).length ∧ p (Json.decimal seqid).length
  value sch sid v := Json.Texts p (Json.tree fmt sch (.struct sid) v) ∧ Json.Doubles Json.Finite v
  unknown _ := True

/-- A message header that can be sent and is accepted. -/
structure Heads (A : Acceptance) (name : PyStr) (type : Nat) (seqid : Int) : Prop where
  text : TextOK name
  kind : IsMessageType type
  range : InRange 32 seqid
  accepted : A.header name type seqid

/-- A struct that was written with schema `X` and that a reader with schema `Y` accepts. -/
structure Suits (A : Acceptance) (mode : Mode) (X Y : Schema) (sid : Nat) (v : Val) (fuel : Nat) : Prop where
  sender : SchemaOK mode X
  receiver : SchemaOK mode Y
  versions : Compatible X Y
  typed : WT X (.struct sid) v
  accepted : A.value X sid v
  depth : mode = .gen → structDepth v ≤ 64
  unknown : Unknowns (fun u => nesting u ≤ 64 ∧ A.unknown u) X Y (.struct sid) v
  fuel : size v ≤ fuel

/-- A struct that a reader that does not know it can skip. -/
structure Skips (A : Acceptance) (X : Schema) (sid : Nat) (v : Val) (fuel : Nat) : Prop where
  fields : ∀ sid, FieldsOK (X sid)
  typed : WT X (.struct sid) v
  accepted : A.value X sid v
  depth : nesting v ≤ 64
  unknown : A.unknown v
  fuel : size v ≤ fuel

/-- A method of a protocol object in state `s` returns `a` over the transport `step` in state `x`, and leaves these in states `s'`
and `x'`. -/
def Ran {σ τ α : Type} (step : Nat → τ → Option (Except Exc Bytes × τ)) (m : P σ α) (s : σ) (x : τ) (a : α) (s' : σ) (x' : τ) : Prop :=
  (m s).run step x = some ((.ok a, s'), x')

/-- Objects of protocol `p` read messages of format `F` that `A` accepts, over every transport that delivers them, in pieces of any
size; also if a copy of the object reads everything after the header (`share`). -/
structure Hears {σ : Type} [HasDepth σ] (p : Proto σ) (F : Format) (Idle : σ → Prop) (A : Acceptance) : Prop where
  message : ∀ (name : PyStr) (type : Nat) (seqid : Int) (mode : Mode) (X Y : Schema) (sid : Nat) (v : Val) (fuel : Nat) (s : σ)
    (τ : Type) (step : Nat → τ → Option (Except Exc Bytes × τ)) (left : τ → Bytes) (x : τ) (more : Bytes),
    Heads A name type seqid → Suits A mode X Y sid v fuel → Idle s →
    DeliversUntil step left → left x = F.header name type seqid ++ F.value X (.struct sid) v ++ more →
    ∃ s₁ x₁ s₂ x₂ s₃ x₃, Ran step p.readMessageBegin s x (name, (type : Int), seqid) s₁ x₁ ∧
      Ran step (readVal p.rd Y mode fuel (.struct sid)) s₁ x₁ (project X Y (.struct sid) v) s₂ x₂ ∧
      Ran step p.readMessageEnd s₂ x₂ () s₃ x₃ ∧ Idle s₃ ∧ left x₃ = more ∧ Idle (p.share s₁ s₃)
  skip : ∀ (name : PyStr) (type : Nat) (seqid : Int) (X : Schema) (sid : Nat) (v : Val) (fuel : Nat) (s : σ)
    (τ : Type) (step : Nat → τ → Option (Except Exc Bytes × τ)) (left : τ → Bytes) (x : τ) (more : Bytes),
    Heads A name type seqid → Skips A X sid v fuel → Idle s →
    DeliversUntil step left → left x = F.header name type seqid ++ F.value X (.struct sid) v ++ more →
    ∃ s₁ x₁ s₂ x₂ s₃ x₃, Ran step p.readMessageBegin s x (name, (type : Int), seqid) s₁ x₁ ∧
      Ran step (Thrift.skip p.rd fuel skipDepth TType.STRUCT) s₁ x₁ () s₂ x₂ ∧
      Ran step p.readMessageEnd s₂ x₂ () s₃ x₃ ∧ Idle s₃ ∧ left x₃ = more ∧ Idle (p.share s₁ s₃)

/-- The JSON protocol, `TJSONProtocol.py`: a message is an array of the version 1, the name, the type, the sequence id and the struct
(`Json.message`). Everything up to the last comma counts as the header. -/
def Format.json (fmt : UInt64 → Bytes) : Format where
  header name type seqid := 91 :: (Json.ascii "1" ++ 44 :: (Json.quoted (Json.escaped name) ++ 44 :: (Json.decimal type ++ 44 ::
    (Json.decimal seqid ++ [44]))))
  value sch t v := Json.value fmt sch t v ++ [93]

/-- A multiplexer with these registrations gives a call with the name `full` to the processor `proc`, as a call with the name `name`: the name is
`service:name`, split at its first colon, and `proc` was last registered for the service; or it has no colon, and `proc` was last registered as
the default. -/
inductive Routed {σ τ χ ω : Type} (ops : List (Registration σ τ χ ω)) : PyStr → PyStr → Processor σ τ χ ω → Prop
  | service {proc : Processor σ τ χ ω} (service name : PyStr) (hsep : 58 ∉ service) (hreg : Registered ops service proc) : Routed ops (service ++ [58] ++ name) name proc
  | default {proc : Processor σ τ χ ω} (name : PyStr) (hsep : 58 ∉ name) (hreg : RegisteredDefault ops proc) : Routed ops name name proc

/-- Nobody was registered for the service, or as the default if there is none. -/
inductive Unrouted {σ τ χ ω : Type} (ops : List (Registration σ τ χ ω)) : PyStr → Prop
  | service (service name : PyStr) (hsep : 58 ∉ service) (hreg : ∀ q, .service service q ∉ ops) : Unrouted ops (service ++ [58] ++ name)
  | default {name : PyStr} (hsep : 58 ∉ name) (hreg : ∀ q, .default q ∉ ops) : Unrouted ops name

end Thrift.Spec
