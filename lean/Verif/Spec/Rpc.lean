import Verif.Model.Rpc
import Verif.Spec.BinaryFormat
import Verif.Spec.CompactFormat
import Verif.Spec.Transport
/-
What remote calls are expected to put on the wire and to return, in terms of the documented wire
formats (`doc/specs/thrift-rpc.md`, `doc/specs/thrift-binary-protocol.md`,
`doc/specs/thrift-compact-protocol.md`).
-/

namespace Thrift.Spec
open Rpc

/-- A wire format: the bytes of a message header and of a value. A message is a header followed by a
struct. -/
structure Format where
  header : (name : PyStr) → (type : Nat) → (seqid : Int) → Bytes
  value : Schema → Ty → Val → Bytes

/-- The binary protocol with strict message headers. -/
def Format.binary : Format := ⟨Binary.messageStrict, Binary.value⟩
/-- The binary protocol with old message headers. -/
def Format.binaryOld : Format := ⟨Binary.messageOld, Binary.value⟩
/-- The compact protocol. -/
def Format.compact : Format := ⟨Compact.message, Compact.value⟩

/-- The four message types. -/
def IsMessageType (type : Nat) : Prop := 1 ≤ type ∧ type ≤ 4

/-- The struct `TApplicationException`: `1: string message, 2: i32 type` (`thrift-rpc.md`). A new
Python object has type 0. -/
def appSchema : Schema := fun _ => [{ fid := 1, ty := .string }, { fid := 2, ty := .i32, dflt := some (.int 0) }]

/-- A `TApplicationException` as a value of that struct. -/
def appVal (x : AppExc) : Val := .struct [x.message.map .str, x.type.map .int]

/-- Its attributes fit their types. -/
def AppOK (x : AppExc) : Prop := (∀ m ∈ x.message, TextOK m) ∧ ∀ t ∈ x.type, InRange 32 t

/-- The bytes of a `TApplicationException`. -/
def Format.app (F : Format) (x : AppExc) : Bytes := F.value appSchema (.struct 0) (appVal x)

/-- "An unexpected exception" as told to the client (type 6, `INTERNAL_ERROR`). -/
def internalError : AppExc := ⟨some 6, some (pyStr "Internal error")⟩
/-- The answer to an unknown method (type 1, `UNKNOWN_METHOD`). -/
def unknownMethod (name : PyStr) : AppExc := ⟨some 1, some (pyStr "Unknown function " ++ name)⟩
/-- A reply without result (type 5, `MISSING_RESULT`). -/
def missingResult (name : PyStr) : AppExc := ⟨some 5, some (name ++ pyStr " failed: unknown result")⟩

/-- The attributes of a struct with fields `fs` of which only the field `fid` is set. -/
def onlyField (fs : List Field) (fid : Int) (v : Val) : List (Option Val) :=
  fs.map fun f => if f.fid = fid then some v else none

/-- The attributes of a struct with fields `fs` of which none is set. -/
def noField (fs : List Field) : List (Option Val) := fs.map fun _ => none

/-- The struct `name_result` of a function: field 0 is the result (if the function is not void), the
others are the declared exceptions. -/
structure ResultOK (sch : Schema) (fn : Fn) : Prop where
  shape : ∃ excs : List Field, excs.map (·.ty) = fn.throws.map .struct ∧
    ((fn.returns = true ∧ ∃ ty, sch fn.resultId = { fid := 0, ty := ty } :: excs) ∨
      (fn.returns = false ∧ sch fn.resultId = excs))
  optional : ∀ f ∈ sch fn.resultId, f.required = false ∧ f.dflt = none
  ids : ∀ f ∈ sch fn.resultId, f.fid = 0 → fn.returns = true
  sorted : (sch fn.resultId).Pairwise fun f g => f.fid < g.fid

/-- Exception class `sid` is declared, and `f` is the first field of `name_result` for it. -/
def DeclaredAs (sch : Schema) (fn : Fn) (sid : Nat) (f : Field) : Prop :=
  ∃ pre post, sch fn.resultId = pre ++ f :: post ∧ f.fid ≠ 0 ∧ f.ty = .struct sid ∧
    ∀ g ∈ pre, g.fid = 0 ∨ g.ty ≠ .struct sid

/-- What has to be sent back for what the handler of a two-way function did: a message type and a
struct. -/
inductive Answers (sch : Schema) (fn : Fn) : Outcome → Nat → Schema → Nat → Val → Prop
  | value (v : Val) : fn.returns = true →
    Answers sch fn (.returned (some v)) 2 sch fn.resultId (.struct (onlyField (sch fn.resultId) 0 v))
  | void (v : Option Val) : fn.returns = false →
    Answers sch fn (.returned v) 2 sch fn.resultId (.struct (noField (sch fn.resultId)))
  | missing : fn.returns = true →
    Answers sch fn (.returned none) 2 sch fn.resultId (.struct (noField (sch fn.resultId)))
  | declared (sid : Nat) (as : List (Option Val)) (f : Field) : DeclaredAs sch fn sid f →
    Answers sch fn (.declared sid as) 2 sch fn.resultId
      (.struct (onlyField (sch fn.resultId) f.fid (.struct as)))
  | undeclared (sid : Nat) (as : List (Option Val)) : sid ∉ fn.throws →
    Answers sch fn (.declared sid as) 3 appSchema 0 (appVal internalError)
  | application (x : AppExc) : Answers sch fn (.application x) 3 appSchema 0 (appVal x)
  | other (n : Nat) : Answers sch fn (.other n) 3 appSchema 0 (appVal internalError)

/-- What a client makes of a `name_result` struct with attributes `as`. -/
inductive Means (sch : Schema) (fn : Fn) (as : List (Option Val)) : Result → Prop
  | success (v : Val) : fn.returns = true → as.head? = some (some v) → Means sch fn as (.returned (some v))
  | exception (sid : Nat) (v : Val) (i : Nat) : (sch fn.resultId)[i]?.map (·.ty) = some (.struct sid) →
    as[i]? = some (some v) → (∀ j < i, as[j]? = some none) → (fn.returns = true → 0 < i) →
    Means sch fn as (.declared sid (attrsOf v))
  | void : fn.returns = false → (∀ a ∈ as, a = none) → Means sch fn as (.returned none)
  | missing : fn.returns = true → (∀ a ∈ as, a = none) →
    Means sch fn as (.application (missingResult fn.name))

/-- The optional callback `on_message_begin` was called (if there is one) and returned. -/
def Began {χ : Type} (cb : Option (PyStr → Int → Int → χ → Except Exc Unit × χ)) (name : PyStr)
    (type seqid : Int) (app app' : χ) : Prop :=
  match cb with
  | none => app' = app
  | some f => f name type seqid app = (.ok (), app')

/-- `fn` is what a processor with functions `fns` runs for `name`: the last one with the name. -/
def Serves (fns : List Fn) (name : PyStr) (fn : Fn) : Prop :=
  fn.name = name ∧ ∃ pre post, fns = pre ++ fn :: post ∧ ∀ g ∈ post, g.name ≠ name

/-- A message header that can be sent and that a reader with this limit accepts. -/
structure HeaderOK (stringLimit : Option Int) (name : PyStr) (type : Nat) (seqid : Int) : Prop where
  text : TextOK name
  limit : Within stringLimit (utf8Len name)
  kind : IsMessageType type
  range : InRange 32 seqid

/-- A struct that was written with schema `sch₁` and that a reader with schema `sch₂` and these limits
accepts. -/
structure BodyOK (stringLimit containerLimit : Option Int) (mode : Mode) (sch₁ sch₂ : Schema) (sid : Nat)
    (v : Val) (fuel : Nat) : Prop where
  sender : SchemaOK mode sch₁
  receiver : SchemaOK mode sch₂
  versions : Compatible sch₁ sch₂
  typed : WT sch₁ (.struct sid) v
  limits : WithinLimits stringLimit containerLimit v
  depth : mode = .gen → structDepth v ≤ 64
  unknown : Unknowns (fun u => nesting u ≤ 64 ∧ BinariesAreText IsUtf8 u) sch₁ sch₂ (.struct sid) v
  fuel : size v ≤ fuel

/-- A struct that can be sent, and received unchanged by a peer with the same schema. -/
structure Sendable (stringLimit containerLimit : Option Int) (mode : Mode) (sch : Schema) (sid : Nat)
    (v : Val) (fuel : Nat) : Prop where
  typed : WT sch (.struct sid) v
  hidden : NoHiddenDefault sch (.struct sid) v
  duplicates : NoDuplicates v
  limits : WithinLimits stringLimit containerLimit v
  depth : mode = .gen → structDepth v ≤ 64
  fuel : size v ≤ fuel

/-- What the caller of a two-way function is told about what the handler did. (The type of a
`TApplicationException` without type is 0 for the caller.) -/
inductive Told (fn : Fn) : Outcome → Result → Prop
  | value (v : Val) : fn.returns = true → Told fn (.returned (some v)) (.returned (some v))
  | void (v : Option Val) : fn.returns = false → Told fn (.returned v) (.returned none)
  | missing : fn.returns = true → Told fn (.returned none) (.application (missingResult fn.name))
  | declared (sid : Nat) (as : List (Option Val)) : sid ∈ fn.throws →
    Told fn (.declared sid as) (.declared sid as)
  | undeclared (sid : Nat) (as : List (Option Val)) : sid ∉ fn.throws →
    Told fn (.declared sid as) (.application internalError)
  | application (x : AppExc) : Told fn (.application x) (.application ⟨some (x.type.getD 0), x.message⟩)
  | other (n : Nat) : Told fn (.other n) (.application internalError)

/-! ## Framed streams -/

/-- What the complete, non-empty frames at the beginning of a stream carry, see `deframe_frames`. -/
def deframe (b : Bytes) : Bytes :=
  if _h : 4 ≤ b.length ∧ 0 < unpackS (b.take 4) ∧ 4 + (unpackS (b.take 4)).toNat ≤ b.length then
    (b.drop 4).take (unpackS (b.take 4)).toNat ++ deframe (b.drop (4 + (unpackS (b.take 4)).toNat))
  else []
termination_by b.length
decreasing_by simp only [List.length_drop]; omega

/-- What a reader of a framed transport still gets: the unread part of the current frame, then what the
following frames of the stream carry. -/
def carried (s : Framed.St) (stream : Bytes) : Bytes := s.rbuf.unread ++ deframe stream

/-! ## Registrations of a multiplexed processor -/

/-- A call of `registerDefault` or `registerProcessor`. -/
inductive Registration (σ τ χ ω : Type) where
  | default (proc : Processor σ τ χ ω)
  | service (name : PyStr) (proc : Processor σ τ χ ω)

/-- The processor last registered under a name. -/
def Registered {σ τ χ ω : Type} (ops : List (Registration σ τ χ ω)) (name : PyStr)
    (proc : Processor σ τ χ ω) : Prop :=
  ∃ pre post, ops = pre ++ .service name proc :: post ∧ ∀ q, .service name q ∉ post

/-- The default processor last registered. -/
def RegisteredDefault {σ τ χ ω : Type} (ops : List (Registration σ τ χ ω)) (proc : Processor σ τ χ ω) :
    Prop :=
  ∃ pre post, ops = pre ++ .default proc :: post ∧ ∀ q, .default q ∉ post

/-! ## Protocols that speak a format -/

section
variable {σ : Type} [HasDepth σ]

/-- Objects of protocol `p` write messages of format `F`, from every state that satisfies `Idle`, and
are then in such a state again. -/
def Sends (p : Proto σ) (F : Format) (Idle : σ → Prop) : Prop :=
  ∀ (name : PyStr) (type : Nat) (seqid : Int) (sch : Schema) (mode : Mode) (sid : Nat) (v : Val) (s : σ)
    (out : Bytes), Idle s → TextOK name → IsMessageType type → InRange 32 seqid → SchemaOK mode sch →
    WT sch (.struct sid) v → (mode = .gen → structDepth v ≤ 64) →
    ∃ s', message p name type seqid (writeVal p.wr sch mode (.struct sid) v) s out
      = (.ok (), s', out ++ (F.header name type seqid ++ F.value sch (.struct sid) v)) ∧ Idle s'

/-- Objects of protocol `p` with these limits read messages of format `F`. -/
structure Receives (p : Proto σ) (F : Format) (Idle : σ → Prop) (stringLimit containerLimit : Option Int) :
    Prop where
  header : ∀ (name : PyStr) (type : Nat) (seqid : Int) (s : σ) (rest : Bytes), Idle s →
    HeaderOK stringLimit name type seqid →
    exec p.readMessageBegin s (F.header name type seqid ++ rest)
      = some ((.ok (name, (type : Int), seqid), s), rest)
  value : ∀ (mode : Mode) (sch₁ sch₂ : Schema) (sid : Nat) (v : Val) (s : σ) (fuel : Nat), Idle s →
    BodyOK stringLimit containerLimit mode sch₁ sch₂ sid v fuel →
    ∃ s', Idle s' ∧ ∀ rest, exec (readVal p.rd sch₂ mode fuel (.struct sid)) s
      (F.value sch₁ (.struct sid) v ++ rest)
        = some ((.ok (project sch₁ sch₂ (.struct sid) v), s'), rest)
  skip : ∀ (sch : Schema) (sid : Nat) (v : Val) (s : σ) (fuel : Nat), Idle s →
    (∀ sid, FieldsOK (sch sid)) → WT sch (.struct sid) v → WithinLimits stringLimit containerLimit v →
    nesting v ≤ 64 → BinariesAreText IsUtf8 v → size v ≤ fuel →
    ∃ s', Idle s' ∧ ∀ rest, exec (Thrift.skip p.rd fuel skipDepth TType.STRUCT) s
      (F.value sch (.struct sid) v ++ rest) = some ((.ok (), s'), rest)
  finish : ∀ (s : σ) (rest : Bytes), Idle s → exec p.readMessageEnd s rest = some ((.ok (), s), rest)
  share : ∀ s s' : σ, Idle s → Idle s' → Idle (p.share s s')

end
end Thrift.Spec
