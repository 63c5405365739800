import Verif.Model.HeaderProtocol
import Verif.Spec.Rpc
import Verif.Spec.Header
import Verif.Props.Header
/-
The dialects that peers of a `THeaderProtocol` speak (`doc/specs/HeaderFormat.md`).
-/

namespace Thrift.Spec.HeaderProtocol
open Rpc Thrift.Header Spec.Header Thrift.HeaderProtocol

/-- The two protocols for messages -/
inductive Kind where
  | binary | compact
  deriving DecidableEq, Repr

def Kind.format : Kind → Format
  | .binary => .binary
  | .compact => .compact

/-- The number of the protocol in a header -/
def Kind.id : Kind → Nat
  | .binary => 0
  | .compact => 2

/-- How messages are wrapped -/
inductive Dialect where
  | headers (m : Meta)
  | framed
  | unframed

/-- The bytes of a message in a dialect -/
def Dialect.wire (z : Zlib) : Dialect → Bytes → Bytes
  | .headers m, p => Spec.Header.frame m.flags m.seq m.block (deflateN z m.zlibs p)
  | .framed, p => beInt 4 p.length ++ p
  | .unframed, p => p

/-- The client type by which a server allows the dialect -/
def Dialect.type : Dialect → Kind → Int
  | .headers _, _ => 0
  | .framed, .binary => 1
  | .unframed, .binary => 2
  | .framed, .compact => 3
  | .unframed, .compact => 4

/-- A header tells the protocol of the message. -/
def Dialect.Tells (k : Kind) : Dialect → Prop
  | .headers m => m.pid = k.id
  | _ => True

/-- The limits of the format and of a reader with these limits -/
def Dialect.Readable (z : Zlib) (maxFrame maxDecomp : Int) : Dialect → Bytes → Prop
  | .headers m, p => m.Fits ∧ (m.headers.map (·.1)).Nodup ∧ 10 + m.block.length + (deflateN z m.zlibs p).length < 2 ^ 31 ∧
      ((10 + m.block.length + (deflateN z m.zlibs p).length : Nat) : Int) ≤ maxFrame ∧ ∀ j < m.zlibs, ((deflateN z j p).length : Int) ≤ maxDecomp
  | .framed, p => p.length < 2 ^ 31 ∧ (p.length : Int) ≤ maxFrame
  | .unframed, _ => True

/-- The limits of a writer -/
def Dialect.Writable (z : Zlib) (maxFrame : Int) : Dialect → Bytes → Prop
  | .headers m, p => m.Fits ∧ ((10 + m.block.length + (deflateN z m.zlibs p).length : Nat) : Int) ≤ maxFrame
  | _, p => (p.length : Int) ≤ maxFrame

/-- The headers of a message -/
def Dialect.sent : Dialect → Option Dict
  | .headers m => some m.headers
  | _ => none

/-- The dialect of the answer: that of the request, with the flags and the protocol of the request, the sequence id of the message, and the headers and transforms of the
answering side -/
def Dialect.answer (seqid : Int) (zlibs : Nat) (headers : Dict) : Dialect → Dialect
  | .headers m => .headers { flags := m.flags, seq := seqid, pid := m.pid, zlibs := zlibs, headers := headers }
  | d => d

/-- The object can begin with a new message: nothing is left in the buffer. `n` is the number of transforms that were added. -/
structure Ready (o : Obj) (n : Nat) : Prop where
  buffer : o.trans.wbuf = BytesIO.of []
  transforms : o.trans.writeTransforms = List.replicate n 1
  limit : o.trans.maxFrame < 2 ^ 31

/-- The settings of an object, which messages do not change -/
structure Kept (o o' : Obj) : Prop where
  allowed : o'.trans.allowed = o.trans.allowed
  transforms : o'.trans.writeTransforms = o.trans.writeTransforms
  maxFrame : o'.trans.maxFrame = o.trans.maxFrame
  maxDecomp : o'.trans.maxDecomp = o.trans.maxDecomp

/-- A message in the bytes of a protocol -/
def Kind.message (k : Kind) (name : PyStr) (type : Nat) (seqid : Int) (sch : Schema) (sid : Nat) (v : Val) : Bytes :=
  k.format.header name type seqid ++ k.format.value sch (.struct sid) v

/-- What a server has to do with a request in dialect `d`, if `out` are the bytes with which it has to answer, or `none` for no answer: it sends these bytes and no others, in
one piece, and leaves those behind the request alone. Then it is ready for the next request, its settings are as before, the headers of the request can be got from it (of the
last request that could have some), and headers that were sent will not be sent again. -/
structure Answered {χ ω ν : Type} (k : Sink ω) (rest : ν → Bytes) (o : Obj) (n : Nat) (d : Dialect) (out : Option Bytes) (w : ω) (x : χ) (more : Bytes)
    (r : Served χ ω ν) : Prop where
  answer : (r.result, r.sink) = match out with
    | some b => k.writeFlush b w
    | none => (.ok (), w)
  app : r.app = x
  behind : rest r.net = more
  ready : Ready r.obj n
  kept : Kept o r.obj
  told : r.obj.trans.readHeaders = d.sent.getD o.trans.readHeaders
  once : r.obj.trans.writeHeaders = if out = none ∨ d.sent = none then o.trans.writeHeaders else []

/-- The settings of a server: the allowed client types, its limits, the number of transforms it adds -/
structure Settings where
  allowed : List Int
  maxFrame : Int
  maxDecomp : Int
  transforms : Nat

/-- An object with these settings, which is ready for a message. `h` are the headers to be sent. -/
structure Has (s : Settings) (h : Dict) (o : Obj) : Prop where
  ready : Ready o s.transforms
  allowed : o.trans.allowed = s.allowed
  maxFrame : o.trans.maxFrame = s.maxFrame
  maxDecomp : o.trans.maxDecomp = s.maxDecomp
  headers : o.trans.writeHeaders = h

/-- One request and its answer, if it has one: `Exchange z S s h x request answer h' x'`, where the headers to be sent are `h` before and `h'` after it, and the application is `x`
before and `x'` after it. Either the request is a call and the answer tells what the handler did with these arguments; or it is a oneway call, with no answer; or the function is
not known, which the answer tells. -/
inductive Exchange {χ : Type} (z : Zlib) (S : Service χ) (s : Settings) : Dict → χ → Bytes → Option Bytes → Dict → χ → Prop
  | call (h : Dict) (x x' : χ) (k : Kind) (d : Dialect) (name : PyStr) (type : Nat) (seqid : Int) (fn : Fn) (sch₁ : Schema) (v : Val) (oc : Outcome) (type' : Nat)
      (sch' : Schema) (sid' : Nat) (u : Val) :
      d.type k ∈ s.allowed → d.Tells k → HeaderOK none name type seqid → Serves S.fns name fn → fn.oneway = false → ResultOK S.sch fn →
      BodyOK none none S.mode sch₁ S.sch fn.argsId v S.fuel → d.Readable z s.maxFrame s.maxDecomp (k.message name type seqid sch₁ fn.argsId v) →
      S.handler fn (attrsOf (project sch₁ S.sch (.struct fn.argsId) v)) x = (oc, x') → Answers S.sch fn oc type' sch' sid' u → WT sch' (.struct sid') u → structDepth u ≤ 64 →
      (d.answer seqid s.transforms h).Writable z s.maxFrame (k.message name type' seqid sch' sid' u) →
      Exchange z S s h x (d.wire z (k.message name type seqid sch₁ fn.argsId v))
        (some ((d.answer seqid s.transforms h).wire z (k.message name type' seqid sch' sid' u))) (if d.sent = none then h else []) x'
  | oneway (h : Dict) (x x' : χ) (k : Kind) (d : Dialect) (name : PyStr) (type : Nat) (seqid : Int) (fn : Fn) (sch₁ : Schema) (v : Val) (oc : Outcome) :
      d.type k ∈ s.allowed → d.Tells k → HeaderOK none name type seqid → Serves S.fns name fn → fn.oneway = true →
      BodyOK none none S.mode sch₁ S.sch fn.argsId v S.fuel → d.Readable z s.maxFrame s.maxDecomp (k.message name type seqid sch₁ fn.argsId v) →
      S.handler fn (attrsOf (project sch₁ S.sch (.struct fn.argsId) v)) x = (oc, x') → (∀ t, oc ≠ .transport t) → (∀ n, oc ≠ .base n) →
      Exchange z S s h x (d.wire z (k.message name type seqid sch₁ fn.argsId v)) none h x'
  | unknown (h : Dict) (x : χ) (k : Kind) (d : Dialect) (name : PyStr) (type : Nat) (seqid : Int) (sch₁ : Schema) (sid : Nat) (v : Val) :
      d.type k ∈ s.allowed → d.Tells k → HeaderOK none name type seqid → (∀ g ∈ S.fns, g.name ≠ name) → (∀ sid, FieldsOK (sch₁ sid)) → WT sch₁ (.struct sid) v →
      nesting v ≤ 64 → BinariesAreText IsUtf8 v → WithinLimits none none v → size v ≤ S.fuel → AppOK (unknownMethod name) →
      d.Readable z s.maxFrame s.maxDecomp (k.message name type seqid sch₁ sid v) →
      (d.answer seqid s.transforms h).Writable z s.maxFrame (k.format.header name 3 seqid ++ k.format.app (unknownMethod name)) →
      Exchange z S s h x (d.wire z (k.message name type seqid sch₁ sid v))
        (some ((d.answer seqid s.transforms h).wire z (k.format.header name 3 seqid ++ k.format.app (unknownMethod name)))) (if d.sent = none then h else []) x

/-- A sequence of requests and answers, in any dialects -/
inductive Session {χ : Type} (z : Zlib) (S : Service χ) (s : Settings) : Dict → χ → List (Bytes × Option Bytes) → Dict → χ → Prop
  | nil (h : Dict) (x : χ) : Session z S s h x [] h x
  | cons {h h' h'' : Dict} {x x' x'' : χ} {q : Bytes} {a : Option Bytes} {l : List (Bytes × Option Bytes)} :
      Exchange z S s h x q a h' x' → Session z S s h' x' l h'' x'' → Session z S s h x ((q, a) :: l) h'' x''

/-- Between messages, a client with this object sends messages of this kind with headers. -/
structure Speaks (o : Obj) (k : Kind) : Prop where
  client : o.trans.clientType = 0
  pid : o.trans.protocolId = k.id
  idle : (∃ s, k = .binary ∧ o.sub = .binary s ∧ s.depth = 0) ∨ ∃ s, k = .compact ∧ o.sub = .compact s ∧ s.depth = 0 ∧ s.state = .CLEAR ∧ s.structs = []

end Thrift.Spec.HeaderProtocol
