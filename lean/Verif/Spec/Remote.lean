import Verif.Model.Remote
import Verif.Spec.Bytes
/-
What one asks the script `<Service>-remote` for, how to write it on the command line, and what is expected.
-/

namespace Thrift.Spec.Remote
open Thrift.Rpc (pyStr)
open Thrift.Remote (ArgTy Fn Script Trans Tls ArgVal Act World Src)

/-- The decimal form of a number -/
def decimal (n : Nat) : PyStr := (Nat.toDigits 10 n).map Char.toNat

/-- `-s` or `-ssl`, with its options -/
structure TlsReq where
  long : Bool
  noValidate : Bool
  caCerts : Option PyStr
  keyfile : Option PyStr
  certfile : Option PyStr

/-- Where the server is. `framed`: `none`, or whether the flag is written in full -/
inductive Target where
  | socket (at' : Option (PyStr × Option Nat)) (framed : Option Bool) (tls : Option TlsReq)
  | web (host : PyStr) (port : Option Nat) (path query : PyStr)

def address (h : PyStr) : Option Nat → PyStr
  | none => h
  | some p => h ++ 58 :: decimal p

def option (name : PyStr) : Option PyStr → List PyStr
  | none => []
  | some v => [name, v]

def flag (short long : String) : Option Bool → List PyStr
  | none => []
  | some b => [pyStr (if b then long else short)]

def hostWords : Option (PyStr × Option Nat) → List PyStr
  | none => []
  | some (h, p) => [pyStr "-h", address h p]

def tlsWords : Option TlsReq → List PyStr
  | none => []
  | some t =>
    [pyStr (if t.long then "-ssl" else "-s")] ++ ((if t.noValidate then [pyStr "-novalidate"] else []) ++ (option (pyStr "-ca_certs") t.caCerts ++ (option (pyStr "-keyfile") t.keyfile ++ option (pyStr "-certfile") t.certfile)))

def queryText (q : PyStr) : PyStr := if q = [] then [] else 63 :: q

/-- The text of a URL -/
def urlText (scheme : String) (h : PyStr) (p : Option Nat) (path query : PyStr) : PyStr :=
  pyStr scheme ++ (pyStr "://" ++ (address h p ++ (path ++ queryText query)))

/-- The options on the command line, in the order of the message of `--help` -/
def words : Target → List PyStr
  | .socket a f t => hostWords a ++ (flag "-f" "-framed" f ++ tlsWords t)
  | .web h p path q => [pyStr "-u", urlText "http" h p path q]

/-- The connection one wants -/
def connection : Target → Trans
  | .socket a f t =>
    .socket ((a.map Prod.fst).getD (pyStr "localhost")) (((a.bind Prod.snd).map Int.ofNat).getD 9090) f.isSome
      (t.map fun t => { verify := !t.noValidate, caCerts := t.caCerts, keyfile := t.keyfile, certfile := t.certfile })
  | .web h p path q => .http h ((p.map Int.ofNat).getD 80) (path ++ queryText q)

/-- Printable characters of ASCII, without some -/
def Plain (without : List Nat) (s : PyStr) : Prop := ∀ c ∈ s, 33 ≤ c ∧ c ≤ 126 ∧ c ∉ without

/-- The host of a URL -/
def Host (h : PyStr) : Prop := Plain [47, 63, 35, 58, 91, 93] h
/-- The path of a URL, without parameters -/
def Path (p : PyStr) : Prop := (∃ q, p = 47 :: q) ∧ Plain [63, 35, 59] p
def Query (q : PyStr) : Prop := Plain [35] q

/-- A text that can be written on a command line -/
def Text (s : PyStr) : Prop := ∀ c ∈ s, Scalar c

variable {α ρ : Type}

/-- `int` knows decimal numbers. -/
def Ints (w : World α ρ) : Prop := ∀ n : Nat, w.int (decimal n) = some (n : Int)

/-- The files of a request with TLS are there, and there are certificates to check with. -/
def Files (w : World α ρ) (t : TlsReq) : Prop :=
  (∀ c, t.certfile = some c → c ≠ [] → w.readable c = true) ∧ (t.noValidate = true ∨ ∃ c, t.caCerts = some c ∧ c ≠ [] ∧ w.readable c = true)

def TlsTexts (t : TlsReq) : Prop := ∀ o ∈ [t.caCerts, t.keyfile, t.certfile], ∀ c, o = some c → Text c

/-- A request that makes sense: no `:` in the host, a URL with a path -/
def Valid (w : World α ρ) : Target → Prop
  | .socket a _ t => (∀ h p, a = some (h, p) → Text h ∧ 58 ∉ h) ∧ (∀ q, t = some q → Files w q ∧ TlsTexts q)
  | .web h _ path q => Host h ∧ Path path ∧ Query q

/-- The variables of the script, which hide types of the same name -/
def scriptNames (t : Target) : List PyStr :=
  ["pp", "host", "port", "uri", "framed", "ssl", "validate", "ca_certs", "keyfile", "certfile", "http", "argi", "cmd", "args", "transport", "protocol"].map pyStr ++
    match t with
    | .socket none _ _ => [pyStr "socket"]
    | .socket (some _) _ _ => [pyStr "socket", pyStr "parts"]
    | .web .. => [pyStr "url", pyStr "parts"]

/-- What the script imports, with the module of the service -/
def libraryNames (s : Script) : List PyStr :=
  ["sys", "pprint", "urlparse", "TTransport", "TSocket", "TSSLSocket", "THttpClient", "TBinaryProtocol"].map pyStr ++ [Names.escape s.service]

/-- What names mean in an expression on the command line -/
def names (s : Script) (t : Target) (n : PyStr) : Option Src :=
  if n ∈ pyStr "client" :: scriptNames t then some .script
  else if n ∈ s.types then some .types
  else if n ∈ libraryNames s then some .imports
  else none

/-- An argument: text, bytes, or the expression `t` for the value `v` -/
inductive Given (α : Type) where
  | text (s : PyStr)
  | bytes (b : Bytes)
  | expr (t : PyStr) (v : α)

def onLine : Given α → Bytes
  | .text s => utf8 s
  | .bytes b => b
  | .expr t _ => utf8 t

def value : Given α → ArgVal α
  | .text s => .text s
  | .bytes b => .bytes b
  | .expr _ v => .obj v

/-- The type behind typedefs -/
def root : ArgTy → ArgTy
  | .typedef t => root t
  | t => t

/-- The argument fits the declared type: one would expect this for `root ty`. -/
def Fits (w : World α ρ) (g : PyStr → Option Src) : ArgTy → Given α → Prop
  | .string, .text s => Text s
  | .binary, .bytes b => IsUtf8 b
  | .other, .expr t v => Text t ∧ w.eval g t = .ok v
  | .typedef ty, .expr t v => root ty = .other ∧ Text t ∧ w.eval g t = .ok v
  | _, _ => False

def AllFit (w : World α ρ) (g : PyStr → Option Src) : List ArgTy → List (Given α) → Prop
  | [], [] => True
  | t :: ts, a :: as => Fits w g t a ∧ AllFit w g ts as
  | _, _ => False

/-- `f` is the function of this name: of the service, or of the nearest one it extends -/
def Nearest (s : Script) (f : Fn) : Prop := ∃ pre post, s.chain.flatten = pre ++ f :: post ∧ ∀ g ∈ pre, g.name ≠ f.name

/-- Names are identifiers; this is all that matters here. -/
def Ident (n : PyStr) : Prop := Text n ∧ n.head? ≠ some 45

/-- The name of the service is not also the name of a type, or of a variable of the script. -/
def Known (s : Script) (t : Target) : Prop := Names.escape s.service ∉ s.types ∧ Names.escape s.service ∉ scriptNames t

/-- The whole command line: the options, the function, the arguments -/
def line (t : Target) (cmd : PyStr) (args : List Bytes) : List Bytes := (words t).map utf8 ++ utf8 cmd :: args

/-- What a function gets for the bytes of an argument: a text as it is, bytes as they are, anything else a value of Python -/
def Received : ArgTy → Bytes → ArgVal α → Prop
  | .string, b, .text s => Text s → utf8 s = b
  | .binary, b, .bytes b' => b' = b
  | .typedef _, _, .obj _ => True
  | .other, _, .obj _ => True
  | _, _, _ => False

def AllReceived : List ArgTy → List Bytes → List (ArgVal α) → Prop
  | [], [], [] => True
  | t :: ts, b :: bs, v :: vs => Received t b v ∧ AllReceived ts bs vs
  | _, _, _ => False

end Thrift.Spec.Remote
