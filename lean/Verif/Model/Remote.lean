import Verif.Model.Names
/-
The command line tool `<Service>-remote` that the compiler generates: `generate_service_remote`, `t_py_generator.cc` 1760-1964, and the parts of the constructors it calls,
`THttpClient.__init__` (`THttpClient.py` 36-56) and `TSSLSocket.__init__` (`TSSLSocket.py` 122-171 and 225-273).

The generated script is a sequence of statements; here it is run directly. What happens is the list of effects that can be seen from outside (`Act`). The client is an oracle (`World.call`); C35 and C36 are
about the generated client. Simplifications: Python 3 with a UTF-8 locale; the names that the script imports from the library (`sys`, `TSocket`, …) are not names of types of the IDL file; proxies of `THttpClient`
are not modelled; `eval` gives a value or an exception, its other effects are left out.
-/

namespace Thrift.Remote
open Rpc

/-! ### The generated script -/

/-- The type of an argument, as far as cc 1928-1934 look at it: `is_binary()` and `is_string()` of `t_base_type.h` 55 and 63 are `false` for a `t_typedef` (`t_type.h` 51 and 53). -/
inductive ArgTy where
  | binary
  | string
  | typedef (of : ArgTy)
  | other
  deriving DecidableEq, Repr

structure Fn where
  name : PyStr
  args : List ArgTy
  deriving DecidableEq, Repr

/-- What the script is generated from: the name of the service, the functions of the service and of each one it extends, the names of the types in `ttypes`. -/
structure Script where
  service : PyStr
  chain : List (List Fn)
  types : List PyStr

/-- cc 1766-1773 -/
def functions (s : Script) : List Fn := s.chain.flatten

/-! ### Python -/

/-- The bytes of an argument in `sys.argv`: UTF-8 with the error handler `surrogateescape` (PEP 383), a byte that begins no character is U+DC00 plus the byte -/
def fsDecode : Bytes → PyStr
  | [] => []
  | b0 :: r =>
    match (List.range 4).findSome? fun k => (utf8Decode ((b0 :: r).take (k + 1))).toOption.map fun c => (k, c) with
    | some (k, c) => c ++ fsDecode (r.drop k)
    | none => (0xDC00 + b0.toNat) :: fsDecode r
termination_by b => b.length
decreasing_by all_goals (simp <;> omega)

/-- `text.split(sep)` for one character -/
def split (sep : Nat) : PyStr → List PyStr
  | [] => [[]]
  | c :: cs =>
    if c = sep then [] :: split sep cs
    else
      match split sep cs with
      | p :: ps => (c :: p) :: ps
      | [] => [[c]]

/-- `str.lower` of ASCII -/
def lower (c : Nat) : Nat := if 65 ≤ c ∧ c ≤ 90 then c + 32 else c

/-- `scheme_chars` of `urllib.parse` -/
def isSchemeChar (c : Nat) : Bool := (97 ≤ c && c ≤ 122) || (65 ≤ c && c ≤ 90) || (48 ≤ c && c ≤ 57) || c == 43 || c == 45 || c == 46

/-- `uses_params` of `urllib.parse` -/
def usesParams : List PyStr :=
  ["", "ftp", "hdl", "prospero", "http", "https", "shttp", "rtsp", "rtsps", "rtspu", "sip", "sips", "mms", "sftp", "tel"].map pyStr

structure Url where
  scheme : PyStr
  netloc : PyStr
  path : PyStr
  params : PyStr
  query : PyStr
  fragment : PyStr
  deriving DecidableEq, Repr

/-- The scheme and the rest -/
def splitScheme (u : PyStr) : PyStr × PyStr :=
  match u.span (· != 58) with
  | (a, _ :: b) => if a ≠ [] ∧ a.all isSchemeChar then (a.map lower, b) else ([], u)
  | (_, []) => ([], u)

/-- `_splitnetloc`, for a text that begins with `//` -/
def splitNetloc : PyStr → PyStr × PyStr
  | 47 :: 47 :: r => r.span fun c => c != 47 && c != 63 && c != 35
  | r => ([], r)

/-- The text before the first such character and the text after it -/
def cut (c : Nat) (t : PyStr) : PyStr × PyStr :=
  match t.span (· != c) with
  | (a, _ :: b) => (a, b)
  | (a, []) => (a, [])

/-- `_splitparams`: the parameters of the last segment of the path -/
def splitParams (t : PyStr) : PyStr × PyStr :=
  let last := (t.reverse.takeWhile (· != 47)).reverse
  let dir := t.take (t.length - last.length)
  (dir ++ (cut 59 last).1, (cut 59 last).2)

/-- `urllib.parse.urlparse`, for texts of printable ASCII: otherwise it also drops tabs, line ends and leading blanks and rejects some characters of the authority. The check of brackets is the old one; newer
versions of Python also look between them. -/
def urlparse (u : PyStr) : Except Exc Url :=
  let (scheme, r) := splitScheme u
  let (netloc, r) := splitNetloc r
  if (91 ∈ netloc) ≠ (93 ∈ netloc) then .error .valueError
  else
    let (r, fragment) := cut 35 r
    let (r, query) := cut 63 r
    let (path, params) := if scheme ∈ usesParams then splitParams r else (r, [])
    .ok { scheme, netloc, path, params, query, fragment }

/-! ### The script -/

/-- The variables that hold the options, cc 1821-1832. `parts` and `url`: is there a variable of this name? -/
structure Opts where
  host : PyStr := pyStr "localhost"
  port : Int := 9090
  uri : PyStr := []
  framed : Bool := false
  ssl : Bool := false
  validate : Bool := true
  caCerts : Option PyStr := none
  keyfile : Option PyStr := none
  certfile : Option PyStr := none
  http : Bool := false
  parts : Bool := false
  url : Bool := false
  deriving DecidableEq, Repr

/-- The checked connection: what the constructor of the transport was given -/
structure Tls where
  verify : Bool
  caCerts : Option PyStr
  keyfile : Option PyStr
  certfile : Option PyStr
  deriving DecidableEq, Repr

inductive Trans where
  /-- `THttpClient` with the scheme `http` -/
  | http (host : PyStr) (port : Int) (path : PyStr)
  /-- `TFramedTransport` or `TBufferedTransport` over `TSSLSocket` or `TSocket` -/
  | socket (host : PyStr) (port : Int) (framed : Bool) (tls : Option Tls)
  deriving DecidableEq, Repr

/-- Where a global name of the script comes from; names of `builtins` are not here -/
inductive Src where
  | script | types | imports
  deriving DecidableEq, Repr

/-- An argument of the call -/
inductive ArgVal (α : Type) where
  | text (s : PyStr)
  | bytes (b : Bytes)
  | obj (a : α)
  deriving DecidableEq, Repr

/-- What the script meets. `int`: `int(text)`; `eval`: the value of an expression, given what global names mean; `readable`: `os.access(path, os.R_OK)`; `refused`: the exception of `transport.open()`; `call`: the
generated client. -/
structure World (α ρ : Type) where
  int : PyStr → Option Int
  eval : (PyStr → Option Src) → PyStr → Except Exc α
  readable : PyStr → Bool
  refused : Trans → Option Exc
  call : PyStr → List (ArgVal α) → Except Exc ρ

/-- What can be seen. `raised`: the interpreter stops with a traceback and the code 1. -/
inductive Act (α ρ : Type) where
  | usage
  | opened (t : Trans)
  | called (method : PyStr) (args : List (ArgVal α))
  | result (r : ρ)
  | closed (t : Trans)
  | unrecognized (cmd : PyStr)
  | requires (cmd : PyStr) (n : Nat)
  | exit (code : Nat)
  | raised (e : Exc)
  deriving DecidableEq, Repr

variable {α ρ : Type}

/-- `parts = text.split(':')`, `host = parts[0]` and `port = int(parts[1])` if there is one, cc 1835-1838 and 1843-1848. `dflt`: the port otherwise -/
def hostPort (w : World α ρ) (dflt : Int) (text : PyStr) : Except Exc (PyStr × Int) :=
  match split 58 text with
  | h :: p :: _ =>
    match w.int p with
    | some n => .ok (h, n)
    | none => .error .valueError
  | [h] => .ok (h, dflt)
  | [] => .error .indexError

/-- cc 1834-1839. The list is `sys.argv[argi:]`. -/
def optHost (w : World α ρ) (o : Opts) : List PyStr → Except Exc (Opts × List PyStr)
  | [] => .error .indexError
  | a :: r =>
    if a = pyStr "-h" then
      match r with
      | [] => .error .indexError
      | v :: r =>
        match hostPort w o.port v with
        | .ok (h, p) => .ok ({ o with host := h, port := p, parts := true }, r)
        | .error e => .error e
    else .ok (o, a :: r)

/-- cc 1841-1853 -/
def optUrl (w : World α ρ) (o : Opts) : List PyStr → Except Exc (Opts × List PyStr)
  | [] => .error .indexError
  | a :: r =>
    if a = pyStr "-u" then
      match r with
      | [] => .error .indexError
      | v :: r =>
        match urlparse v with
        | .error e => .error e
        | .ok u =>
          match hostPort w 80 u.netloc with
          | .error e => .error e
          | .ok (h, p) =>
            .ok ({ o with host := h, port := p, uri := u.path ++ (if u.query ≠ [] then 63 :: u.query else []), http := true, parts := true, url := true }, r)
    else .ok (o, a :: r)

/-- A flag with one or two names, cc 1855-1857, 1859-1861, 1863-1865 -/
def optFlag (names : List PyStr) (set : Opts → Opts) (o : Opts) : List PyStr → Except Exc (Opts × List PyStr)
  | [] => .error .indexError
  | a :: r => if a ∈ names then .ok (set o, r) else .ok (o, a :: r)

/-- An option with a value, cc 1867-1869, 1871-1873, 1875-1877 -/
def optValue (name : PyStr) (set : Opts → PyStr → Opts) (o : Opts) : List PyStr → Except Exc (Opts × List PyStr)
  | [] => .error .indexError
  | a :: r =>
    if a = name then
      match r with
      | [] => .error .indexError
      | v :: r => .ok (set o v, r)
    else .ok (o, a :: r)

/-- cc 1834-1880: the options, `cmd` and `args` -/
def parse (w : World α ρ) (argv : List PyStr) : Except Exc (Opts × PyStr × List PyStr) :=
  (optHost w {} argv).bind fun (o, r) =>
  (optUrl w o r).bind fun (o, r) =>
  (optFlag [pyStr "-f", pyStr "-framed"] (fun o => { o with framed := true }) o r).bind fun (o, r) =>
  (optFlag [pyStr "-s", pyStr "-ssl"] (fun o => { o with ssl := true }) o r).bind fun (o, r) =>
  (optFlag [pyStr "-novalidate"] (fun o => { o with validate := false }) o r).bind fun (o, r) =>
  (optValue (pyStr "-ca_certs") (fun o v => { o with caCerts := some v }) o r).bind fun (o, r) =>
  (optValue (pyStr "-keyfile") (fun o v => { o with keyfile := some v }) o r).bind fun (o, r) =>
  (optValue (pyStr "-certfile") (fun o v => { o with certfile := some v }) o r).bind fun (o, r) =>
  match r with
  | [] => .error .indexError
  | cmd :: args => .ok (o, cmd, args)

/-- `not x` for `None` or a text -/
def falsy : Option PyStr → Bool
  | none => true
  | some t => t.isEmpty

/-- Is the file there and readable? -/
def denied (w : World α ρ) : Option PyStr → Bool
  | none => false
  | some t => !w.readable t

/-- cc 1882-1894: `THttpClient(host, port, uri)` asserts that the path is not empty (`THttpClient.py` 56); `TSSLSocket(…)` checks the files (`TSSLSocket.py` 147-171, the setter of `certfile` first) -/
def build (w : World α ρ) (o : Opts) : Except Exc Trans :=
  if o.http then
    if o.uri = [] then .error .assertion else .ok (.http o.host o.port o.uri)
  else if o.ssl then
    if !falsy o.certfile && denied w o.certfile then .error .osError
    else if o.validate && falsy o.caCerts then .error .valueError
    else if o.validate && denied w o.caCerts then .error .osError
    else .ok (.socket o.host o.port o.framed (some { verify := o.validate, caCerts := o.caCerts, keyfile := o.keyfile, certfile := o.certfile }))
  else .ok (.socket o.host o.port o.framed none)

/-- The variables that the script has assigned before `client`, cc 1821-1895 -/
def variables (o : Opts) : List PyStr :=
  ["pp", "host", "port", "uri", "framed", "ssl", "validate", "ca_certs", "keyfile", "certfile", "http", "argi", "cmd", "args", "transport", "protocol"].map pyStr
    ++ (if o.parts then [pyStr "parts"] else []) ++ (if o.url then [pyStr "url"] else []) ++ (if o.http then [] else [pyStr "socket"])

/-- The names of the imports before `from ….ttypes import *`, cc 1782-1793 -/
def imported (s : Script) : List PyStr :=
  ["sys", "pprint", "urlparse", "TTransport", "TSocket", "TSSLSocket", "THttpClient", "TBinaryProtocol"].map pyStr ++ [Names.escape s.service]

/-- What a global name means, once `vars` are assigned: the latest binding counts. -/
def scope (s : Script) (vars : List PyStr) (n : PyStr) : Option Src :=
  if n ∈ vars then some .script
  else if n ∈ s.types then some .types
  else if n ∈ imported s then some .imports
  else none

/-- One argument, cc 1928-1934 -/
def convert (w : World α ρ) (s : Script) (o : Opts) (t : ArgTy) (a : PyStr) : Except Exc (ArgVal α) :=
  match t with
  | .binary => (utf8Encode a).map .bytes
  | .string => .ok (.text a)
  | _ => (w.eval (scope s (pyStr "client" :: variables o)) a).map .obj

/-- The arguments, from left to right -/
def convertAll (w : World α ρ) (s : Script) (o : Opts) : List ArgTy → List PyStr → Except Exc (List (ArgVal α))
  | t :: ts, a :: as => (convert w s o t a).bind fun v => (convertAll w s o ts as).map (v :: ·)
  | _, _ => .ok []

/-- The chain of `if cmd == …`, cc 1900-1946, and the end of the script -/
def dispatch (w : World α ρ) (s : Script) (o : Opts) (t : Trans) (cmd : PyStr) (args : List PyStr) : List (Act α ρ) :=
  match (functions s).find? (·.name = cmd) with
  | none => if functions s = [] then [.closed t] else [.unrecognized cmd, .exit 1]
  | some f =>
    if args.length ≠ f.args.length then [.requires f.name f.args.length, .exit 1]
    else
      match convertAll w s o f.args args with
      | .error e => [.raised e]
      | .ok vs =>
        .called (Names.escape f.name) vs ::
          match w.call (Names.escape f.name) vs with
          | .error e => [.raised e]
          | .ok r => [.result r, .closed t]

/-- The script, run with these arguments (the list is `sys.argv[1:]` before it is decoded), cc 1796-1948. `client = Service.Client(protocol)` fails if the name of the service means something else by now. -/
def run (w : World α ρ) (s : Script) (argv : List Bytes) : List (Act α ρ) :=
  match argv.map fsDecode with
  | [] => [.usage, .exit 0]
  | a :: r =>
    if a = pyStr "--help" then [.usage, .exit 0]
    else
      match parse w (a :: r) with
      | .error e => [.raised e]
      | .ok (o, cmd, args) =>
        match build w o with
        | .error e => [.raised e]
        | .ok t =>
          if scope s (variables o) (Names.escape s.service) ≠ some .imports then [.raised .attributeError]
          else
            match w.refused t with
            | some e => [.raised e]
            | none => .opened t :: dispatch w s o t cmd args

end Thrift.Remote
