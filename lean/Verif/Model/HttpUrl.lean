import Verif.Model.Remote
import Verif.Model.Json
/-
Where the requests of a `THttpClient` go: `THttpClient.__init__`, `basic_proxy_auth_header`, `open` and the begin of `flush` (`THttpClient.py` 37-120, 145-166), with the parts of `urllib.parse` and
`http.client` (Python 3.11) that decide about the peer, the tunnel, TLS and the request line.

The rest of `flush` is in `Model/Http.lean`. Simplifications: texts are printable ASCII where `urlparse` is used (see there); `getproxies` and `proxy_bypass` are the environment; timeouts are left out; the object
is made from a port that is an integer ≥ 0; `ssl_context`, if given, is not false.
-/

namespace Thrift.HttpUrl
open Rpc Remote

/-! ### `urllib.parse` -/

/-- The text before the first such character, and the text after it if there is such a character: `str.partition` -/
def part (c : Nat) (t : PyStr) : PyStr × Option PyStr :=
  match t.span (· != c) with
  | (a, _ :: b) => (a, some b)
  | (a, []) => (a, none)

/-- The text before the last such character, if there is one, and the text after it: `str.rpartition` -/
def rpart (c : Nat) (t : PyStr) : Option PyStr × PyStr :=
  match part c t.reverse with
  | (a, b) => (b.map List.reverse, a.reverse)

/-- `_userinfo`: `username` and `password` -/
def userinfo (netloc : PyStr) : Option PyStr × Option PyStr :=
  match (rpart 64 netloc).1 with
  | none => (none, none)
  | some u => (some (part 58 u).1, (part 58 u).2)

/-- `_hostinfo`: the host and the text of the port -/
def hostinfo (netloc : PyStr) : PyStr × Option PyStr :=
  let h := (rpart 64 netloc).2
  let (host, port) :=
    match part 91 h with
    | (_, some b) => ((part 93 b).1, (part 58 ((part 93 b).2.getD [])).2)
    | (_, none) => part 58 h
  (host, if port = some [] then none else port)

/-- `hostname`: in lower case, except for what follows a `%` -/
def hostname (netloc : PyStr) : Option PyStr :=
  match (hostinfo netloc).1 with
  | [] => none
  | h => some ((h.takeWhile (· != 37)).map lower ++ h.dropWhile (· != 37))

/-- The value of decimal digits -/
def number (t : PyStr) : Nat := t.foldl (fun n c => 10 * n + (c - 48)) 0

/-- `port` -/
def port (netloc : PyStr) : Except Exc (Option Nat) :=
  match (hostinfo netloc).2 with
  | none => .ok none
  | some t =>
    if t.all fun c => 48 ≤ c && c ≤ 57 then if number t ≤ 65535 then .ok (some (number t)) else .error .valueError
    else .error .valueError

/-! ### The object -/

/-- The process. `proxies`: `getproxies()`; `bypass`: `proxy_bypass(host)`; `unquote`: `urllib.parse.unquote` of a text with `%`; `int`: `int(text)`; `ca`, `chain`: the exceptions of
`create_default_context(cafile=…)` and of `load_cert_chain` with a `certfile` -/
structure World where
  proxies : PyStr → Option PyStr
  bypass : Option PyStr → Bool
  unquote : PyStr → PyStr
  int : PyStr → Option Nat
  ca : Option PyStr → Option Exc
  chain : PyStr → Option PyStr → Option Exc

/-- The keyword arguments for TLS; `context`: is `ssl_context` given? -/
structure TlsArgs where
  cafile : Option PyStr := none
  cert : Option PyStr := none
  key : Option PyStr := none
  context : Bool := false
  deriving DecidableEq, Repr

/-- `self.context`: `None`, `ssl_context`, or a context made from files -/
inductive Ctx where
  | default
  | given
  | made (cafile : Option PyStr) (cert : PyStr) (key : Option PyStr)
  deriving DecidableEq, Repr

/-- Attributes of the object -/
structure Client where
  https : Bool
  host : Option PyStr
  port : Option Nat
  path : PyStr
  ctx : Ctx
  realhost : Option PyStr
  realport : Option Nat
  auth : Option PyStr
  deriving DecidableEq, Repr

/-- `urllib.parse.unquote(None)` is a `TypeError`. -/
def unquote (w : World) : Option PyStr → Except Exc PyStr
  | none => .error .typeError
  | some t => .ok (if 37 ∈ t then w.unquote t else t)

/-- `basic_proxy_auth_header`, 98-105, for the authority of the proxy -/
def proxyAuth (w : World) (netloc : PyStr) : Except Exc (Option PyStr) :=
  match userinfo netloc with
  | (none, _) => .ok none
  | (some [], _) => .ok none
  | (some u, p) =>
    (unquote w (some u)).bind fun u =>
    (unquote w p).bind fun p =>
    (utf8Encode (u ++ 58 :: p)).bind fun b =>
    .ok (some (pyStr "Basic " ++ (Json.b64encode b).map UInt8.toNat))

/-- Truth of an optional text -/
def truthy : Option PyStr → Bool
  | none => false
  | some t => t != []

/-- 66-70. Without a `certfile`, `load_cert_chain` is a `TypeError`. -/
def context (w : World) (a : TlsArgs) : Except Exc Ctx :=
  if (truthy a.cafile || truthy a.cert || truthy a.key) && !a.context then
    match w.ca a.cafile with
    | some e => .error e
    | none =>
      match a.cert with
      | none => .error .typeError
      | some c =>
        match w.chain c a.key with
        | some e => .error e
        | none => .ok (.made a.cafile c a.key)
  else .ok (if a.context then .given else .default)

/-- 75-96: `host` and `port` become those of the proxy, if there is one. -/
def withProxy (w : World) (c : Client) : Except Exc Client :=
  let proxy :=
    match w.proxies (pyStr (if c.https then "https" else "http")) with
    | none => none
    | some p => if w.bypass c.host then none else some p
  match proxy with
  | none => .ok c
  | some [] => .ok c
  | some p =>
    (urlparse p).bind fun u =>
    (port u.netloc).bind fun n =>
    (proxyAuth w u.netloc).bind fun auth =>
    .ok { c with host := hostname u.netloc, port := n, realhost := c.host, realport := c.port, auth := auth }

/-- `__init__(uri_or_host, port, path, …)`, 37-96 -/
def init (w : World) (uri : PyStr) (portArg : Option Nat) (path : Option PyStr) (tls : TlsArgs) : Except Exc Client :=
  match portArg with
  | some n =>
    match path with
    | none => .error .assertion
    | some [] => .error .assertion
    | some p => withProxy w { https := false, host := some uri, port := some n, path := p, ctx := .default, realhost := none, realport := none, auth := none }
  | none =>
    (urlparse uri).bind fun u =>
    if u.scheme ≠ pyStr "http" ∧ u.scheme ≠ pyStr "https" then .error .assertion
    else
      let https := decide (u.scheme = pyStr "https")
      (HttpUrl.port u.netloc).bind fun n =>
      -- parsed.port or HTTP_PORT
      let n := if n = none ∨ n = some 0 then (if https then 443 else 80) else n.getD 0
      (if https then context w tls else .ok .default).bind fun ctx =>
      let path := if u.query = [] then u.path else u.path ++ 63 :: u.query
      withProxy w { https, host := hostname u.netloc, port := some n, path, ctx, realhost := none, realport := none, auth := none }

/-! ### A request -/

/-- `http.client.InvalidURL` -/
def invalidUrl : Exc := .user 0

/-- Is there a character in `[\x00-\x20\x7f]`? -/
def control (t : PyStr) : Bool := t.any fun c => c ≤ 32 || c == 127

/-- `_get_hostport` and `_validate_host` of `http.client.HTTPConnection.__init__` -/
def getHostPort (w : World) (https : Bool) (host : Option PyStr) (port : Option Nat) : Except Exc (PyStr × Nat) :=
  let dflt := if https then 443 else 80
  let hp : Except Exc (Option PyStr × Nat) :=
    match port with
    | some n => .ok (host, n)
    | none =>
      match host with
      | none => .error .attributeError
      | some h =>
        match rpart 58 h with
        | (none, _) => .ok (some h, dflt)
        | (some a, t) =>
          if 93 ∈ t then .ok (some h, dflt)
          else
            match w.int t with
            | some n => .ok (some a, n)
            | none => if t = [] then .ok (some a, dflt) else .error invalidUrl
  hp.bind fun (h, n) =>
  match h with
  | none => .error .typeError
  | some h =>
    let h := if h.head? = some 91 ∧ h.getLast? = some 93 then h.tail.dropLast else h
    if control h then .error invalidUrl else .ok (h, n)

/-- `_wrap_ipv6` -/
def wrap (h : PyStr) : PyStr := if 58 ∈ h ∧ h.head? ≠ some 91 then 91 :: (h ++ [93]) else h

/-- `_strip_ipv6_iface` -/
def stripZone (h : PyStr) : Except Exc PyStr :=
  match part 37 h with
  | (_, none) => .ok h
  | (a, some _) => if a.head? = some 91 then .ok (a ++ [93]) else .error .assertion

/-- What goes out for one request, up to the body. `peer`: where the socket is connected; `connect`: host and port in `CONNECT`, and the value of `Proxy-Authorization` in it; `tls`: the name in the certificate and
the context, for what follows; `target`, `host`, `auth`: the request line, and the headers `Host` and `Proxy-Authorization` of the request -/
structure Wire where
  peer : PyStr × Nat
  connect : Option (PyStr × Nat × PyStr)
  tls : Option (PyStr × Ctx)
  target : PyStr
  host : PyStr
  auth : Option PyStr
  deriving DecidableEq, Repr

/-- The decimal form of a number, `%s` -/
def decimal (n : Nat) : PyStr := (Nat.toDigits 10 n).map Char.toNat

/-- `Host`, `http.client.HTTPConnection.putrequest`. `h`, `n`: the host of the tunnel or of the connection -/
def hostHeader (https : Bool) (target : PyStr) (h : PyStr) (n : Nat) : Except Exc PyStr :=
  let netloc : Except Exc PyStr := if pyStr "http" <+: target then (urlparse target).map (·.netloc) else .ok []
  netloc.bind fun netloc =>
  if netloc ≠ [] then stripZone netloc
  else
    (if 58 ∈ h then stripZone (wrap h) else .ok (wrap h)).map fun e =>
    if n = (if https then 443 else 80) then e else e ++ 58 :: decimal n

/-- 118-120: the tunnel -/
def tunnel (c : Client) : Option (PyStr × Nat × PyStr) :=
  c.realhost.map fun h =>
    (if h.head? = some 91 ∧ h.getLast? = some 93 then h.tail.dropLast else h, c.realport.getD 0, c.auth.getD (pyStr "None"))

/-- 155-160: the request line -/
def target (c : Client) : PyStr :=
  match c.realhost with
  | some h => if c.https then c.path else pyStr "http://" ++ (h ++ 58 :: (decimal (c.realport.getD 0) ++ c.path))
  | none => c.path

/-- `open`, 110-120, and `flush`, 145-166, up to the headers. The request line is ASCII: a name that `str.encode("ascii")` rejects is a `UnicodeEncodeError` here. -/
def request (w : World) (c : Client) : Except Exc Wire :=
  (getHostPort w c.https c.host c.port).bind fun (h, n) =>
  let t := tunnel c
  let url := if target c = [] then [47] else target c
  if control url then .error invalidUrl
  else if url.any (128 ≤ ·) then .error .unicodeError
  else
    (match t with
      | some (th, tn, _) => hostHeader c.https url th tn
      | none => hostHeader c.https url h n).bind fun hh =>
    .ok
      { peer := (h, n), connect := t, tls := if c.https then some ((t.map Prod.fst).getD h, c.ctx) else none
        target := url, host := hh, auth := if c.realhost.isSome && !c.https then c.auth else none }

/-- Make the object and send one request. -/
def post (w : World) (uri : PyStr) (portArg : Option Nat) (path : Option PyStr) (tls : TlsArgs) : Except Exc Wire :=
  (init w uri portArg path tls).bind (request w)

end Thrift.HttpUrl
