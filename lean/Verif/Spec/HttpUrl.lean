import Verif.Model.HttpUrl
import Verif.Spec.Remote
/-
URLs, and the request that one expects for a URL.
-/

namespace Thrift.Spec.HttpUrl
open Thrift.Rpc (pyStr)
open Thrift.HttpUrl (World TlsArgs Ctx Wire)
open Thrift.Spec.Remote (Plain decimal queryText)

/-- The host of a URL: a name or an IPv4 address, or an IPv6 address in brackets -/
inductive Host where
  | name (h : PyStr)
  | v6 (a : PyStr)

/-- As it is written -/
def Host.text : Host → PyStr
  | .name h => h
  | .v6 a => 91 :: (a ++ [93])

/-- ASCII letters in lower case: names of hosts do not depend on the case of letters. -/
def lowercase (t : PyStr) : PyStr := t.map fun c => if 65 ≤ c ∧ c ≤ 90 then c + 32 else c

/-- What a socket is connected to -/
def Host.key : Host → PyStr
  | .name h => lowercase h
  | .v6 a => lowercase a

/-- In the header `Host` and in an absolute URL -/
def Host.header : Host → PyStr
  | .name h => lowercase h
  | .v6 a => 91 :: (lowercase a ++ [93])

def Host.Valid : Host → Prop
  | .name h => h ≠ [] ∧ Plain [47, 63, 35, 64, 58, 91, 93, 37] h
  | .v6 a => 58 ∈ a ∧ ∀ c ∈ a, (48 ≤ c ∧ c ≤ 58) ∨ (97 ≤ c ∧ c ≤ 102) ∨ (65 ≤ c ∧ c ≤ 70) ∨ c = 46

/-- A URL of the schemes `http` and `https`. `user`: the user and the password, which may be missing -/
structure Url where
  https : Bool
  user : Option (PyStr × Option PyStr) := none
  host : Host
  port : Option Nat
  path : PyStr
  query : PyStr := []
  fragment : PyStr := []

def userText : Option (PyStr × Option PyStr) → PyStr
  | none => []
  | some (u, none) => u ++ [64]
  | some (u, some p) => u ++ 58 :: (p ++ [64])

def portText : Option Nat → PyStr
  | none => []
  | some p => 58 :: decimal p

/-- User, password, host and port, as in RFC 3986 -/
def authority (u : Url) : PyStr := userText u.user ++ (u.host.text ++ portText u.port)

def fragmentText (f : PyStr) : PyStr := if f = [] then [] else 35 :: f

def Url.text (u : Url) : PyStr :=
  pyStr (if u.https then "https" else "http") ++ (pyStr "://" ++ (authority u ++ (u.path ++ (queryText u.query ++ fragmentText u.fragment))))

structure Url.Valid (u : Url) : Prop where
  user : ∀ n p, u.user = some (n, p) → n ≠ [] ∧ Plain [47, 63, 35, 64, 58, 91, 93] n ∧ ∀ q, p = some q → Plain [47, 63, 35, 64, 91, 93] q
  host : u.host.Valid
  port : ∀ p, u.port = some p → p ≤ 65535
  path : (u.path = [] ∨ ∃ r, u.path = 47 :: r) ∧ Plain [63, 35] u.path
  query : Plain [35] u.query
  fragment : Plain [] u.fragment

/-- The port of the scheme -/
def standard (https : Bool) : Nat := if https then 443 else 80

def Url.portNumber (u : Url) : Nat := u.port.getD (standard u.https)

/-- The path and the query; an empty path is `/` -/
def Url.resource (u : Url) : PyStr := (if u.path = [] then [47] else u.path) ++ queryText u.query

/-- The header `Host`: the port is left out if it is the one of the scheme -/
def Url.hostHeader (u : Url) : PyStr := u.host.header ++ (if u.portNumber = standard u.https then [] else 58 :: decimal u.portNumber)

/-- The TLS context for the arguments -/
def ctx (a : TlsArgs) : Ctx :=
  if a.context then .given
  else
    match a.cert with
    | some c => .made a.cafile c a.key
    | none => .default

/-- The request without a proxy -/
def direct (u : Url) (a : TlsArgs) : Wire :=
  { peer := (u.host.key, u.portNumber), connect := none, tls := if u.https then some (u.host.key, ctx a) else none
    target := u.resource, host := u.hostHeader, auth := none }

/-- No proxy is used for the URL: none is set, or the variable is empty, or it is not for this host. -/
def NoProxy (w : World) (u : Url) : Prop :=
  w.proxies (pyStr (if u.https then "https" else "http")) = none ∨ w.proxies (pyStr (if u.https then "https" else "http")) = some [] ∨ w.bypass (some u.host.key) = true

/-- A proxy is used for the URL. -/
def Proxy (w : World) (u p : Url) : Prop :=
  w.proxies (pyStr (if u.https then "https" else "http")) = some p.text ∧ w.bypass (some u.host.key) = false

/-- The parameters of the last segment of the path: nothing is there. -/
def NoParams (path : PyStr) : Prop := ∀ dir last, path = dir ++ 47 :: last → 47 ∉ last → 59 ∉ last

/-- Nothing, or an empty text -/
def Blank : Option PyStr → Prop
  | none => True
  | some t => t = []

/-- The TLS arguments make a context: `ssl_context`, or nothing, or a certificate that can be loaded (and then with the other files). -/
def TlsOk (w : World) (a : TlsArgs) : Prop :=
  a.context = true ∨ (Blank a.cafile ∧ a.cert = none ∧ Blank a.key) ∨
    ∃ c, a.cert = some c ∧ c ≠ [] ∧ w.ca a.cafile = none ∧ w.chain c a.key = none

/-- `unquote` gives a text: it replaces what is not UTF-8. -/
def Texts (w : World) : Prop := ∀ t, ∀ c ∈ w.unquote t, Scalar c

/-- RFC 7617: the value of `Proxy-Authorization` for the user and the password in the URL of the proxy -/
def credentials (unquote : PyStr → PyStr) (u p : PyStr) : PyStr :=
  let plain (t : PyStr) : PyStr := if 37 ∈ t then unquote t else t
  pyStr "Basic " ++ (Json.b64encode (Spec.utf8 (plain u ++ 58 :: plain p))).map UInt8.toNat

end Thrift.Spec.HttpUrl
