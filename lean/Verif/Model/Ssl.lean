import Verif.Model.Socket
/-
`lib/py/src/transport/TSSLSocket.py` and `sslcompat.py`, for Python versions with `ssl.SSLContext`
(`_has_ssl_context` is true).

Python's `ssl` module and OpenSSL are the environment; what is assumed about them is written down in
`Ctx.fresh`, `setVerify`, `wrap`, `Ctx.admitsServer` and `Ctx.admitsClient`.
-/

namespace Thrift.Ssl

/-- `ssl.CERT_NONE`, `ssl.CERT_OPTIONAL`, `ssl.CERT_REQUIRED` -/
inductive Reqs where
  | none
  | optional
  | required
  deriving DecidableEq, Repr

/-- `ssl.PROTOCOL_TLS_CLIENT`, `ssl.PROTOCOL_TLS_SERVER`, and the versions that fit both sides
(`ssl.PROTOCOL_TLS`, `ssl.PROTOCOL_TLSv1_2`, …). -/
inductive Version where
  | client
  | server
  | both
  deriving DecidableEq, Repr

/-- The part of an `ssl.SSLContext` that matters here. -/
structure Ctx where
  version : Version
  verify : Reqs
  checkHostname : Bool
  deriving DecidableEq, Repr

/-- `ssl.SSLContext(version)`: a client context verifies and checks host names from the start. -/
def Ctx.fresh (v : Version) : Ctx :=
  match v with
  | .client => ⟨.client, .required, true⟩
  | v => ⟨v, .none, false⟩

/-- An element of the tuple `cert['subject']`: a tuple of pairs, here of lists of strings, or
something that is not a tuple. -/
inductive Field where
  | rdn (pairs : List (List String))
  | other
  deriving DecidableEq, Repr

/-- What `getpeercert()` returns, as far as it is looked at here: `subject` if there is one, and the
host names the certificate was issued for. -/
structure Cert where
  subject : Option (List Field)
  altNames : List String := []
  deriving DecidableEq, Repr

/-- The other end of a connection: its certificate, if it sends one, and whether it descends from an
authority that is trusted. -/
structure Peer where
  cert : Option Cert
  trusted : Bool
  deriving DecidableEq, Repr

/-- The result of a validate callback: it accepts or raises. What it returns does not matter. -/
abbrev Callback := Option Cert → Option String → Except Exc Unit

/-! ## `sslcompat.py` -/

/-- The loop of `legacy_validate_callback`, 41-64 -/
def legacyLoop (hostname : Option String) : List Field → Except Exc Unit
  | [] => .error TTransportException.UNKNOWN
  | .other :: fs => legacyLoop hostname fs
  | .rdn [] :: _ => .error .indexError
  | .rdn (pair :: _) :: fs =>
    match pair with
    | key :: value :: _ =>
      if key ≠ "commonName" then legacyLoop hostname fs
      else if some value = hostname then .ok ()
      else .error TTransportException.UNKNOWN
    | _ => legacyLoop hostname fs

/-- `legacy_validate_callback`, 28-64; `'subject' in None` raises `TypeError`. -/
def legacy : Callback := fun cert hostname =>
  match cert with
  | none => .error .typeError
  | some c =>
    match c.subject with
    | none => .error TTransportException.NOT_OPEN
    | some fields => legacyLoop hostname fields

/-- `match` of Python 3.12 and later, 100-101: it does not look at its arguments. -/
def match312 : Callback := fun _ _ => .ok ()

/-! ## `TSSLBase` -/

/-- The state of the file named by `ca_certs`. -/
inductive Ca where
  | missing
  | unreadable
  | readable
  deriving DecidableEq, Repr

/-- The arguments: a context, or the options a context is made from. Certificate and key files and
ciphers are part of the environment (`Attempt.badWrap`). -/
inductive Opts where
  | context (c : Ctx)
  | options (version : Version) (reqs : Reqs) (ca : Ca)
  deriving DecidableEq, Repr

/-- `TSSLBase.__init__`, 122-163: the context and the value of `cert_reqs` if there is no custom
context. `_should_verify` (67-72) looks at the context, not at `cert_reqs`. -/
def init (o : Opts) : Except Exc (Ctx × Option Reqs) :=
  match o with
  | .context c => .ok (c, none)
  | .options v reqs ca =>
    let c := Ctx.fresh v
    if c.verify ≠ .none then
      match ca with
      | .missing => .error .valueError
      | .unreadable => .error .osError
      | .readable => .ok (c, some reqs)
    else .ok (c, some reqs)

/-- Assignment to `verify_mode`: `ValueError` for `CERT_NONE` while host names are checked. -/
def setVerify (c : Ctx) (r : Reqs) : Except Exc Ctx :=
  if r = .none ∧ c.checkHostname = true then .error .valueError else .ok { c with verify := r }

/-- `SSLContext.wrap_socket` as far as it can raise because of the context: `ValueError` if host names
are checked and there is none (`None` or `''`), `SSLError` (an `OSError`) for the wrong side. -/
def wrap (c : Ctx) (serverSide : Bool) (hostname : Option String) : Except Exc Unit :=
  if c.checkHostname = true ∧ (hostname = none ∨ hostname = some "") then .error .valueError
  else if (serverSide = true ∧ c.version = .client) ∨ (serverSide = false ∧ c.version = .server) then .error .osError
  else .ok ()

/-- `_wrap_socket`, 177-190: the context afterwards, and the result. `extra` is what the other calls
(`load_cert_chain`, `set_ciphers`, `load_verify_locations`) do. -/
def wrapSocket (c : Ctx) (reqs : Option Reqs) (serverSide : Bool) (hostname : Option String)
    (extra : Except Exc Unit) : Ctx × Except Exc Unit :=
  match reqs with
  | none => (c, wrap c serverSide hostname)
  | some r =>
    match setVerify c r with
    | .error e => (c, .error e)
    | .ok c =>
      match extra with
      | .error e => (c, .error e)
      | .ok () => (c, wrap c serverSide hostname)

/-- What OpenSSL demands of a server during the handshake: with any mode but `CERT_NONE` a
certificate of a trusted authority, and, if host names are checked, one for this host. -/
def Ctx.admitsServer (c : Ctx) (isFor : Cert → String → Bool) (hostname : Option String) (p : Peer) : Bool :=
  match c.verify with
  | .none => true
  | _ =>
    match p.cert with
    | none => false
    | some cert => p.trusted && (!c.checkHostname || isFor cert (hostname.getD ""))

/-- What OpenSSL demands of a client during the handshake. -/
def Ctx.admitsClient (c : Ctx) (p : Peer) : Bool :=
  match c.verify with
  | .none => true
  | .optional => p.cert.isNone || p.trusted
  | .required => p.cert.isSome && p.trusted

/-! ## `TSSLSocket` -/

/-- What can happen while one address is tried: `socket.socket` raises; one of the calls of
`_wrap_socket` that depend on files raises; `setsockopt` or `settimeout` raises; `connect` raises
`socket.error`, or something else; the peer is reached and the handshake begins. -/
inductive Attempt where
  | noSocket (e : Exc)
  | badWrap (e : Exc)
  | badOption (e : Exc)
  | refused
  | broken (e : Exc)
  | peer (p : Peer)

/-- The outcome of `getaddrinfo` -/
inductive Resolved where
  | gaierror
  | raises (e : Exc)
  | addrs (l : List Attempt)

/-- The attributes of a `TSSLSocket`. `handle` is the number of the socket and the peer it is connected
to; `reqs` is `none` if there is a custom context. -/
structure St where
  ctx : Ctx
  reqs : Option Reqs
  hostname : Option String
  callback : Callback
  handle : Option (Nat × Peer) := none
  isValid : Bool := false
  peercert : Option Cert := none

/-- `TSSLSocket.__init__`, 224-273, without the deprecated positional arguments; `validate=x` is
`cert_reqs`. -/
def make (o : Opts) (hostname : Option String) (callback : Callback) : Except Exc St :=
  match init o with
  | .error e => .error e
  | .ok (c, r) => .ok { ctx := c, reqs := r, hostname := hostname, callback := callback }

/-- The loop of `TSocket.open` (138-153) with `TSSLSocket._do_open` (296-304), from address `i` on:
the result, `self.handle`, the context, and the system calls. The handshake happens in `connect`; its
failure is an `SSLError`, which is a `socket.error`. -/
def openLoop (isFor : Cert → String → Bool) (s : St) (c : Ctx) :
    Nat → List Attempt → Except Exc Unit × Option (Nat × Peer) × Ctx × List Socket.Call
  | _, [] => (.error TTransportException.NOT_OPEN, none, c, [])
  | i, a :: as =>
    match a with
    | .noSocket e => (.error e, none, c, [])
    | a =>
      let extra := match a with | .badWrap e => .error e | _ => .ok ()
      match wrapSocket c s.reqs false s.hostname extra with
      | (c, .error _) => (.error TTransportException.NOT_OPEN, none, c, [.create i, .close i])
      | (c, .ok ()) =>
        let again :=
          let r := openLoop isFor s c (i + 1) as
          (r.1, r.2.1, r.2.2.1, [.create i, .connect i, .close i] ++ r.2.2.2)
        match a with
        | .badOption e => (.error e, none, c, [.create i])
        | .broken e => (.error e, none, c, [.create i, .connect i])
        | .peer p =>
          if c.admitsServer isFor s.hostname p then (.ok (), some (i, p), c, [.create i, .connect i])
          else again
        | _ => again

/-- `TSocket.open`, 127-157, in a `TSSLSocket` -/
def baseOpen (isFor : Cert → String → Bool) (res : Resolved) (s : St) : Except Exc Unit × St × List Socket.Call :=
  match s.handle with
  | some _ => (.error TTransportException.ALREADY_OPEN, s, [])
  | none =>
    match res with
    | .gaierror => (.error TTransportException.NOT_OPEN, s, [])
    | .raises e => (.error e, s, [])
    | .addrs l =>
      let r := openLoop isFor s s.ctx 0 l
      (r.1, { s with handle := r.2.1, ctx := r.2.2.1 }, r.2.2.2)

/-- `TTransportException` -/
def isTransport : Exc → Bool
  | .ttransport _ => true
  | _ => false

/-- `open`, 306-316 -/
def open_ (isFor : Cert → String → Bool) (res : Resolved) (s : St) : Except Exc Unit × St × List Socket.Call :=
  match baseOpen isFor res s with
  | (.error e, s, cs) => (.error e, s, cs)
  | (.ok (), s, cs) =>
    if s.ctx.verify ≠ .none then
      let s := { s with peercert := s.handle.bind fun h => h.2.cert }
      match s.callback s.peercert s.hostname with
      | .ok () => (.ok (), { s with isValid := true }, cs)
      | .error e => if isTransport e then (.error e, s, cs) else (.error TTransportException.UNKNOWN, s, cs)
    else (.ok (), s, cs)

/-- `close`, 275-282: `None.settimeout` raises `AttributeError`; an exception of `unwrap` that is not
an `OSError` leaves the socket open. -/
def close (unwrap : Except Exc Unit) (s : St) : Except Exc Unit × St × List Socket.Call :=
  match s.handle with
  | none => (.error .attributeError, s, [])
  | some (i, _) =>
    match unwrap with
    | .ok () | .error .osError => (.ok (), { s with handle := none }, [.close i])
    | .error e => (.error e, s, [])

/-- `TSocket.isOpen`, 77-109, on an SSL socket: `recv` with flags raises `ValueError`, so the answer is
`True` whenever there is a handle. -/
def isOpen (s : St) : Bool := s.handle.isSome

/-- What a user does. -/
inductive Op where
  | open_ (res : Resolved)
  | close (unwrap : Except Exc Unit)

/-- One call -/
def call (isFor : Cert → String → Bool) (op : Op) (s : St) : Except Exc Unit × St × List Socket.Call :=
  match op with
  | .open_ res => open_ isFor res s
  | .close u => close u s

/-- A sequence of calls: the results and the final state -/
def run (isFor : Cert → String → Bool) : List Op → St → List (Except Exc Unit) × St
  | [], s => ([], s)
  | op :: ops, s =>
    let (r, s, _) := call isFor op s
    let (rs, s) := run isFor ops s
    (r :: rs, s)

/-! ## `TSSLServerSocket` -/

/-- The attributes of a `TSSLServerSocket` -/
structure Server where
  ctx : Ctx
  reqs : Option Reqs
  callback : Callback

/-- `TSSLServerSocket.__init__`, 330-368, where `ipaddress` is available; `CERT_NONE` is the default
of `cert_reqs` (354-357). -/
def makeServer (o : Opts) (callback : Callback) : Except Exc Server :=
  match init o with
  | .error e => .error e
  | .ok (c, r) => .ok { ctx := c, reqs := r, callback := callback }

/-- A client that connects: what it is, the first component of its address (`none` for a unix socket:
the address is `''` and `addr[0]` raises `IndexError`), and what the calls that depend on files do. -/
structure Arrival where
  peer : Peer
  addr : Option String
  extra : Except Exc Unit := .ok ()

/-- What `accept` does with the client's socket: it is returned in a `TSocket`, or closed and `None`
is returned, or an exception leaves it as it is. -/
inductive Accepted where
  | socket
  | none
  | raised (e : Exc)
  deriving DecidableEq, Repr

/-- `accept`, 385-414. The second component says whether the client's socket was closed. The handshake
happens in `wrap_socket`. -/
def accept (a : Arrival) (s : Server) : (Accepted × Bool) × Server :=
  match wrapSocket s.ctx s.reqs true none a.extra with
  | (c, .error .osError) => ((.none, true), { s with ctx := c })
  | (c, .error e) => ((.raised e, false), { s with ctx := c })
  | (c, .ok ()) =>
    let s := { s with ctx := c }
    if !c.admitsClient a.peer then ((.none, true), s)
    else if c.verify ≠ .none then
      match a.addr with
      -- `addr[0]` raises in the `try` block, and again in the arguments of `logger.warning`
      | none => ((.raised .indexError, false), s)
      | some host =>
        match s.callback a.peer.cert (some host) with
        | .ok () => ((.socket, false), s)
        | .error _ => ((.none, true), s)
    else ((.socket, false), s)

end Thrift.Ssl
