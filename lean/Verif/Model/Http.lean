import Verif.Model.Transport
/-
`lib/py/src/transport/THttpClient.py`: a transport that sends each flushed batch as the body of an
HTTP POST and reads from the body of the answer.

`http.client` is the environment: what happens to a request is part of the `flush` event (`Fate`),
and the body of an answer is an object of a type `ρ` whose `read` is given by `step`. The order of
the calls on the connection is kept, so that what `http.client` sends is visible: `endheaders`
connects and sends the request line and the headers, `send` sends the body.
-/

namespace Thrift.Http

/-- A header field. -/
abbrev Header := String × String

/-- What `__init__` (48-96) has found out: the scheme, the peer, the path, the proxy (`realhost`,
`realport`, `proxy_auth`) and the `User-Agent` of the process (169-172). How they are computed from
the URL and from the environment is in `Model/HttpUrl.lean`. -/
structure Cfg where
  https : Bool := false
  path : String
  /-- `realhost`, `realport` and `proxy_auth` if a proxy is used -/
  proxy : Option (String × Nat × Option String) := none
  userAgent : String := "Python/THttpClient"
  deriving DecidableEq, Repr

/-- What `getresponse` returned: `status`, `msg` (as pairs) and the object that is read from. -/
structure Response (ρ : Type) where
  status : Nat
  msg : List Header
  body : ρ

/-- What becomes of a flush: the call of `http.client` that raises, if any. -/
inductive Fate (ρ : Type) where
  /-- `putrequest` or `putheader` raises (an invalid path or header value): nothing has been sent. -/
  | rejected (e : Exc)
  /-- `endheaders` raises: the peer could not be reached or the header could not be sent. -/
  | unreachable (e : Exc)
  /-- `send` raises -/
  | broken (e : Exc)
  /-- `getresponse` raises -/
  | noAnswer (e : Exc)
  /-- `getresponse` returns -/
  | answered (r : Response ρ)

/-- What the object does to connections. Connections are numbered in the order of their creation. -/
inductive Act where
  /-- `HTTPConnection(…)` or `HTTPSConnection(…)` -/
  | create (c : Nat)
  /-- `close()` of a connection -/
  | close (c : Nat)
  /-- `endheaders()`: request line and headers go out -/
  | head (c : Nat) (target : String) (headers : List Header)
  /-- `send(data)` -/
  | body (c : Nat) (data : Bytes)
  deriving DecidableEq, Repr

/-- The attributes of a `THttpClient`; `next` numbers the connections; `log` is what was done to
them. -/
structure St (ρ : Type) where
  wbuf : BytesIO := BytesIO.of []
  http : Option Nat := none
  response : Option ρ := none
  custom : Option (List Header) := none
  headers : Option (List Header) := none
  code : Option Nat := none
  next : Nat := 0
  log : List Act := []

variable {ρ : Type}

/-- `close`, 122-125: `None.close()` raises `AttributeError`. -/
def close (s : St ρ) : Except Exc Unit × St ρ :=
  match s.http with
  | none => (.error .attributeError, s)
  | some c => (.ok (), { s with http := none, response := none, log := s.log ++ [.close c] })

/-- `open`, 110-120: a new connection object. The old one, if any, is just replaced. The proxy tunnel
is in `Model/HttpUrl.lean`. -/
def open_ (s : St ρ) : St ρ :=
  { s with http := some s.next, next := s.next + 1, log := s.log ++ [.create s.next] }

/-- `isOpen`, 127-128 -/
def isOpen (s : St ρ) : Bool := s.http.isSome

/-- `write`, 142-143 -/
def write (b : WArg) (s : St ρ) : Except Exc Unit × St ρ :=
  match b with
  | .bytes b => (.ok (), { s with wbuf := s.wbuf.write b })
  | .other => (.error .typeError, s)

/-- `read`, 139-140: `None.read(sz)` raises `AttributeError`. -/
def read (step : Nat → ρ → Option (Except Exc Bytes × ρ)) (n : Nat) (s : St ρ) :
    Option (Except Exc Bytes × St ρ) :=
  match s.response with
  | none => some (.error .attributeError, s)
  | some r =>
    match step n r with
    | none => none
    | some (a, r') => some (a, { s with response := some r' })

/-- `name.lower()` as a list of characters. Header names are ASCII. -/
def lower (name : String) : List Char := name.toList.map Char.toLower

/-- Look-up in an `HTTPMessage`: names are compared without regard to case, the first field wins. -/
def getHeader (name : String) : List Header → Option String
  | [] => none
  | (k, v) :: l => if lower k = lower name then some v else getHeader name l

/-- `'User-Agent' in headers` for a `dict` -/
def hasKey (name : String) (l : List Header) : Bool := l.any (fun h => h.1 = name)

/-- The target of the request, 155-160 -/
def target (cfg : Cfg) : String :=
  match cfg.proxy with
  | some (host, port, _) =>
    if cfg.https then cfg.path else "http://" ++ host ++ ":" ++ toString port ++ cfg.path
  | none => cfg.path

/-- The calls of `putheader`, 163-183 -/
def fields (cfg : Cfg) (s : St ρ) (data : Bytes) : List Header :=
  let h : List Header :=
    [("Content-Type", "application/x-thrift"), ("Content-Length", toString data.length)]
  let h := match cfg.proxy with
    | some (_, _, some auth) => if cfg.https then h else h ++ [("Proxy-Authorization", auth)]
    | _ => h
  let h := if hasKey "User-Agent" (s.custom.getD []) then h else h ++ [("User-Agent", cfg.userAgent)]
  let h := h ++ s.custom.getD []
  match getHeader "Set-Cookie" (s.headers.getD []) with
  | some v => h ++ [("Cookie", v)]
  | none => h

/-- `flush`, 145-194 -/
def flush (cfg : Cfg) (fate : Fate ρ) (s : St ρ) : Except Exc Unit × St ρ :=
  -- if self.isOpen(): self.close()
  let s := if isOpen s then (close s).2 else s
  let c := s.next
  let s := open_ s
  let data := s.wbuf.value
  let s := { s with wbuf := BytesIO.of [] }
  let head := Act.head c (target cfg) (fields cfg s data)
  match fate with
  | .rejected e => (.error e, s)
  | .unreachable e => (.error e, { s with log := s.log ++ [head] })
  | .broken e => (.error e, { s with log := s.log ++ [head, .body c data] })
  | .noAnswer e => (.error e, { s with log := s.log ++ [head, .body c data] })
  | .answered r =>
    (.ok (), { s with
      log := s.log ++ [head, .body c data]
      response := some r.body
      code := some r.status
      headers := some r.msg })

/-- What a user does with the object. -/
inductive Op (ρ : Type) where
  | write (b : WArg)
  | flush (fate : Fate ρ)
  | read (n : Nat)
  | close
  | open_
  | setCustomHeaders (h : Option (List Header))

/-- What a call returned. -/
inductive Ret where
  | unit (r : Except Exc Unit)
  | bytes (r : Except Exc Bytes)

/-- One call; `none` if a read of the body does not return. -/
def call (cfg : Cfg) (step : Nat → ρ → Option (Except Exc Bytes × ρ)) (op : Op ρ) (s : St ρ) :
    Option (Ret × St ρ) :=
  match op with
  | .write b => let (r, s) := write b s; some (.unit r, s)
  | .flush f => let (r, s) := flush cfg f s; some (.unit r, s)
  | .read n => (read step n s).map fun (r, s) => (.bytes r, s)
  | .close => let (r, s) := close s; some (.unit r, s)
  | .open_ => some (.unit (.ok ()), open_ s)
  | .setCustomHeaders h => some (.unit (.ok ()), { s with custom := h })

/-- A sequence of calls: the results and the state afterwards. -/
def run (cfg : Cfg) (step : Nat → ρ → Option (Except Exc Bytes × ρ)) :
    List (Op ρ) → St ρ → Option (List Ret × St ρ)
  | [], s => some ([], s)
  | op :: ops, s =>
    match call cfg step op s with
    | none => none
    | some (r, s) => (run cfg step ops s).map fun (rs, s) => (r :: rs, s)

end Thrift.Http
