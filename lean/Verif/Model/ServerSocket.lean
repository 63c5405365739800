import Verif.Model.Socket
/-
`lib/py/src/transport/TSocket.py`: `TServerSocket`, on Linux, any number of servers and other programs on one machine.

The operating system is modelled as far as addresses are concerned: which files there are, which sockets there are, and what `connect`, `unlink`, `socket`, `bind`, `listen` and `close`
do to them. Permissions, symbolic links, queues of connections that wait for `accept` and failures of `socket.socket` are left out, and so are the empty path and paths that begin with a
NUL (names that are not in the file system). `connect` to a server whose queue is full waits in reality.
-/

namespace Thrift.ServerSocket

/-! ### Unix sockets -/

/-- A path in the file system -/
abbrev Path := Bytes

/-- What can be at a path: a socket (the number is that of the socket that made it), a directory, another file -/
inductive Node where
  | socket (i : Nat)
  | directory
  | file (content : Bytes)
  deriving DecidableEq, Repr

/-- The states of a stream socket -/
inductive Sock where
  | unbound
  | bound
  | listening
  | closed
  deriving DecidableEq, Repr

/-- Files and sockets -/
structure Os where
  fs : Path → Option Node
  socks : Nat → Sock
  /-- sockets from here on do not exist yet -/
  next : Nat

/-- What `connect` does: there is a connection to a socket, or `ECONNREFUSED`, or another errno, or the exception of Python for a path of more than 107 bytes, which has no errno. -/
inductive Connect where
  | ok (i : Nat)
  | refused
  | errno
  | tooLong
  deriving DecidableEq, Repr

/-- `connect` of a stream socket. Linux refuses the connection also if there is a file that is not a socket (`unix_find_bsd`). -/
def Os.connect (os : Os) (p : Path) : Connect :=
  if 108 ≤ p.length then .tooLong
  else
    match os.fs p with
    | none => .errno
    | some (.socket i) => if os.socks i = .listening then .ok i else .refused
    | some _ => .refused

/-- The file system with something else at a path -/
def Os.put (os : Os) (p : Path) (x : Option Node) : Os := { os with fs := fun q => if q = p then x else os.fs q }

/-- A socket in another state -/
def Os.set (os : Os) (i : Nat) (s : Sock) : Os := { os with socks := fun j => if j = i then s else os.socks j }

/-- `os.unlink` -/
def Os.unlink (os : Os) (p : Path) : Except Exc Os :=
  match os.fs p with
  | none => .error .osError
  | some .directory => .error .osError
  | some _ => .ok (os.put p none)

/-- `socket.socket` -/
def Os.socket (os : Os) : Nat × Os := (os.next, { os.set os.next .unbound with next := os.next + 1 })

/-- `bind` of socket `i`: the file must not exist. -/
def Os.bind (os : Os) (i : Nat) (p : Path) : Except Exc Os :=
  if 108 ≤ p.length then .error .osError
  else if (os.fs p).isSome then .error .osError
  else .ok ((os.put p (some (.socket i))).set i .bound)

/-- `close`; nothing happens to the file. -/
def Os.close (os : Os) : Option Nat → Os
  | none => os
  | some i => os.set i .closed

/-- Where a server is in `listen`, 222-250 -/
inductive Phase where
  /-- 222-234 -/
  | entered
  /-- `connect` raised `ECONNREFUSED`, 235-238 -/
  | refused
  /-- 240 -/
  | cleared
  /-- 241-249 -/
  | made (i : Nat)
  /-- 250 -/
  | bound (i : Nat)
  /-- `listen` returned -/
  | returned
  /-- `listen` raised -/
  | raised (e : Exc)
  /-- not in `listen` -/
  | idle
  deriving DecidableEq, Repr

/-- A `TServerSocket` with a `unix_socket`: `_unix_socket`, `handle`, and where it is -/
structure Server where
  path : Path
  handle : Option Nat := none
  phase : Phase := .idle

/-- The next system call of `listen`, 222-250. `self.handle = s` (240) drops the socket that was there, and Python closes it. -/
def step (os : Os) (s : Server) : Os × Server :=
  match s.phase with
  | .entered =>
    match os.connect s.path with
    | .tooLong => (os, { s with phase := .raised .valueError })
    | .refused => (os, { s with phase := .refused })
    | .ok _ | .errno => (os, { s with phase := .cleared })
  | .refused =>
    match os.unlink s.path with
    | .error e => (os, { s with phase := .raised e })
    | .ok os => (os, { s with phase := .cleared })
  | .cleared =>
    let r := os.socket
    (r.2.close s.handle, { s with handle := some r.1, phase := .made r.1 })
  | .made i =>
    match os.bind i s.path with
    | .error e => (os, { s with phase := .raised e })
    | .ok os => (os, { s with phase := .bound i })
  | .bound i => (os.set i .listening, { s with phase := .returned })
  | .returned | .raised _ | .idle => (os, s)

/-- `listen` without interruption -/
def listen (os : Os) (s : Server) : Os × Server :=
  let r1 := step os { s with phase := .entered }
  let r2 := step r1.1 r1.2
  let r3 := step r2.1 r2.2
  let r4 := step r3.1 r3.2
  step r4.1 r4.2

/-- `close`, 43-46, also the end of the process: the file stays. -/
def close (os : Os) (s : Server) : Os × Server := (os.close s.handle, { s with handle := none, phase := .idle })

/-- Many servers and the files -/
structure World where
  os : Os
  servers : Nat → Server

/-- What can happen: a server begins with `listen`, goes on with it, or ends; another program makes a file or a directory where there is nothing, or removes a file. -/
inductive Act where
  | call (n : Nat)
  | step (n : Nat)
  | close (n : Nat)
  | create (p : Path) (x : Node)
  | remove (p : Path)
  deriving DecidableEq, Repr

/-- Server `n` is now `s`. -/
def World.with (w : World) (n : Nat) (r : Os × Server) : World := { os := r.1, servers := fun m => if m = n then r.2 else w.servers m }

/-- Is the server in `listen`? -/
def Phase.busy : Phase → Bool
  | .returned | .raised _ | .idle => false
  | _ => true

/-- One event; what is impossible does nothing. -/
def act (w : World) : Act → World
  | .call n => if (w.servers n).phase.busy then w else w.with n (w.os, { w.servers n with phase := .entered })
  | .step n => w.with n (ServerSocket.step w.os (w.servers n))
  | .close n => w.with n (ServerSocket.close w.os (w.servers n))
  | .create p x =>
    match x with
    | .socket _ => w
    | x => if (w.os.fs p).isSome then w else { w with os := w.os.put p (some x) }
  | .remove p => { w with os := w.os.put p none }

/-- A history -/
def run (w : World) (as : List Act) : World := as.foldl act w

/-! ### Internet sockets -/

/-- `socket.AF_UNSPEC`, ... -/
inductive Family where
  | unspec
  | inet
  | inet6
  deriving DecidableEq, Repr

/-- An entry of the list that `getaddrinfo` returns: the family, and the rest of the address (`none` is the wildcard address) -/
structure Addr where
  family : Family
  host : Option Nat
  port : Nat
  deriving DecidableEq, Repr

/-- `self._socket_family == socket.AF_UNSPEC and socket.AF_INET6 or self._socket_family`, 224 -/
def preferred (f : Family) : Family := if f = .unspec then .inet6 else f

/-- The loop, 225-227, for the list `a :: as` (`getaddrinfo` raises rather than return an empty list): the first of the family, or the last -/
def choose (want : Family) (a : Addr) : List Addr → Addr
  | [] => a
  | b :: bs => if a.family = want then a else choose want b bs

/-- What the server listens on -/
structure Endpoint where
  addr : Addr
  v6only : Bool
  deriving DecidableEq, Repr

/-- `listen` for internet addresses, 222-250, not on Windows. `free a` is whether `bind` succeeds; `IPV6_V6ONLY` depends on the machine (`dflt`) unless it is set. -/
def listenInet (f : Family) (a : Addr) (as : List Addr) (free : Addr → Bool) (dflt : Bool) : Except Exc Endpoint :=
  let r := choose (preferred f) a as
  if free r then .ok { addr := r, v6only := if r.family = .inet6 then false else dflt } else .error .osError

end Thrift.ServerSocket
