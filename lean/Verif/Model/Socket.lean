import Verif.Model.Transport
/-
`lib/py/src/transport/TSocket.py`: `TSocket`.
-/

namespace Thrift.Socket

/-! ## `write` -/

/-- The loop of `write`, 186-197. `send buff t` is what `handle.send(buff)` does in state `t` of the
operating system: the number of bytes accepted, or an exception. `socket.error` is caught (196-197);
anything else is not, in particular not the `TTransportException` raised in the `try` block. `left` is
`have - sent`. The fuel is `have`: an iteration that does not raise sends at least one byte. -/
def writeLoop {τ : Type} (send : Bytes → τ → Except Exc Nat × τ) :
    (fuel : Nat) → (left : Int) → Bytes → τ → Option (Except Exc Unit × τ)
  | 0, left, _, t => if left > 0 then none else some (.ok (), t)
  | f + 1, left, buff, t =>
    if left > 0 then
      match send buff t with
      | (.error .osError, t) => some (.error TTransportException.UNKNOWN, t)
      | (.error e, t) => some (.error e, t)
      | (.ok plus, t) =>
        if plus = 0 then some (.error TTransportException.END_OF_FILE, t)
        else writeLoop send f (left - plus) (buff.drop plus) t
    else some (.ok (), t)

/-- `write`, 182-197 -/
def write {τ : Type} (send : Bytes → τ → Except Exc Nat × τ) (isOpen : Bool) (buff : Bytes) (t : τ) :
    Option (Except Exc Unit × τ) :=
  if isOpen then writeLoop send buff.length buff.length buff t
  else some (.error TTransportException.NOT_OPEN, t)

/-! ## `open` -/

/-- What can happen to the system calls of `open` for one address: `socket.socket` raises; `setsockopt`
or `settimeout` raises; `connect` raises `socket.error`; `connect` raises something else; `connect`
returns. -/
inductive Attempt where
  | noSocket (e : Exc)
  | badOption (e : Exc)
  | refused
  | broken (e : Exc)
  | accepted
  deriving DecidableEq, Repr

/-- System calls on sockets, each socket named after the position of its address. -/
inductive Call where
  | create (i : Nat)
  | connect (i : Nat)
  | close (i : Nat)
  deriving DecidableEq, Repr

/-- The outcome of `getaddrinfo` (`_resolveAddr`, 31-41): `socket.gaierror` (`none`), another exception,
or the addresses, here with what will happen to them. -/
inductive Resolved where
  | gaierror
  | raises (e : Exc)
  | addrs (l : List Attempt)

/-- The loop of `open`, 139-154, from address `i` on. Returns the result, the new `self.handle` and the
system calls. Logging is left out. -/
def openLoop : Nat → List Attempt → Except Exc Unit × Option Nat × List Call
  | _, [] => (.error TTransportException.NOT_OPEN, none, [])
  | i, a :: as =>
    match a with
    | .noSocket e => (.error e, none, [])
    | .badOption e => (.error e, none, [.create i])
    | .broken e => (.error e, none, [.create i, .connect i])
    | .accepted => (.ok (), some i, [.create i, .connect i])
    | .refused =>
      let r := openLoop (i + 1) as
      (r.1, r.2.1, [.create i, .connect i, .close i] ++ r.2.2)

/-- `open`, 127-157; `handle` is `self.handle`. `TSocket._do_open` (120-121) is `socket.socket`. -/
def open_ (handle : Option Nat) (res : Resolved) : Except Exc Unit × Option Nat × List Call :=
  match handle with
  | some h => (.error TTransportException.ALREADY_OPEN, some h, [])
  | none =>
    match res with
    | .gaierror => (.error TTransportException.NOT_OPEN, none, [])
    | .raises e => (.error e, none, [])
    | .addrs l => openLoop 0 l

/-- `close`, 43-46: `self.handle` afterwards and the system calls -/
def close (handle : Option Nat) : Option Nat × List Call :=
  match handle with
  | some h => (none, [.close h])
  | none => (none, [])

/-! ## `read` and `isOpen` -/

/-- What `recv` can do. The bytes of `data` are at most as many as were asked for. -/
inductive Recv where
  | data (b : Bytes)
  | timeout
  /-- `ECONNRESET` -/
  | reset
  /-- `EWOULDBLOCK` or `EAGAIN` -/
  | wouldBlock
  /-- another `socket.error` -/
  | failed
  /-- an exception that is not a `socket.error` -/
  | raises (e : Exc)
  deriving DecidableEq, Repr

/-- `read`, 159-180, given the outcome of `recv`; `bsd` says that the platform is darwin or freebsd. The
second component says whether the handle is closed. -/
def read (bsd : Bool) : Recv → Except Exc Bytes × Bool
  | .data b => if b.length = 0 then (.error TTransportException.END_OF_FILE, false) else (.ok b, false)
  | .timeout => (.error TTransportException.TIMED_OUT, false)
  | .reset => if bsd then (.error TTransportException.END_OF_FILE, true)
      else (.error TTransportException.UNKNOWN, false)
  | .wouldBlock => (.error TTransportException.UNKNOWN, false)
  | .failed => (.error TTransportException.UNKNOWN, false)
  | .raises e => (.error e, false)

/-- The socket as `isOpen` sees it: the timeout set on it and what has arrived. -/
structure Peer where
  timeout : Option Nat
  /-- what `recv(1, MSG_PEEK)` without blocking does -/
  peek : Recv
  closed : Bool := false
  deriving DecidableEq, Repr

/-- `isOpen`, 77-109: the answer, `self.handle` afterwards and the socket afterwards. `settimeout(0)` is
undone in the `finally` block, also when an exception that is not caught is raised. -/
def isOpen (handle : Option Peer) : Except Exc Bool × Option Peer × Option Peer :=
  match handle with
  | none => (.ok false, none, none)
  | some p =>
    let original := p.timeout
    let p0 := { p with timeout := some 0 }
    let restore := { p0 with timeout := original }
    match p0.peek with
    | .data b =>
      if b.length = 1 then (.ok true, some restore, some restore)
      else (.ok false, none, some { restore with closed := true })
    | .wouldBlock => (.ok true, some restore, some restore)
    | .raises .valueError => (.ok true, some restore, some restore)
    | .raises e => (.error e, some restore, some restore)
    | .timeout | .reset | .failed => (.ok false, none, some { restore with closed := true })

end Thrift.Socket
