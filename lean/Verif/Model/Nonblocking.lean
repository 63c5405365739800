import Verif.Model.Transport
/-
`lib/py/src/server/TNonblockingServer.py`: connections, the select loop (the variant with
`select.poll`), the worker threads.
-/

namespace Thrift.Nonblocking

/-! ## `Connection`, 66-234 -/

/-- `WAIT_LEN` … `CLOSED`, 66-70 -/
inductive Status where
  | waitLen | waitMessage | waitProcess | sendAnswer | closed
  deriving DecidableEq, Repr

/-- `Message`, 95-104 -/
structure Message where
  offset : Nat
  len : Nat
  isHeader : Bool
  buffer : Bytes := []
  deriving DecidableEq, Repr

/-- `Message.end`, 102-104 -/
def Message.fin (m : Message) : Nat := m.offset + m.len

/-- `Message(0, 4, True)` -/
def Message.header : Message := { offset := 0, len := 4, isHeader := true }

/-- `Connection.__init__`, 119-130. `sock` says whether the socket is open. The attribute `len` is never
read and left out. -/
structure Conn where
  status : Status := .waitLen
  received : List Message := []
  reading : Message := Message.header
  rbuf : Bytes := []
  wbuf : Bytes := []
  remaining : Bool := false
  sock : Bool := true
  deriving DecidableEq, Repr

/-- `close`, 231-234 -/
def Conn.close (c : Conn) : Conn := { c with status := .closed, sock := false }

/-- What `socket.recv(8192)` does: at most 8192 bytes, or `socket.error` (which includes
`BlockingIOError`). -/
inductive Recv where
  | data (b : Bytes)
  | error
  deriving DecidableEq, Repr

/-- The inner loop of `read`, 151-164. Without fuel it would not end. -/
def parse : (fuel : Nat) → Conn → Option Conn
  | 0, _ => none
  | f + 1, c =>
    if c.rbuf.length ≥ c.reading.fin then
      if c.reading.isHeader then
        let mlen := unpackS (c.rbuf.take 4)
        if mlen < 0 then some c.close
        else parse f { c with
          reading := { offset := c.reading.fin, len := mlen.toNat, isHeader := false }
          status := .waitMessage }
      else parse f { c with
        received := c.received ++ [{ c.reading with buffer := c.rbuf }]
        rbuf := c.rbuf.drop c.reading.fin
        reading := Message.header }
    else some c

/-- The fuel for the inner loop: two iterations take at least four bytes. -/
def parseFuel (c : Conn) : Nat := 2 * c.rbuf.length + 2

/-- The outer loop of `read`, 140-169, given the results of the calls of `recv`; those that are not used
are returned. `none`: these results are not possible: there are not enough of them, or `recv` on a closed
socket gives data. On an exception the decorator `socket_exception`, 84-92, closes the connection. -/
def readLoop : List Recv → (first : Bool) → Conn → Option (Conn × List Recv)
  | [], _, _ => none
  | r :: rs, first, c =>
    match r with
    | .error => some (c.close, rs)
    | .data b =>
      if !c.sock then none
      else
      let done := decide (b.length < 8192)
      let c := { c with rbuf := c.rbuf ++ b }
      let c := if first ∧ b.length = 0 then c.close else c
      match parse (parseFuel c) c with
      | none => none
      | some c =>
        if c.received ≠ [] then some ({ c with status := .waitProcess, remaining := !done }, rs)
        else if done then some ({ c with remaining := false }, rs)
        else readLoop rs false c

/-- `read`, 132-169 -/
def Conn.read (rs : List Recv) (c : Conn) : Option (Except Exc Conn × List Recv) :=
  if ¬ (c.status = .waitLen ∨ c.status = .waitMessage) then some (.error .assertion, rs)
  else if c.received ≠ [] then some (.error .assertion, rs)
  else
    match readLoop rs true c with
    | none => none
    | some (c, rs) => some (.ok c, rs)

/-- What `socket.send` does: takes some bytes, or raises `socket.error`. -/
inductive Send where
  | sent (n : Nat)
  | error
  deriving DecidableEq, Repr

/-- `write`, 171-181: the bytes that went out. The kernel takes at most what it is given. -/
def Conn.write (r : Send) (c : Conn) : Except Exc Conn × Bytes :=
  if c.status ≠ .sendAnswer then (.error .assertion, [])
  else
    match (if c.sock then r else .error) with
    | .error => (.ok c.close, [])
    | .sent n =>
      if n ≥ c.wbuf.length then (.ok { c with status := .waitLen, wbuf := [] }, c.wbuf)
      else (.ok { c with wbuf := c.wbuf.drop n }, c.wbuf.take n)

/-- `ready`, 183-209. `struct.pack` raises for 2^31 bytes or more. -/
def Conn.ready (allOk : Bool) (message : Bytes) (c : Conn) : Except Exc Conn :=
  if c.status ≠ .waitProcess then .error .assertion
  else if !allOk then .ok c.close
  else if message.length = 0 then .ok { c with wbuf := [], status := .waitLen }
  else
    match packS 4 message.length with
    | .error e => .error e
    | .ok h => .ok { c with wbuf := h ++ message, status := .sendAnswer }

/-- `Worker.run`, 52-63, after `processor.process` raised (`none`) or returned, with the content of
`otrans`: `callback(True, ..)`, and `callback(False, b'')` if something raised. -/
def Conn.finish (reply : Option Bytes) (c : Conn) : Except Exc Conn :=
  match reply with
  | none => c.ready false []
  | some m =>
    match c.ready true m with
    | .ok c => .ok c
    | .error _ => c.ready false []

/-- `is_readable`, 217-220 -/
def Conn.isReadable (c : Conn) : Bool := c.status = .waitLen ∨ c.status = .waitMessage
/-- `is_writeable`, 211-214 -/
def Conn.isWriteable (c : Conn) : Bool := c.status = .sendAnswer
/-- `is_closed`, 222-225 -/
def Conn.isClosed (c : Conn) : Bool := c.status = .closed

/-! ## `TNonblockingServer`, 237-416 -/

/-- What the main thread still has to do in the current call of `handle`. -/
inductive Act where
  /-- `handle`, 371-372 -/
  | drain
  /-- `handle`, 373-380 -/
  | accept
  /-- `handle`, 381-395 -/
  | read (i : Nat) (selected : Bool)
  /-- `handle`, 396-397 -/
  | write (i : Nat)
  /-- `handle`, 398-399 -/
  | oob (i : Nat)
  deriving DecidableEq, Repr

/-- The server. `conns` are all `Connection` objects ever made; they are named by their number.
`clients` are the keys of the dictionary `clients`. The code uses file descriptors as keys, which
the operating system gives out again after a close; here every connection has its own key.
`todo` is the rest of the current call of `handle`. `tasks` is the queue; `running` are the tasks that
workers have taken. `crashed`: an exception has left `handle`, and with it `serve`. -/
structure Srv where
  conns : List Conn := []
  clients : List Nat := []
  todo : List Act := []
  tasks : List (Nat × Message) := []
  running : List (Nat × Message) := []
  crashed : Bool := false
  deriving DecidableEq, Repr

/-- What can be seen from outside. -/
inductive Obs where
  /-- bytes came out of `recv` -/
  | received (i : Nat) (b : Bytes)
  /-- a request was queued; what its transport holds for the processor to read -/
  | dispatched (i : Nat) (input : Bytes)
  /-- the processor finished: `none` if it raised, else what it wrote -/
  | finished (i : Nat) (reply : Option Bytes)
  /-- bytes were accepted by `send` -/
  | sent (i : Nat) (b : Bytes)
  | closed (i : Nat)
  /-- the main thread waited in `poll` -/
  | waited
  | accepted (i : Nat)
  /-- an exception left `handle` -/
  | crashed
  deriving DecidableEq, Repr

/-- Everything the environment decides. -/
inductive Event where
  /-- a call of `handle` begins; if it gets to `poll.poll()`, the answer is: connections to read, to
  write, with error; whether the wake-up pipe and the listening socket are readable -/
  | select (drain accept : Bool) (rs ws xs : List Nat)
  /-- the next step of the main thread; results of `recv` -/
  | recv (rs : List Recv)
  /-- the next step of the main thread; result of `send` -/
  | send (r : Send)
  /-- the next step of the main thread, where no result is needed; for `accept`: whether a connection
  was accepted -/
  | main (ok : Bool)
  /-- a worker takes a task -/
  | take
  /-- the worker on the `k`-th running task finishes -/
  | finish (k : Nat) (reply : Option Bytes)
  deriving DecidableEq, Repr

/-- `_poll_select`, 329-343: connections in `clients` that are readable and have something left. -/
def Srv.remaining (s : Srv) : List Nat :=
  s.clients.filter fun i =>
    match s.conns[i]? with
    | some c => c.isReadable && (c.remaining || !c.received.isEmpty)
    | none => false

/-- The connections that are registered with `poll` for reading when `poll.poll()` is called. -/
def Srv.pollsRead (s : Srv) (i : Nat) : Bool :=
  s.clients.contains i && match s.conns[i]? with | some c => c.isReadable | none => false
/-- The connections that are registered for writing. -/
def Srv.pollsWrite (s : Srv) (i : Nat) : Bool :=
  s.clients.contains i && match s.conns[i]? with | some c => c.isWriteable | none => false

/-- `_poll_select`, 336-341: closed connections leave `clients`. -/
def Srv.sweep (s : Srv) : Srv :=
  { s with clients := s.clients.filter fun i =>
      match s.conns[i]? with | some c => !c.isClosed | none => true }

/-- `_poll_select` and the beginning of `handle`, 322-368, as one step: between looking at a connection
and the answer of `poll` only workers could change it, and they change only connections that are not
registered. `poll` reports each descriptor once, and only registered ones. -/
def Srv.select (s : Srv) (drain accept : Bool) (rs ws xs : List Nat) : Option (Srv × List Obs) :=
  if s.todo ≠ [] then none
  else if s.remaining ≠ [] then
    some ({ s.sweep with todo := s.remaining.map (.read · false) }, [])
  else if (rs ++ ws ++ xs).Nodup ∧ rs.all s.pollsRead ∧ ws.all s.pollsWrite ∧
      xs.all (fun i => s.pollsRead i || s.pollsWrite i) then
    some ({ s.sweep with
      todo := (if drain then [.drain] else []) ++ (if accept then [.accept] else []) ++
        rs.map (.read · true) ++ ws.map .write ++ xs.map .oob }, [.waited])
  else none

/-- An exception leaves `handle`. -/
def Srv.crash (s : Srv) : Srv × List Obs := ({ s with crashed := true, todo := [] }, [.crashed])

/-- `handle`, 385-395, after the read: `poll.unregister` raises `ValueError` for the descriptor of a closed
socket. -/
def Srv.dispatch (s : Srv) (i : Nat) (c : Conn) : Srv × List Obs :=
  match c.received with
  | [] => ({ s with conns := s.conns.set i c }, [])
  | m :: ms =>
    let c := { c with status := .waitProcess }
    if !c.sock then ({ s with conns := s.conns.set i c } : Srv).crash
    else ({ s with conns := s.conns.set i { c with received := ms }, tasks := s.tasks ++ [(i, m)] },
      [.dispatched i (m.buffer.drop m.offset)])

/-- The bytes in the results of `recv` that were used. -/
def taken (rs left : List Recv) : Bytes :=
  (rs.take (rs.length - left.length)).flatMap fun r => match r with | .data b => b | .error => []

/-- The connection was open before and is closed now. -/
def closing (i : Nat) (c c' : Conn) : List Obs := if c.sock ∧ !c'.sock then [.closed i] else []

/-- The next step of the main thread inside `handle`. -/
def Srv.mainStep (s : Srv) (a : Act) (e : Event) : Option (Srv × List Obs) :=
  match a, e with
  | .drain, .main _ => some (s, [])
  | .accept, .main ok =>
    if ok then some ({ s with conns := s.conns ++ [{}], clients := s.clients ++ [s.conns.length] },
      [.accepted s.conns.length])
    else some (s, [])
  | .read i true, .recv rs =>
    match s.conns[i]? with
    | none => some s.crash
    | some c =>
      match c.read rs with
      | none => none
      | some (.error _, _) => some s.crash
      | some (.ok c', left) =>
        if left ≠ [] then none
        else
          let r := s.dispatch i c'
          some (r.1, [.received i (taken rs left)] ++ closing i c c' ++ r.2)
  | .read i false, .main _ =>
    match s.conns[i]? with
    | none => some s.crash
    | some c => some (s.dispatch i c)
  | .write i, .send r =>
    match s.conns[i]? with
    | none => some s.crash
    | some c =>
      match c.write r with
      | (.error _, _) => some s.crash
      | (.ok c', b) => some ({ s with conns := s.conns.set i c' }, [.sent i b] ++ closing i c c')
  | .oob i, .main _ =>
    match s.conns[i]? with
    | none => some s.crash
    | some c => some ({ s with conns := s.conns.set i c.close }, closing i c c.close)
  | _, _ => none

/-- One event. `none`: the event cannot happen in this state. -/
def Srv.step (threads : Nat) (s : Srv) (e : Event) : Option (Srv × List Obs) :=
  match e with
  | .take =>
    match s.tasks with
    | [] => none
    | t :: ts =>
      if s.running.length < threads then some ({ s with tasks := ts, running := s.running ++ [t] }, []) else none
  | .finish k reply =>
    match s.running[k]? with
    | none => none
    | some (i, _) =>
      match s.conns[i]? with
      | none => none
      | some c =>
        match c.finish reply with
        -- the worker thread ends with an exception; the connection stays as it is
        | .error _ => some ({ s with running := s.running.eraseIdx k }, [])
        | .ok c' =>
          some ({ s with running := s.running.eraseIdx k, conns := s.conns.set i c' },
            [.finished i reply] ++ closing i c c')
  | .select d a rs ws xs => if s.crashed then none else s.select d a rs ws xs
  | e =>
    if s.crashed then none
    else
      match s.todo with
      | [] => none
      | a :: as => ({ s with todo := as } : Srv).mainStep a e

/-- A list of events, executed. -/
def Srv.run (threads : Nat) (s : Srv) : List Event → Option (Srv × List Obs)
  | [] => some (s, [])
  | e :: es =>
    match s.step threads e with
    | none => none
    | some (s', o) =>
      match s'.run threads es with
      | none => none
      | some (s'', os) => some (s'', o ++ os)

end Thrift.Nonblocking
