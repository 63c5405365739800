import Verif.Model.Base
/-
`lib/py/src/server/TServer.py` and `lib/py/src/server/TProcessPoolServer.py`: the loops of the blocking servers,
as threads (or processes) whose calls get their results from the environment.

Not modelled: `TServer.__init__`, `listen` (before the loop), logging, the main process of `TProcessPoolServer`
(it only waits), the exit code of forked processes, asynchronous exceptions (an exception comes from one of the calls below).
-/

namespace Thrift.Servers

/-- Exceptions, as far as the handlers tell them apart. -/
inductive PyExc where
  /-- `TTransportException` -/
  | ttransport
  /-- `IOError`, which is `os.error` and `socket.error` -/
  | io
  /-- any other `Exception` -/
  | other
  | keyboard
  /-- `SystemExit` -/
  | exit
  deriving DecidableEq, Repr

/-- `except Exception` catches it. -/
def PyExc.isException : PyExc → Bool
  | .ttransport | .io | .other => true
  | .keyboard | .exit => false

inductive Kind where
  | simple | threaded | pool | forking | processPool
  deriving DecidableEq, Repr

/-- The server, and whether the input protocol factory is a `THeaderProtocolFactory`. -/
structure Cfg where
  kind : Kind
  header : Bool := false
  deriving DecidableEq, Repr

/-- The calls made for one connection. -/
inductive Stage where
  /-- `inputTransportFactory.getTransport(client)` -/
  | getI
  /-- `inputProtocolFactory.getProtocol(itrans)` -/
  | getIP
  /-- `outputTransportFactory.getTransport(client)` -/
  | getO
  /-- `outputProtocolFactory.getProtocol(otrans)` -/
  | getOP
  /-- `processor.process(iprot, oprot)` -/
  | process
  /-- `itrans.close()` -/
  | closeI
  /-- `otrans.close()` -/
  | closeO
  deriving DecidableEq, Repr

/-- What comes after a call that returned; `none` at the end. `TSimpleServer.serve`, TServer.py 87-110; `TThreadedServer.handle`,
135-158; `TThreadPoolServer.serveClient`, 184-209; the child of `TForkingServer.serve`, 277-304;
`TProcessPoolServer.serveClient`, TProcessPoolServer.py 75-91, which makes both transports first and
has no case for THeaderProtocol. -/
def Stage.after (cfg : Cfg) : Stage → Option Stage
  | .getI => some (if cfg.kind = .processPool then .getO else .getIP)
  | .getIP => some (if cfg.kind = .processPool then .getOP else if cfg.header then .process else .getO)
  | .getO => some (if cfg.kind = .processPool then .getIP else .getOP)
  | .getOP => some .process
  | .process => some .process
  | .closeI => if cfg.kind ≠ .processPool ∧ cfg.header then none else some .closeO
  | .closeO => none

/-- Where a thread or process is. -/
inductive PC where
  /-- `serverTransport.accept()` -/
  | accept
  /-- TThreadedServer: `Thread(..).start()` -/
  | start (c : Nat)
  /-- TThreadPoolServer: `clients.put(client)` -/
  | put (c : Nat)
  /-- TThreadPoolServer: `clients.get()` -/
  | take
  /-- TForkingServer: `os.fork()` -/
  | fork (c : Nat)
  /-- TForkingServer, parent: `collect_children` -/
  | collect (c : Nat)
  /-- TForkingServer, parent: the calls on its own transports -/
  | parent (c : Nat) (st : Stage)
  /-- serving `c`; `pend` is the exception that `finally` will raise again (TForkingServer only) -/
  | body (c : Nat) (st : Stage) (pend : Option PyExc)
  /-- TProcessPoolServer: `while self.isRunning.value` -/
  | check
  /-- ended -/
  | done
  /-- ended by an exception -/
  | dead (e : PyExc)
  deriving DecidableEq, Repr

/-- A thread or process; `children` is the attribute of its copy of a TForkingServer. -/
structure Thread where
  pc : PC
  children : List Nat := []
  deriving DecidableEq, Repr

/-- Connections are numbered as they are accepted. -/
structure Srv where
  next : Nat := 0
  queue : List Nat := []
  threads : List Thread
  running : Bool := true
  deriving DecidableEq, Repr

/-- What a call does. -/
inductive Res where
  | ok
  /-- `accept` returned a client -/
  | client
  /-- `accept` returned `None`, `waitpid` returned 0 -/
  | nothing
  /-- `fork` in the parent, `waitpid` -/
  | pid (n : Nat)
  | raise (e : PyExc)
  deriving DecidableEq, Repr

/-- What can be seen. -/
inductive Obs where
  | accepted (t c : Nat)
  | acceptRaised (t : Nat) (e : PyExc)
  /-- no thread or process could be made for the connection -/
  | startRaised (t c : Nat) (e : PyExc)
  /-- a call for connection `c` -/
  | did (t c : Nat) (st : Stage) (r : Res)
  /-- a call of the forking parent for its copy of connection `c` -/
  | parent (t c : Nat) (st : Stage) (r : Res)
  deriving DecidableEq, Repr

inductive Event where
  /-- thread `t` makes its next call, with this result -/
  | go (t : Nat) (r : Res)
  /-- TProcessPoolServer.stop, 124-128 -/
  | stop
  deriving DecidableEq, Repr

/-- The server when the loops start: the pool threads after the main thread (TServer.py 211-219), the processes
(TProcessPoolServer.py 101-109). -/
def init (cfg : Cfg) (workers : Nat) : Srv :=
  match cfg.kind with
  | .pool => { threads := { pc := .accept } :: List.replicate workers { pc := .take } }
  | .processPool => { threads := List.replicate workers { pc := .check } }
  | _ => { threads := [{ pc := .accept }] }

/-- The head of the accept loop. -/
def loopHead (cfg : Cfg) : PC := if cfg.kind = .processPool then .check else .accept

/-- After `accept` returned a client: TServer.py 87, 127, 228, 263; TProcessPoolServer.py 69. -/
def afterAccept (cfg : Cfg) (c : Nat) : PC :=
  match cfg.kind with
  | .simple => .body c .getI none
  | .threaded => .start c
  | .pool => .put c
  | .forking => .fork c
  | .processPool => .body c .getI none

/-- An exception from `accept`: not caught in TSimpleServer (83) and TForkingServer (259); `except Exception` in TThreadedServer (130-133) and
TThreadPoolServer (229-230); TProcessPoolServer.workerProcess, 70-73. -/
def acceptRaises (cfg : Cfg) (e : PyExc) : PC :=
  match cfg.kind with
  | .simple => .dead e
  | .forking => .dead e
  | .threaded => if e.isException then .accept else .dead e
  | .pool => if e.isException then .accept else .dead e
  | .processPool => if e.isException then .check else .done

/-- The handlers at the end of the loop of TForkingServer, 308-311. -/
def outer (e : PyExc) : PC := if e.isException then .accept else .dead e

/-- The serving code returns. -/
def returned (cfg : Cfg) (pend : Option PyExc) : PC :=
  match cfg.kind with
  | .simple => .accept
  | .threaded => .done
  | .pool => .take
  | .processPool => .check
  | .forking =>
    match pend with
    | none => .done
    | some e => outer e

/-- The serving code raises. `serveThread`, TServer.py 175-182; `workerProcess`, TProcessPoolServer.py 64-73. -/
def raised (cfg : Cfg) (e : PyExc) : PC :=
  match cfg.kind with
  | .simple => .dead e
  | .threaded => .dead e
  | .pool => if e.isException then .take else .dead e
  | .processPool => if e.isException then .check else .done
  | .forking => outer e

/-- After a call that returned. -/
def continued (cfg : Cfg) (c : Nat) (st : Stage) (pend : Option PyExc) : PC :=
  match st.after cfg with
  | some st' => .body c st' pend
  | none => returned cfg pend

/-- After a call that raised. `process`: `except TTransportException`, `except Exception`; in the forked child
additionally `finally`, 292-304, and `try_close`, 251-255, which catches `IOError`. -/
def failed (cfg : Cfg) (c : Nat) (st : Stage) (pend : Option PyExc) (e : PyExc) : PC :=
  match st with
  | .process =>
    if e.isException then .body c .closeI none
    else if cfg.kind = .forking then .body c .closeI (some e)
    else raised cfg e
  | .closeI => if cfg.kind = .forking ∧ e = .io then continued cfg c .closeI pend else raised cfg e
  | .closeO => if cfg.kind = .forking ∧ e = .io then continued cfg c .closeO pend else raised cfg e
  | _ => raised cfg e

/-- The calls of the forking parent, 270-275: `getTransport` twice, `try_close` twice. -/
def parentStep (c : Nat) (st : Stage) : Res → Option PC
  | .ok =>
    match st with
    | .getI => some (.parent c .getO)
    | .getO => some (.parent c .closeI)
    | .closeI => some (.parent c .closeO)
    | .closeO => some .accept
    | _ => none
  | .raise e =>
    match st with
    | .getI => some (outer e)
    | .getO => some (outer e)
    | .closeI => some (if e = .io then .parent c .closeO else outer e)
    | .closeO => some (if e = .io then .accept else outer e)
    | _ => none
  | _ => none

/-- `thread t` goes on at `pc`. -/
def Srv.at_ (s : Srv) (t : Nat) (th : Thread) (pc : PC) : Srv := { s with threads := s.threads.set t { th with pc := pc } }

/-- One call of thread `t`. -/
def Srv.go (cfg : Cfg) (s : Srv) (t : Nat) (th : Thread) (r : Res) : Option (Srv × List Obs) :=
  match th.pc, r with
  | .accept, .client => some ({ s with next := s.next + 1 }.at_ t th (afterAccept cfg s.next), [.accepted t s.next])
  | .accept, .nothing => some (s.at_ t th (loopHead cfg), [])
  | .accept, .raise e => some (s.at_ t th (acceptRaises cfg e), [.acceptRaised t e])
  -- TServer.py 127-133
  | .start c, .ok =>
    let s := s.at_ t th .accept
    some ({ s with threads := s.threads ++ [{ pc := .body c .getI none }] }, [])
  | .start c, .raise e => some (s.at_ t th (if e.isException then .accept else .dead e), [.startRaised t c e])
  | .put c, .ok => some ({ s with queue := s.queue ++ [c] }.at_ t th .accept, [])
  | .take, .ok =>
    match s.queue with
    | [] => none
    | c :: q => some ({ s with queue := q }.at_ t th (.body c .getI none), [])
  -- TServer.py 263-268
  | .fork c, .pid n =>
    let child := { th with pc := .body c .getI none }
    let s := s.at_ t { th with children := th.children ++ [n] } (.collect c)
    some ({ s with threads := s.threads ++ [child] }, [])
  | .fork c, .raise e => some (s.at_ t th (outer e), [.startRaised t c e])
  -- `collect_children`, 313-323; `list.remove` raises `ValueError`
  | .collect c, r =>
    if th.children = [] then
      match r with
      | .ok => some (s.at_ t th (.parent c .getI), [])
      | _ => none
    else
      match r with
      | .nothing => some (s.at_ t th (.parent c .getI), [])
      | .raise .io => some (s.at_ t th (.parent c .getI), [])
      | .pid n =>
        if n ∈ th.children then some (s.at_ t { th with children := th.children.erase n } (.collect c), [])
        else some (s.at_ t th (outer .other), [])
      | _ => none
  | .parent c st, r =>
    match parentStep c st r with
    | none => none
    | some pc => some (s.at_ t th pc, [.parent t c st r])
  | .body c st pend, .ok => some (s.at_ t th (continued cfg c st pend), [.did t c st .ok])
  | .body c st pend, .raise e => some (s.at_ t th (failed cfg c st pend e), [.did t c st (.raise e)])
  | .check, .ok => some (s.at_ t th (if s.running then .accept else .done), [])
  | _, _ => none

/-- One event; `none`: it cannot happen. -/
def Srv.step (cfg : Cfg) (s : Srv) : Event → Option (Srv × List Obs)
  | .go t r =>
    match s.threads[t]? with
    | none => none
    | some th => s.go cfg t th r
  | .stop => some ({ s with running := false }, [])

/-- A list of events, executed. -/
def Srv.run (cfg : Cfg) (s : Srv) : List Event → Option (Srv × List Obs)
  | [] => some (s, [])
  | e :: es =>
    match s.step cfg e with
    | none => none
    | some (s', o) =>
      match s'.run cfg es with
      | none => none
      | some (s'', os) => some (s'', o ++ os)

end Thrift.Servers
