import Verif.Model.Transport
/-
`lib/py/src/TTornado.py`: the lock, the reading and writing of frames, and the loop of the server.

Coroutines run on one event loop, so that what a coroutine does between two `yield`s is one step. Futures of the lock are
numbered in the order in which they are made.

Not modelled: `open`, timeouts, `set_close_callback`, the deprecation warning, logging.
-/

namespace Thrift.Tornado

/-! ## `_Lock`, 37-64 -/

structure Lock where
  /-- how many futures were made -/
  made : Nat := 0
  waiters : List Nat := []
  /-- the futures whose result is set -/
  set : List Nat := []
  deriving DecidableEq, Repr

/-- `acquired`, 41-42 -/
def Lock.acquired (l : Lock) : Bool := l.waiters.length > 0

/-- `acquire` up to the `yield`, 46-49: the new state and the future to wait for. (A `Future` counts as true.) -/
def Lock.acquire (l : Lock) : Lock × Option Nat :=
  let blocker := if l.acquired then l.waiters.getLast? else none
  ({ l with made := l.made + 1, waiters := l.waiters ++ [l.made] }, blocker)

/-- `release`, 54-57 -/
def Lock.release (l : Lock) : Except Exc Lock :=
  match l.waiters with
  | [] => .error .assertion
  | f :: ws => .ok { l with waiters := ws, set := f :: l.set }

/-- A coroutine that uses the lock: `with (yield lock.acquire()): ...` -/
inductive Task where
  /-- suspended at 51, waiting for this future -/
  | waiting (blocker : Nat)
  | inside
  | left
  deriving DecidableEq, Repr

structure St where
  lock : Lock := {}
  tasks : List Task := []
  deriving DecidableEq, Repr

inductive Event where
  /-- a coroutine calls `acquire` -/
  | acquire
  /-- the event loop resumes a coroutine -/
  | resume (i : Nat)
  /-- a coroutine leaves the `with` block, 59-64 -/
  | leave (i : Nat)
  deriving DecidableEq, Repr

inductive Obs where
  | granted (i : Nat)
  | released (i : Nat)
  /-- the assertion in `release` failed -/
  | failed (i : Nat)
  deriving DecidableEq, Repr

/-- One event; `none`: it cannot happen. A coroutine is resumed when the future it waits for has a result. -/
def St.step (s : St) : Event → Option (St × List Obs)
  | .acquire =>
    let i := s.lock.made
    match s.lock.acquire with
    | (l, none) => some ({ lock := l, tasks := s.tasks ++ [.inside] }, [.granted i])
    | (l, some b) => some ({ lock := l, tasks := s.tasks ++ [.waiting b] }, [])
  | .resume i =>
    match s.tasks[i]? with
    | some (.waiting b) => if b ∈ s.lock.set then some ({ s with tasks := s.tasks.set i .inside }, [.granted i]) else none
    | _ => none
  | .leave i =>
    match s.tasks[i]? with
    | some .inside =>
      match s.lock.release with
      | .ok l => some ({ lock := l, tasks := s.tasks.set i .left }, [.released i])
      | .error _ => some ({ s with tasks := s.tasks.set i .left }, [.failed i])
    | _ => none

def St.run (s : St) : List Event → Option (St × List Obs)
  | [] => some (s, [])
  | e :: es =>
    match s.step e with
    | none => none
    | some (s', o) =>
      match s'.run es with
      | none => none
      | some (s'', os) => some (s'', o ++ os)

/-! ## `TTornadoStreamTransport` -/

/-- What a call of the stream raises: `socket.error` or `IOError` (also `StreamClosedError`), `StreamBufferFullError`, anything else. -/
inductive Fail where
  | io | bufferFull | other (n : Nat)
  deriving DecidableEq, Repr

/-- `io_exception_context`, TTornado.py 134-145 -/
def Fail.exc : Fail → Exc
  | .io => TTransportException.END_OF_FILE
  | .bufferFull => TTransportException.UNKNOWN
  | .other n => .user n

/-- A call of `readFrame`, TTornado.py 147-157. -/
inductive Call where
  /-- suspended in `acquire`, 150 -/
  | waiting (blocker : Nat)
  /-- suspended in `read_bytes(4)`, 152 -/
  | header
  /-- suspended in `read_bytes(frame_length)`, 156 -/
  | body
  | over
  deriving DecidableEq, Repr

/-- The state of a `TTornadoStreamTransport`, TTornado.py 81-88, with its calls of `readFrame`. `open`, `close` and the timeouts are
not modelled. -/
structure Conn where
  lock : Lock := {}
  calls : List Call := []
  /-- the read that the stream has not answered yet: the call it belongs to and the number of bytes asked for -/
  reading : Option (Nat × Int) := none
  wbuf : BytesIO := BytesIO.of []
  deriving DecidableEq, Repr

inductive TEvent where
  /-- `readFrame` is called -/
  | call
  /-- the event loop resumes a call that waits for the lock -/
  | resume (i : Nat)
  /-- the stream answers the read -/
  | data (b : Bytes)
  /-- the read raises -/
  | fail (f : Fail)
  /-- `write` is called -/
  | write (b : WArg)
  /-- `flush` is called; `stream.write` may raise -/
  | flush (r : Option Fail)
  deriving DecidableEq, Repr

inductive TObs where
  /-- call `i` gets these bytes from the stream -/
  | got (i : Nat) (b : Bytes)
  /-- call `i` ends -/
  | ended (i : Nat) (r : Except Exc Bytes)
  /-- bytes are given to the stream -/
  | sent (b : Bytes)
  /-- a `write` or `flush` ends -/
  | done (r : Except Exc Unit)
  deriving DecidableEq, Repr

/-- Call `i` leaves the `with` block, TTornado.py 150 and 61-64, and ends. -/
def Conn.finish (s : Conn) (i : Nat) (r : Except Exc Bytes) : Conn × List TObs :=
  match s.lock.release with
  | .ok l => ({ s with lock := l, calls := s.calls.set i .over }, [.ended i r])
  | .error e => ({ s with calls := s.calls.set i .over }, [.ended i (.error e)])

/-- Call `i` calls `stream.read_bytes(n)`, TTornado.py 152 and 156. A stream that is already reading raises an `AssertionError`. -/
def Conn.ask (s : Conn) (i : Nat) (st : Call) (n : Int) : Conn × List TObs :=
  match s.reading with
  | some _ => s.finish i (.error .assertion)
  | none => ({ s with calls := s.calls.set i st, reading := some (i, n) }, [])

/-- Call `i` goes on after the bytes `b` were read, TTornado.py 153-157. -/
def Conn.goOn (s : Conn) (i : Nat) (b : Bytes) : Conn × List TObs :=
  match s.calls[i]? with
  | some .header =>
    if b.length = 0 then s.finish i (.error TTransportException.END_OF_FILE)
    else s.ask i .body (unpackS b)
  | _ => s.finish i (.ok b)

/-- `flush`, TTornado.py 162-168, given the result of `pack`. -/
def Conn.send (s : Conn) (hdr : Except Exc Bytes) (frame : Bytes) (r : Option Fail) : Conn × List TObs :=
  match hdr with
  | .error e => (s, [.done (.error e)])
  | .ok h =>
    match r with
    | none => ({ s with wbuf := BytesIO.of [] }, [.sent (h ++ frame), .done (.ok ())])
    | some f => ({ s with wbuf := BytesIO.of [] }, [.done (.error f.exc)])

/-- One event; `none`: it cannot happen. The stream answers a read with exactly the number of bytes asked for (what it does with a
negative number is not modelled: it may answer anything); for a header it may also answer with nothing, 153. `write` is TTornado.py 159-160. -/
def Conn.step (s : Conn) : TEvent → Option (Conn × List TObs)
  | .call =>
    let i := s.calls.length
    match s.lock.acquire with
    | (l, none) => some (({ s with lock := l, calls := s.calls ++ [.header] } : Conn).ask i .header 4)
    | (l, some b) => some ({ s with lock := l, calls := s.calls ++ [.waiting b] }, [])
  | .resume i =>
    match s.calls[i]? with
    | some (.waiting b) => if b ∈ s.lock.set then some (s.ask i .header 4) else none
    | _ => none
  | .data b =>
    match s.reading with
    | none => none
    | some (i, n) =>
      if (b.length : Int) = n ∨ n < 0 ∨ (b = [] ∧ s.calls[i]? = some .header) then
        let r := { s with reading := none }.goOn i b
        some (r.1, .got i b :: r.2)
      else none
  | .fail f =>
    match s.reading with
    | none => none
    | some (i, _) => some ({ s with reading := none }.finish i (.error f.exc))
  | .write (.bytes b) => some ({ s with wbuf := s.wbuf.write b }, [.done (.ok ())])
  | .write .other => some (s, [.done (.error .typeError)])
  | .flush r => some (s.send (packS 4 s.wbuf.value.length) s.wbuf.value r)

def Conn.run (s : Conn) : List TEvent → Option (Conn × List TObs)
  | [] => some (s, [])
  | e :: es =>
    match s.step e with
    | none => none
    | some (s', o) =>
      match s'.run es with
      | none => none
      | some (s'', os) => some (s'', o ++ os)

end Thrift.Tornado
