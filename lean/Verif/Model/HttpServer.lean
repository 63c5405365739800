import Verif.Model.Http
import Verif.Model.Rpc
/-
`lib/py/src/server/THttpServer.py`: a server that answers HTTP POST requests.

The framework `http.server` reads the request line and the headers, calls `do_POST` and closes the connection afterwards (HTTP/1.0). If `do_POST` raises, nothing
is sent. Not modelled: the options for TLS (119-132) and `shutdown`.
-/

namespace Thrift.HttpServer
open Rpc

/-- `self.rfile`, a `BufferedReader` of the connection behind the headers: the bytes that the client sends, and whether it keeps the connection open after them. -/
structure File where
  data : Bytes := []
  open_ : Bool := true

/-- `TFileObjectTransport.read`, `TTransport.py` 336-337, for this file: `read(n)` waits for `n` bytes or the end of the stream. `none`: it waits for ever. -/
def fileRead (n : Nat) (f : File) : Option (Except Exc Bytes × File) :=
  if n ≤ f.data.length ∨ f.open_ = false then some (.ok (f.data.take n), { f with data := f.data.drop n }) else none

/-- What can be seen from outside: a response with status 200, the value of `Content-Length` if there is one, and the body; or the call of a method of the handler. -/
inductive Event where
  | response (length : Option Nat) (body : Bytes)
  | called (name : PyStr)
  deriving DecidableEq, Repr

/-- The application, `thttpserver._replied`, and what happened during the request. -/
structure Web (χ : Type) where
  user : χ
  replied : Bool := false
  log : List Event := []

/-- A server: protocol classes with new objects of them, the generated processor, and which exceptions of the application are instances of `ResponseException` (29-41),
with what their functions send. -/
structure Server (σ τ χ : Type) where
  p : Proto σ
  inp : σ
  q : Proto τ
  out : τ
  sch : Schema
  mode : Mode := .gen
  fuel : Nat
  fns : List Fn
  handler : Handler χ
  override : Nat → Option (List Event) := fun _ => none

section
variable {σ τ χ : Type}

/-- `on_begin`, 104-115 -/
def onBegin (_name : PyStr) (type _seqid : Int) (w : Web χ) : Except Exc Unit × Web χ :=
  if type = TMessageType.ONEWAY then (.ok (), { w with log := w.log ++ [.response none []], replied := true }) else (.ok (), w)

/-- The handler, with a record of the call -/
def handle (h : Handler χ) : Handler (Web χ) := fun fn as w =>
  let r := h fn as w.user
  (r.1, { w with user := r.2, log := w.log ++ [.called fn.name] })

/-- `otrans` is a `TMemoryBuffer`, whose `flush` does nothing (`TTransport.py` 238-239): the sink is what was written before. -/
def Server.env (S : Server σ τ χ) : Env σ τ Bytes where
  q := S.q
  flush := fun b w => (.ok (), w ++ b)
  sch := S.sch
  mode := S.mode
  fuel := S.fuel

/-- The `try` statement, 89-102, after `process` -/
def finish (S : Server σ τ χ) (c : Call σ τ (Web χ) Bytes) : Except Exc Unit → Except Exc Unit × Web χ
  | .ok () =>
    if c.app.replied then (.ok (), c.app)
    else (.ok (), { c.app with log := c.app.log ++ [.response (some (c.sink ++ c.buf).length) (c.sink ++ c.buf)] })
  | .error (.user n) =>
    match S.override n with
    | some es => (.ok (), { c.app with log := c.app.log ++ es })
    | none => (.error (.user n), c.app)
  | .error e => (.error e, c.app)

/-- `process`, 90-91. A negative `Content-Length` is like 0 for `TBufferedTransport`. -/
def processRequest [HasDepth σ] [HasDepth τ] (S : Server σ τ χ) (size : Int) (f : File) (x : χ) :
    Option ((Except Exc Unit × Call σ τ (Web χ) Bytes) × (Buffered.St × File)) :=
  (process S.env (handle S.handler) (some onBegin) S.fns S.p { inp := S.inp, out := S.out, sink := [], app := { user := x } }).run
    (P.over Buffered.read fileRead) ({ rbufSize := size.toNat }, f)

/-- `do_POST`, 80-102. `size` is `int(self.headers['Content-Length'])`: `TypeError` without the header, `ValueError` if it is not a number. `none`: the method does
not return. -/
def doPost [HasDepth σ] [HasDepth τ] (S : Server σ τ χ) (size : Except Exc Int) (f : File) (x : χ) : Option ((Except Exc Unit × Web χ) × File) :=
  match size with
  | .error e => some ((.error e, { user := x }), f)
  | .ok n =>
    match processRequest S n f x with
    | none => none
    | some ((r, c), (_, f')) => some (finish S c r, f')

/-! ### A client of the server -/

/-- The first response: what a client receives on the connection, which is closed afterwards -/
def firstResponse : List Event → Option Bytes
  | [] => none
  | .response _ b :: _ => some b
  | .called _ :: es => firstResponse es

/-- What becomes of a request with this body, sent by a `THttpClient`, which waits for the answer with the connection open. If there is none, `e` is the exception of
`getresponse` in the client (after a timeout or the end of the connection). -/
def fate [HasDepth σ] [HasDepth τ] (S : Server σ τ χ) (e : Exc) (body : Bytes) (x : χ) : Http.Fate Bytes × χ :=
  match doPost S (.ok body.length) { data := body } x with
  | none => (.noAnswer e, x)
  | some ((_, w), _) =>
    match firstResponse w.log with
    | some b => (.answered { status := 200, msg := [("Content-Type", "application/x-thrift")], body := b }, w.user)
    | none => (.noAnswer e, w.user)

/-- `THttpClient.flush` connected to the server -/
def clientFlush [HasDepth σ] [HasDepth τ] (S : Server σ τ χ) (cfg : Http.Cfg) (e : Exc) (b : Bytes) (w : Http.St Bytes × χ) : Except Exc Unit × (Http.St Bytes × χ) :=
  let s := { w.1 with wbuf := w.1.wbuf.write b }
  let r := fate S e s.wbuf.value w.2
  let s' := Http.flush cfg r.1 s
  (s'.1, (s'.2, r.2))

end

/-! ### Several requests at the same time

`server_class` may be a class that handles each request in a thread of its own (58). `_replied` is an attribute of the server, and there is one callback
`_on_message_begin` in the processor, for all requests. -/

/-- Where a request is -/
inductive Pc where
  | new      -- before 82
  | began    -- after 82
  | armed    -- after 90
  | running  -- after `_on_message_begin` was called
  | done     -- after 95-102
  deriving DecidableEq, Repr

structure Shared where
  replied : Bool := false
  callback : Option Nat := none
  pc : Nat → Pc := fun _ => .new
  /-- the responses so far, for each request: `true` for one without body, from `on_begin` -/
  sent : Nat → List Bool := fun _ => []

def Shared.send (s : Shared) (i : Nat) (early : Bool) : Shared := { s with sent := fun j => if j = i then s.sent j ++ [early] else s.sent j }

def Shared.at (s : Shared) (i : Nat) (pc : Pc) : Shared := { s with pc := fun j => if j = i then pc else s.pc j }

/-- One step of request `i`; `oneway` tells which messages are of type `ONEWAY`. -/
def step (oneway : Nat → Bool) (i : Nat) (s : Shared) : Shared :=
  match s.pc i with
  | .new => { s with replied := false }.at i .began
  | .began => { s with callback := some i }.at i .armed
  | .armed =>
    match oneway i, s.callback with
    | true, some j => { s.send j true with replied := true }.at i .running
    | _, _ => s.at i .running
  | .running => (if s.replied then s else s.send i false).at i .done
  | .done => s

def steps (oneway : Nat → Bool) : List Nat → Shared → Shared
  | [], s => s
  | i :: is, s => steps oneway is (step oneway i s)

end Thrift.HttpServer
