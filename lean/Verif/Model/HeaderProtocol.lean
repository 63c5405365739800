import Verif.Model.Header
import Verif.Model.Rpc
/-
`lib/py/src/protocol/THeaderProtocol.py`, and generated clients and processors that use it.

The methods that read and write the parts of a message hand over to `self._protocol` (83-143, 170-225), a `TBinaryProtocolAccelerated` or
`TCompactProtocolAccelerated` object; they are modelled by the methods of these classes without the C extension. The recursion counter belongs to the `THeaderProtocol`
object in the code and to `self._protocol` here; it is 0 between messages in either case.
-/

namespace Thrift.HeaderProtocol
open Rpc

/-- `self._protocol` -/
inductive Sub where
  | binary (s : Binary.St)
  | compact (s : Compact.St)
  deriving DecidableEq, Repr

/-- A `THeaderProtocol` object -/
structure Obj where
  trans : Header.St
  sub : Sub
  deriving DecidableEq, Repr

/-- `PROTOCOLS_BY_ID[id](self.trans)`, 27-30 and 154 -/
def newSub (id : Int) : Option Sub :=
  if id = Header.BINARY then some (.binary {}) else if id = Header.COMPACT then some (.compact {}) else none

/-- `_set_protocol`, 145-156. The exception is a `TApplicationException` whose type is `TProtocolException.INVALID_PROTOCOL`, which is 7. -/
def setProtocol (o : Obj) : Except Exc Unit × Obj :=
  match Header.protocolIdOf o.trans with
  | .error e => (.error e, o)
  | .ok id =>
    match newSub id with
    | none => (.error (.tapplication 7), o)
    | some s => (.ok (), { o with sub := s })

/-- `__init__`, 57-67, with a new `THeaderTransport` -/
def create (allowed : List Int) (default : Int) : Except Exc Obj :=
  let o := setProtocol { trans := { allowed := allowed, protocolId := default }, sub := .binary {} }
  match o.1 with
  | .ok () => .ok o.2
  | .error e => .error e

/-- `self.trans.write` -/
def Obj.write (o : Obj) (b : Bytes) : Obj := { o with trans := (Header.write (.bytes b) o.trans).2 }

/-- The first line of the `except` clause of `readMessageBegin`, 163: `self._protocol.writeMessageBegin(b"", TMessageType.EXCEPTION, 0)`. It writes the first bytes of the
message (`TBinaryProtocol.py` 56, `TCompactProtocol.py` 164-174) and then encodes the name, `bytes(b"", 'utf-8')`, which raises `TypeError`
(`TProtocol.py` 131, `TCompactProtocol.py` 175). -/
def reject (o : Obj) : Exc × Obj :=
  match o.sub with
  | .binary _ => (.typeError, o.write [0x80, 0x01, 0x00, 0x03])
  | .compact s => if s.state = .CLEAR then (.typeError, o.write [0x82, 0x61, 0x00]) else (.assertion, o)

section
variable {ν : Type}

/-- `readMessageBegin`, 158-166, before `self._protocol.readMessageBegin()`. `net` is `read` of the underlying transport. -/
def begin_ (z : Zlib) (net : Nat → ν → Option (Except Exc Bytes × ν)) (o : Obj) (t : ν) : Option ((Except Exc Unit × Obj) × ν) :=
  match (Header.readFrame z 0 o.trans).run net t with
  | none => none
  | some ((r, h), t') =>
    let o' := { o with trans := h }
    let s := match r with
      | .ok () => setProtocol o'
      | .error e => (.error e, o')
    match s with
    | (.error (.tapplication _), o'') => let j := reject o''; some ((.error j.1, j.2), t')
    | (r, o'') => some ((r, o''), t')

/-! ### Processors -/

/-- What a generated processor is made of -/
structure Service (χ : Type) where
  sch : Schema
  mode : Mode := .gen
  fuel : Nat
  fns : List Fn
  handler : Handler χ

/-- What `process` leaves: its result, the protocol object, the application, and the two directions of the underlying transport -/
structure Served (χ ω ν : Type) where
  result : Except Exc Unit
  obj : Obj
  app : χ
  sink : ω
  net : ν

/-- A buffer after these bytes were written to it -/
def bufOf (b : Bytes) : BytesIO := { value := b, pos := b.length }

variable {σ χ ω : Type}

/-- The processor while it acts on `self._protocol`. What is flushed is collected, see `finish`. The second part of the application is the sequence id of the request, with
which the reply is written. -/
def Service.env (S : Service χ) (p : Proto σ) : Env σ σ (List Bytes) where
  q := p
  flush := fun b l => (.ok (), l ++ [b])
  sch := S.sch
  mode := S.mode
  fuel := S.fuel

def Service.handle (S : Service χ) : Handler (χ × Int) := fun fn as a =>
  let r := S.handler fn as a.1
  (r.1, (r.2, a.2))

def remember (_name : PyStr) (_type seqid : Int) (a : χ × Int) : Except Exc Unit × (χ × Int) := (.ok (), (a.1, seqid))

/-- The end of `process`: if the processor has flushed, then after `writeMessageBegin` (81-83), which sets `sequence_id`, and with the transport in the state in which
reading has left it, since generated processors read all they read before they write. -/
def finish (z : Zlib) (k : Sink ω) (wrap : σ → Sub) (before : Bytes) (r : Except Exc Unit) (c : Call σ σ (χ × Int) (List Bytes)) (h : Header.St) (w : ω) (t : ν) :
    Served χ ω ν :=
  match c.sink with
  | [] =>
    { result := r, obj := { trans := { h with wbuf := bufOf c.buf }, sub := wrap (if c.buf = before then c.inp else c.out) }, app := c.app.1, sink := w, net := t }
  | b :: _ =>
    let f := Header.flush z k { h with wbuf := bufOf b, sequenceId := c.app.2 } w
    { result := f.1, obj := { trans := f.2.1, sub := wrap c.out }, app := c.app.1, sink := f.2.2, net := t }

/-- `process` after `_set_protocol`. In the code one object reads and writes; here the replies are written with a copy from before the message. Reading leaves the object as
it was, as far as it matters for writing (`Spec.Receives`, `Idle`). -/
def serveWith [HasDepth σ] (z : Zlib) (k : Sink ω) (net : Nat → ν → Option (Except Exc Bytes × ν)) (S : Service χ) (p : Proto σ) (wrap : σ → Sub) (s : σ)
    (h : Header.St) (x : χ) (w : ω) (t : ν) : Option (Served χ ω ν) :=
  match (process (S.env p) S.handle (some remember) S.fns p { inp := s, out := s, buf := h.wbuf.value, sink := [], app := (x, 0) }).run
      (P.over (Header.read z) net) (h, t) with
  | none => none
  | some ((r, c), (h', t')) => some (finish z k wrap h.wbuf.value r c h' w t')

/-- `processor.process(prot, prot)` with one `THeaderProtocol` object for both directions, as the servers call it (`TServer.py` 88-102, 137-151, 187-201, 278-295).
`none`: it does not return. -/
def serve (z : Zlib) (k : Sink ω) (net : Nat → ν → Option (Except Exc Bytes × ν)) (S : Service χ) (o : Obj) (x : χ) (w : ω) (t : ν) : Option (Served χ ω ν) :=
  match begin_ z net o t with
  | none => none
  | some ((.error e, o'), t') => some { result := .error e, obj := o', app := x, sink := w, net := t' }
  | some ((.ok (), o'), t') =>
    match o'.sub with
    | .binary s => serveWith z k net S (Binary.proto {}) .binary s o'.trans x w t'
    | .compact s => serveWith z k net S (Compact.proto {}) .compact s o'.trans x w t'

/-- The loop of a server over one connection, `while True: processor.process(prot, prot)` (`TServer.py` 101-102, 150-151, 200-201, 294-295; `TProcessPoolServer.py` 83-84), up to the `n`-th message. An exception
ends it. -/
def serveN (z : Zlib) (k : Sink ω) (net : Nat → ν → Option (Except Exc Bytes × ν)) (S : Service χ) : Nat → Obj → χ → ω → ν → Option (Served χ ω ν)
  | 0, o, x, w, t => some { result := .ok (), obj := o, app := x, sink := w, net := t }
  | n + 1, o, x, w, t =>
    match serve z k net S o x w t with
    | none => none
    | some r =>
      match r.result with
      | .ok () => serveN z k net S n r.obj r.app r.sink r.net
      | .error _ => some r

/-! ### Clients -/

/-- `send_*` with `self._protocol` -/
def sendWith [HasDepth σ] (z : Zlib) (k : Sink ω) (sch : Schema) (mode : Mode) (fn : Fn) (as : List (Option Val)) (seqid : Int) (p : Proto σ) (wrap : σ → Sub) (s : σ)
    (h : Header.St) (w : ω) : Except Exc Unit × Obj × ω :=
  let fl := fun b (x : Header.St × ω) => let r := Header.flush z k { x.1 with wbuf := bufOf b, sequenceId := seqid } x.2; (r.1, (r.2.1, r.2.2))
  let r := Rpc.send p fl sch mode fn as { prot := s, buf := h.wbuf.value, sink := (h, w), seqid := seqid }
  (r.1, { trans := { r.2.sink.1 with wbuf := bufOf r.2.buf }, sub := wrap r.2.prot }, r.2.sink.2)

/-- `send_*` of a generated client -/
def send (z : Zlib) (k : Sink ω) (sch : Schema) (mode : Mode) (fn : Fn) (as : List (Option Val)) (seqid : Int) (o : Obj) (w : ω) : Except Exc Unit × Obj × ω :=
  match o.sub with
  | .binary s => sendWith z k sch mode fn as seqid (Binary.proto {}) .binary s o.trans w
  | .compact s => sendWith z k sch mode fn as seqid (Compact.proto {}) .compact s o.trans w

/-- `recv_*` after `_set_protocol` -/
def recvWith [HasDepth σ] (z : Zlib) (net : Nat → ν → Option (Except Exc Bytes × ν)) (sch : Schema) (mode : Mode) (fuel : Nat) (fn : Fn) (p : Proto σ) (wrap : σ → Sub)
    (s : σ) (h : Header.St) (t : ν) : Option ((Except Exc Result × Obj) × ν) :=
  match (Rpc.recv p sch mode fuel fn s).run (P.over (Header.read z) net) (h, t) with
  | none => none
  | some ((r, s'), (h', t')) => some ((r, { trans := h', sub := wrap s' }), t')

/-- `recv_*` of a generated client -/
def recv (z : Zlib) (net : Nat → ν → Option (Except Exc Bytes × ν)) (sch : Schema) (mode : Mode) (fuel : Nat) (fn : Fn) (o : Obj) (t : ν) :
    Option ((Except Exc Result × Obj) × ν) :=
  match begin_ z net o t with
  | none => none
  | some ((.error e, o'), t') => some ((.error e, o'), t')
  | some ((.ok (), o'), t') =>
    match o'.sub with
    | .binary s => recvWith z net sch mode fuel fn (Binary.proto {}) .binary s o'.trans t'
    | .compact s => recvWith z net sch mode fuel fn (Compact.proto {}) .compact s o'.trans t'

end
end Thrift.HeaderProtocol
