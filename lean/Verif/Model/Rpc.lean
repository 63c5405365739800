import Verif.Model.Binary
import Verif.Model.Compact
import Verif.Model.Transport
import Verif.Model.Decorator
/-
Messages, services and remote calls: the code generated for `Client` and `Processor`
(`compiler/cpp/src/thrift/generate/t_py_generator.cc`), `TApplicationException`
(`lib/py/src/Thrift.py`), `TMultiplexedProtocol`, `TMultiplexedProcessor` and `TSerialization`.
-/

namespace Thrift

/-! ## Protocol objects -/

/-- A protocol class with objects of type `σ`. `share` and `mro`, its method resolution order, are about
`TProtocolDecorator`, see `Rpc.stored`; the classes of a protocol that is not decorated are taken as one. -/
structure Proto (σ : Type) where
  rd : RdOps σ
  wr : WrOps σ
  readMessageBegin : P σ (PyStr × Int × Int)
  readMessageEnd : P σ Unit
  writeMessageBegin : (name : PyStr) → (type seqid : Int) → W σ Unit
  writeMessageEnd : W σ Unit
  share : σ → σ → σ
  mro : List Decorator.Cls := [.protocol 0, .object]

/-- `TBinaryProtocol`; `readMessageEnd` and `writeMessageEnd` do nothing
(`TBinaryProtocol.py:64-65, 158-159`). -/
def Binary.proto (cfg : Binary.Cfg) : Proto Binary.St where
  rd := Binary.rd cfg
  wr := Binary.wr
  readMessageBegin := Binary.readMessageBegin cfg
  readMessageEnd := pure ()
  writeMessageBegin := Binary.writeMessageBegin cfg
  writeMessageEnd := pure ()
  share old _ := old

/-- `TCompactProtocol`; a decorated copy shares the lists `__structs` and `__containers`. -/
def Compact.proto (cfg : Compact.Cfg) : Proto Compact.St where
  rd := Compact.rd cfg
  wr := Compact.wr
  readMessageBegin := Compact.readMessageBegin cfg
  readMessageEnd := Compact.readMessageEnd
  writeMessageBegin := Compact.writeMessageBegin
  writeMessageEnd := Compact.writeMessageEnd
  share old new := { old with structs := new.structs, containers := new.containers }

namespace Rpc

/-- The text of a literal. -/
def pyStr (s : String) : PyStr := s.toList.map Char.toNat

/-! ## `TApplicationException` -/

/-- The attributes `type` and `message`, `Thrift.py:109-111`. -/
structure AppExc where
  type : Option Int := some 0
  message : Option PyStr := none
  deriving DecidableEq, Repr

section
variable {σ : Type} [HasDepth σ]

/-- One iteration of the loop of `read`, `Thrift.py:144-158`; `skipF` is `iprot.skip`. -/
def appReadBody (p : Proto σ) (fuel : Nat) (x : AppExc) : P σ (AppExc ⊕ AppExc) := do
  let (ftype, fid) ← p.rd.readFieldBegin
  if ftype = TType.STOP then pure (.inr x)
  else if fid = 1 then
    if ftype = TType.STRING then do
      let m ← p.rd.readString
      p.rd.readFieldEnd
      pure (.inl { x with message := some m })
    else do
      skip p.rd fuel skipDepth ftype
      p.rd.readFieldEnd
      pure (.inl x)
  else if fid = 2 then
    if ftype = TType.I32 then do
      let t ← p.rd.readI32
      p.rd.readFieldEnd
      pure (.inl { x with type := some t })
    else do
      skip p.rd fuel skipDepth ftype
      p.rd.readFieldEnd
      pure (.inl x)
  else do
    skip p.rd fuel skipDepth ftype
    p.rd.readFieldEnd
    pure (.inl x)

/-- `x = TApplicationException(); x.read(iprot)`, `Thrift.py:139-161`. -/
def appRead (p : Proto σ) (fuel : Nat) : P σ AppExc := do
  incDepth
  P.tryFinally (do
    p.rd.readStructBegin
    let x ← P.whileTrue fuel (appReadBody p fuel) {}
    p.rd.readStructEnd
    pure x) decDepth

/-- One optional field of `write`. -/
def appWriteField {α : Type} (p : Proto σ) (ttype fid : Int) (write : α → W σ Unit) : Option α → W σ Unit
  | none => pure ()
  | some a => do
    p.wr.writeFieldBegin ttype fid
    write a
    p.wr.writeFieldEnd

/-- `write`, `Thrift.py:163-178`. -/
def appWrite (p : Proto σ) (x : AppExc) : W σ Unit := do
  incDepthW
  W.tryFinally (do
    p.wr.writeStructBegin
    appWriteField p TType.STRING 1 p.wr.writeString x.message
    appWriteField p TType.I32 2 p.wr.writeI32 x.type
    p.wr.writeFieldStop
    p.wr.writeStructEnd) decDepth

/-! ## Services -/

/-- A function of a service: its name, the numbers of the generated classes `name_args` and
`name_result`, whether it returns something, the declared exceptions (numbers of their classes, in
the order of declaration), whether it is `oneway`. The attributes of `name_result` are `success` (if
the function is not void) followed by one attribute for each declared exception
(`t_py_generator.cc:1351-1376`). -/
structure Fn where
  name : PyStr
  argsId : Nat
  resultId : Nat := 0
  returns : Bool := false
  throws : List Nat := []
  oneway : Bool := false

/-- What a handler method does. -/
inductive Outcome where
  /-- returns an object, possibly `None` -/
  | returned (v : Option Val)
  /-- raises `TTransportException(type)` -/
  | transport (type : Int)
  /-- raises an instance of the generated exception class with this number -/
  | declared (sid : Nat) (attrs : List (Option Val))
  /-- raises `TApplicationException` -/
  | application (x : AppExc)
  /-- raises another `Exception` -/
  | other (n : Nat)
  /-- raises a `BaseException` that is not an `Exception`, for instance `SystemExit` -/
  | base (n : Nat)

/-- The attributes of a `name_result` object on which nothing was assigned. -/
def emptyResult (fn : Fn) : List (Option Val) :=
  (if fn.returns then [none] else []) ++ fn.throws.map fun _ => none

/-- The position of the attribute `success`: the first. -/
def setSuccess (fn : Fn) (v : Option Val) : List (Option Val) :=
  if fn.returns then (emptyResult fn).set 0 v else emptyResult fn

/-- The attribute of the `i`-th declared exception. -/
def setException (fn : Fn) (i : Nat) (v : Val) : List (Option Val) :=
  (emptyResult fn).set ((if fn.returns then 1 else 0) + i) (some v)

/-- What is sent back. -/
inductive Reply where
  | result (attrs : List (Option Val))
  | application (x : AppExc)

/-- The `try`/`except` chain of a generated `process_*` method, `t_py_generator.cc:2317-2375`: an
exception to raise, a reply with its message type, or (oneway) nothing. A class matches an `except`
clause if it is the same class: generated exceptions derive directly from `TException`. -/
def answer (fn : Fn) : Outcome → Except Exc (Option (Int × Reply))
  | .transport t => .error (.ttransport t)
  | .base n => .error (.user n)
  | .returned v =>
    if fn.oneway then .ok none else .ok (some (TMessageType.REPLY, .result (setSuccess fn v)))
  | .declared sid attrs =>
    if fn.oneway then .ok none
    else
      match fn.throws.findIdx? (· == sid) with
      | some i => .ok (some (TMessageType.REPLY, .result (setException fn i (.struct attrs))))
      | none => .ok (some (TMessageType.EXCEPTION,
          .application { type := some 6, message := some (pyStr "Internal error") }))
  | .application x => if fn.oneway then .ok none else .ok (some (TMessageType.EXCEPTION, .application x))
  | .other _ =>
    if fn.oneway then .ok none
    else .ok (some (TMessageType.EXCEPTION,
      .application { type := some 6, message := some (pyStr "Internal error") }))

/-- A message: header, body, end. -/
def message (p : Proto σ) (name : PyStr) (type seqid : Int) (body : W σ Unit) : W σ Unit := do
  p.writeMessageBegin name type seqid
  body
  p.writeMessageEnd
end

/-! ## The server side -/

/-- Everything a `process` call acts on: the protocol objects `iprot` and `oprot`, what was written to
`oprot.trans` since its last flush, the peer of `oprot.trans`, the state of the application. -/
structure Call (σ τ χ ω : Type) where
  inp : σ
  out : τ
  buf : Bytes := []
  sink : ω
  app : χ

/-- What a server is made of: the protocol classes, `oprot.trans.flush` as a function of the buffered
bytes, the schema and how structs are read and written, the bound on loops. -/
structure Env (σ τ ω : Type) where
  q : Proto τ
  flush : Bytes → ω → Except Exc Unit × ω
  sch : Schema
  mode : Mode := .gen
  fuel : Nat

section
variable {σ τ χ ω : Type} {α : Type}

/-- Call a method of `iprot`. -/
def onIn (m : P σ α) : P (Call σ τ χ ω) α := fun c =>
  (m c.inp).bind fun r => .ret (r.1, { c with inp := r.2 })

/-- Call a method of `oprot`. -/
def onOut (m : W τ α) : P (Call σ τ χ ω) α := fun c =>
  let r := m c.out c.buf
  .ret (r.1, { c with out := r.2.1, buf := r.2.2 })

/-- `oprot.trans.flush()`: the buffer is emptied and handed on (`TTransport.py:176-181, 295-306`). -/
def flush (env : Env σ τ ω) : P (Call σ τ χ ω) Unit := fun c =>
  let r := env.flush c.buf c.sink
  .ret (r.1, { c with buf := [], sink := r.2 })

/-- Call the application. -/
def onApp (f : χ → α × χ) : P (Call σ τ χ ω) α := fun c =>
  let r := f c.app
  .ret (.ok r.1, { c with app := r.2 })

/-- `flush` of a `TFramedTransport` as a function of what was written to it since the last flush
(`TTransport.py:295-306`, `Framed.flush`). -/
def framedFlush (k : Sink ω) (b : Bytes) (w : ω) : Except Exc Unit × ω :=
  let r := Framed.flush k { wbuf := (BytesIO.of []).write b } w
  (r.1, r.2.2)

/-- The attributes of a struct object. -/
def attrsOf : Val → List (Option Val)
  | .struct as => as
  | _ => []

/-- A handler: the method for a function, given the attributes of the arguments object (in the order
of field ids; Python passes them in the order of declaration). -/
abbrev Handler (χ : Type) := Fn → List (Option Val) → χ → Outcome × χ

variable [HasDepth σ] [HasDepth τ]

/-- `result.write(oprot)` -/
def writeReply (env : Env σ τ ω) (fn : Fn) : Reply → W τ Unit
  | .result attrs => writeVal env.q.wr env.sch env.mode (.struct fn.resultId) (.struct attrs)
  | .application x => appWrite env.q x

/-- `oprot.writeMessageBegin(..); result.write(oprot); oprot.writeMessageEnd(); oprot.trans.flush()`,
`t_py_generator.cc:2363-2369` -/
def sendReply (env : Env σ τ ω) (name : PyStr) (type seqid : Int) (body : W τ Unit) :
    P (Call σ τ χ ω) Unit := do
  onOut (message env.q name type seqid body)
  flush env

/-- A generated `process_*` method, `t_py_generator.cc:2088-2105, 2317-2375`. -/
def processFn (env : Env σ τ ω) (h : Handler χ) (p : Proto σ) (fn : Fn) (seqid : Int) :
    P (Call σ τ χ ω) Unit := do
  let args ← onIn (readVal p.rd env.sch env.mode env.fuel (.struct fn.argsId))
  onIn p.readMessageEnd
  let o ← onApp (h fn (attrsOf args))
  match answer fn o with
  | .error e => P.raise e
  | .ok none => pure ()
  | .ok (some (type, r)) => sendReply env fn.name type seqid (writeReply env fn r)

/-- `self._processMap[name]`: functions are entered in the order of `fns` (those of the extended
service first), so the last one with the name counts (`t_py_generator.cc:2009-2016`). -/
def lookup (fns : List Fn) (name : PyStr) : Option Fn := fns.reverse.find? (·.name == name)

/-- A processor acts on an input protocol object of any class with objects `σ`. -/
abbrev Processor (σ τ χ ω : Type) := Proto σ → P (Call σ τ χ ω) Unit

/-- The `_on_message_begin` callback, if there is one, `t_py_generator.cc:2033-2037`. -/
def onBegin (cb : Option (PyStr → Int → Int → χ → Except Exc Unit × χ)) (m : PyStr × Int × Int) :
    P (Call σ τ χ ω) Unit :=
  match cb with
  | none => pure ()
  | some f => do
    let r ← onApp (f m.1 m.2.1 m.2.2)
    P.lift r

/-- A generated `Processor.process`, `t_py_generator.cc:2030-2075`. The return value is not modelled;
the servers ignore it. -/
def process (env : Env σ τ ω) (h : Handler χ)
    (cb : Option (PyStr → Int → Int → χ → Except Exc Unit × χ)) (fns : List Fn) : Processor σ τ χ ω :=
  fun p => do
    let m ← onIn p.readMessageBegin
    onBegin cb m
    match lookup fns m.1 with
    | none => do
      onIn (skip p.rd env.fuel skipDepth TType.STRUCT)
      onIn p.readMessageEnd
      sendReply env m.1 TMessageType.EXCEPTION m.2.2
        (appWrite env.q { type := some 1, message := some (pyStr "Unknown function " ++ m.1) })
    | some fn => processFn env h p fn m.2.2

/-! ## Multiplexing -/

/-- `SEPARATOR = ":"`, `TMultiplexedProtocol.py:23` -/
def SEPARATOR : PyStr := [58]

/-- The class of `TMultiplexedProtocol(protocol, service)`: `writeMessageBegin`, `TMultiplexedProtocol.py:30-39`,
and everything else as in the decorated class (`Decorator.methods`), if `TProtocolDecorator.__new__` can make it. -/
def multiplexed (p : Proto σ) (service : PyStr) : Except Exc (Proto σ) :=
  match Decorator.decorate .multiplexed p.mro with
  | none => .error .typeError
  | some mro =>
    .ok { p with
      mro := mro
      writeMessageBegin := fun name type seqid =>
        if type = TMessageType.CALL ∨ type = TMessageType.ONEWAY then
          p.writeMessageBegin (service ++ SEPARATOR ++ name) type seqid
        else p.writeMessageBegin name type seqid }

/-- The class of `StoredMessageProtocol(protocol, m)`, `TMultiplexedProcessor.py:77-82`. -/
def storedClass (p : Proto σ) (m : PyStr × Int × Int) : Except Exc (Proto σ) :=
  match Decorator.decorate .stored p.mro with
  | none => .error .typeError
  | some mro => .ok { p with mro := mro, readMessageBegin := pure m }

/-- Run a processor on `StoredMessageProtocol(iprot, m)`. `TProtocolDecorator.__new__`
(`TProtocolDecorator.py:21-26`) makes an object whose attributes start as those of `iprot`; from then on
the two objects only share what is mutated in place (`share`). -/
def stored (proc : Processor σ τ χ ω) (p : Proto σ) (m : PyStr × Int × Int) : P (Call σ τ χ ω) Unit :=
  match storedClass p m with
  | .error e => P.raise e
  | .ok p' => fun c => (proc p' c).bind fun r => .ret (r.1, { r.2 with inp := p.share c.inp r.2.inp })

/-- `name.find(sep)` for a separator of one character: the text before and after its first
occurrence. -/
def splitFirst (c : Nat) : PyStr → Option (PyStr × PyStr)
  | [] => none
  | x :: xs =>
    if x = c then some ([], xs)
    else
      match splitFirst c xs with
      | none => none
      | some (a, b) => some (x :: a, b)

/-- `registerDefault` and `registerProcessor`, `TMultiplexedProcessor.py:29-43`: the default processor
and the dictionary, as an association list in which the first entry with the key counts. -/
structure Registry (σ τ χ ω : Type) where
  dflt : Option (Processor σ τ χ ω) := none
  services : List (PyStr × Processor σ τ χ ω) := []

def Registry.registerDefault (r : Registry σ τ χ ω) (p : Processor σ τ χ ω) : Registry σ τ χ ω :=
  { r with dflt := some p }
def Registry.registerProcessor (r : Registry σ τ χ ω) (name : PyStr) (p : Processor σ τ χ ω) :
    Registry σ τ χ ω :=
  { r with services := (name, p) :: r.services }

/-- `TMultiplexedProcessor.process`, `TMultiplexedProcessor.py:49-74`, after `readMessageBegin`. -/
def dispatch (r : Registry σ τ χ ω) (p : Proto σ) (m : PyStr × Int × Int) : P (Call σ τ χ ω) Unit :=
  if m.2.1 ≠ TMessageType.CALL ∧ m.2.1 ≠ TMessageType.ONEWAY then
    P.raise TProtocolException.NOT_IMPLEMENTED
  else
    match splitFirst 58 m.1 with
    | none =>
      match r.dflt with
      | some proc => stored proc p m
      | none => P.raise TProtocolException.NOT_IMPLEMENTED
    | some (service, call) =>
      match r.services.find? (·.1 == service) with
      | none => P.raise TProtocolException.NOT_IMPLEMENTED
      | some (_, proc) => stored proc p (call, m.2.1, m.2.2)

/-- `TMultiplexedProcessor.process`, `TMultiplexedProcessor.py:49-74`. -/
def multiProcess (r : Registry σ τ χ ω) : Processor σ τ χ ω := fun p => do
  let m ← onIn p.readMessageBegin
  dispatch r p m

end

/-! ## The client side -/

section
variable {σ ω : Type} [HasDepth σ]

/-- A generated client on one protocol object (`t_py_generator.cc:1484-1488`); `_seqid` stays 0. -/
structure Client (σ ω : Type) where
  prot : σ
  buf : Bytes := []
  sink : ω
  seqid : Int := 0

/-- What a client method does if the transport and the protocol do not fail. -/
inductive Result where
  | returned (v : Option Val)
  | declared (sid : Nat) (attrs : List (Option Val))
  | application (x : AppExc)

/-- `send_*`, `t_py_generator.cc:1632-1670`. -/
def send (p : Proto σ) (fl : Bytes → ω → Except Exc Unit × ω) (sch : Schema) (mode : Mode) (fn : Fn)
    (args : List (Option Val)) (c : Client σ ω) : Except Exc Unit × Client σ ω :=
  let type := if fn.oneway then TMessageType.ONEWAY else TMessageType.CALL
  match message p fn.name type c.seqid
      (writeVal p.wr sch mode (.struct fn.argsId) (.struct args)) c.prot c.buf with
  | (.error e, s, b) => (.error e, { c with prot := s, buf := b })
  | (.ok (), s, b) =>
    match fl b c.sink with
    | (r, w) => (r, { c with prot := s, buf := [], sink := w })

/-- The checks at the end of `recv_*`, `t_py_generator.cc:1711-1753`: the exceptions that are set, in
the order of declaration. -/
def firstRaised : List Nat → List (Option Val) → Option Result
  | sid :: _, some v :: _ => some (.declared sid (attrsOf v))
  | _ :: ts, none :: as => firstRaised ts as
  | _, _ => none

/-- `recv_*`, `t_py_generator.cc:1711-1753`: `result.success`, then the exceptions, then the end. -/
def outcome (fn : Fn) (attrs : List (Option Val)) : Result :=
  if fn.returns then
    match attrs with
    | some v :: _ => .returned (some v)
    | as =>
      match firstRaised fn.throws as.tail with
      | some r => r
      | none => .application { type := some 5, message := some (fn.name ++ pyStr " failed: unknown result") }
  else
    match firstRaised fn.throws attrs with
    | some r => r
    | none => .returned none

/-- `recv_*`, `t_py_generator.cc:1672-1753`. The name and the sequence id of the reply are not
checked. -/
def recv (p : Proto σ) (sch : Schema) (mode : Mode) (fuel : Nat) (fn : Fn) : P σ Result := do
  let m ← p.readMessageBegin
  if m.2.1 = TMessageType.EXCEPTION then do
    let x ← appRead p fuel
    p.readMessageEnd
    pure (.application x)
  else do
    let result ← readVal p.rd sch mode fuel (.struct fn.resultId)
    p.readMessageEnd
    pure (outcome fn (attrsOf result))

/-! ## `TSerialization`, `TSerialization.py:24-39` -/

/-- `serialize`, with a new protocol object `s` over a new `TMemoryBuffer` -/
def serialize (p : Proto σ) (s : σ) (sch : Schema) (mode : Mode) (sid : Nat) (v : Val) : Except Exc Bytes :=
  match writeVal p.wr sch mode (.struct sid) v s [] with
  | (.ok (), _, out) => .ok out
  | (.error e, _, _) => .error e

/-- `deserialize` with a new object `base` of the class with number `sid`; `none`: does not return -/
def deserialize (p : Proto σ) (s : σ) (sch : Schema) (mode : Mode) (fuel : Nat) (sid : Nat) (buf : Bytes) :
    Option (Except Exc Val) :=
  (exec (readVal p.rd sch mode fuel (.struct sid)) s buf).map fun r => r.1.1

end
end Rpc
end Thrift
