import Verif.Model.Twisted
import Verif.Model.Tornado
/-
`TTornadoServer.handle_stream`, `lib/py/src/TTornado.py:181-203`, with the processor that the compiler generates for Tornado
(`t_py_generator.cc` 2022-2062 and 2088-2105, 2215-2285): the coroutine that serves one connection.

`readFrame` and the stream are the environment here (`Model/Tornado.lean` has `readFrame`). One protocol object writes all the replies of
a connection; every frame has its own protocol object for reading.

Not modelled: `_on_message_begin`; names of functions that coincide (see `Model/Names.lean`); that `readFrame` itself is cancelled. `process` returns
`None` after an unknown function, and `yield None` goes on at once (Tornado 4.5 and later).
-/

namespace Thrift.TornadoServer
open Rpc

export Twisted (Env)

/-- Where `handle_stream` is -/
inductive Phase where
  /-- at the condition of the loop, 188 -/
  | head
  /-- suspended in `readFrame`, 190 -/
  | reading
  /-- suspended in `yield gen.maybe_future(self._handler.name(..))`, cc 2232 -/
  | waiting (fn : Fn) (seqid : Int)
  | ended

/-- `oprot`, 184, and the write buffer of `trans` -/
structure St (τ : Type) where
  phase : Phase := .head
  prot : τ
  wbuf : Bytes := []

/-- What the environment does. With `w` it says what `stream.write` raises if it is called in this step. -/
inductive Event where
  /-- `trans.stream.closed()` -/
  | look (closed : Bool)
  /-- `readFrame` returns or raises -/
  | frame (r : Except Exc Bytes) (w : Option Tornado.Fail)
  /-- The handler is done: at once or later, which makes no difference for this coroutine. -/
  | done (o : Outcome) (w : Option Tornado.Fail)

inductive Obs where
  /-- the handler method is called with these arguments -/
  | invoked (fn : Fn) (args : List (Option Val))
  /-- bytes are given to the stream -/
  | sent (b : Bytes)
  /-- `trans.close()`, 201; the coroutine ends -/
  | closed
  /-- the coroutine ends with an exception that is no `Exception`; `trans` is not closed -/
  | escaped (n : Nat)
  /-- the coroutine does not return -/
  | hangs

section
variable {σ τ : Type} [HasDepth σ] [HasDepth τ]

/-- `except Exception`, 199-201 -/
def St.close (s : St τ) : St τ × List Obs := ({ s with phase := .ended }, [.closed])

/-- `flush` of `TTornadoStreamTransport`, TTornado.py 162-168, with the frame `b` and the outcome of `struct.pack("!i", frame_length)` -/
def St.flush (s : St τ) (b : Bytes) (w : Option Tornado.Fail) : Except Exc Bytes → St τ × List Obs
  | .error _ => St.close { s with wbuf := b }
  | .ok h =>
    match w with
    | some _ => St.close { s with wbuf := [] }
    | none => ({ s with phase := .head, wbuf := [] }, [.sent (h ++ b)])

/-- `writeMessageBegin`, `write`, `writeMessageEnd` and `flush` -/
def St.send (env : Env σ τ) (s : St τ) (name : PyStr) (type seqid : Int) (body : W τ Unit) (w : Option Tornado.Fail) : St τ × List Obs :=
  match message env.q name type seqid body s.prot s.wbuf with
  | (.error _, t, b) => St.close { s with prot := t, wbuf := b }
  | (.ok (), t, b) => St.flush { s with prot := t } b w (packS 4 b.length)

/-- `result.write(oprot)` -/
def writeReply (env : Env σ τ) (fn : Fn) : Reply → W τ Unit
  | .result attrs => writeVal env.q.wr env.sch env.mode (.struct fn.resultId) (.struct attrs)
  | .application x => appWrite env.q x

/-- `process` on a frame, cc 2030-2062, and the beginning of `process_*`, cc 2102-2105 -/
def St.process (env : Env σ τ) (s : St τ) (b : Bytes) (w : Option Tornado.Fail) : St τ × List Obs :=
  match exec env.p.readMessageBegin env.s₀ b with
  | none => ({ s with phase := .ended }, [.hangs])
  | some ((.error _, _), _) => s.close
  | some ((.ok m, i), rest) =>
    match lookup env.fns m.1 with
    | none =>
      match exec (do
          skip env.p.rd env.fuel skipDepth TType.STRUCT
          env.p.readMessageEnd) i rest with
      | none => ({ s with phase := .ended }, [.hangs])
      | some ((.error _, _), _) => s.close
      | some ((.ok (), _), _) =>
        s.send env m.1 TMessageType.EXCEPTION m.2.2 (appWrite env.q { type := some 1, message := some (pyStr "Unknown function " ++ m.1) }) w
    | some fn =>
      match exec (do
          let args ← readVal env.p.rd env.sch env.mode env.fuel (.struct fn.argsId)
          env.p.readMessageEnd
          pure args) i rest with
      | none => ({ s with phase := .ended }, [.hangs])
      | some ((.error _, _), _) => s.close
      | some ((.ok args, _), _) => ({ s with phase := .waiting fn m.2.2 }, [.invoked fn (attrsOf args)])

/-- The rest of `process_*`, cc 2248-2281. The clauses are those of the blocking code in another order (`Rpc.answer`): no class matches
two of them. -/
def St.done (env : Env σ τ) (s : St τ) (fn : Fn) (seqid : Int) (w : Option Tornado.Fail) : Outcome → St τ × List Obs
  | .base n => ({ s with phase := .ended }, [.escaped n])
  | o =>
    match answer fn o with
    | .error _ => s.close
    | .ok none => ({ s with phase := .head }, [])
    | .ok (some (type, r)) => s.send env fn.name type seqid (writeReply env fn r) w

/-- One event; `none`: it cannot happen. The loop is TTornado.py 188-198. -/
def St.step (env : Env σ τ) (s : St τ) : Event → Option (St τ × List Obs)
  | .look closed =>
    match s.phase with
    | .head => some ({ s with phase := if closed then .ended else .reading }, [])
    | _ => none
  | .frame r w =>
    match s.phase with
    | .reading =>
      match r with
      | .ok b => some (s.process env b w)
      | .error e => if e = TTransportException.END_OF_FILE then some ({ s with phase := .ended }, []) else some s.close
    | _ => none
  | .done o w =>
    match s.phase with
    | .waiting fn seqid => some (s.done env fn seqid w o)
    | _ => none

def St.run (env : Env σ τ) (s : St τ) : List Event → Option (St τ × List Obs)
  | [] => some (s, [])
  | e :: es =>
    match s.step env e with
    | none => none
    | some (s', o) =>
      match s'.run env es with
      | none => none
      | some (s'', os) => some (s'', o ++ os)

end
end Thrift.TornadoServer
