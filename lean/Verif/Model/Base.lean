/-
Shared vocabulary of the model: bytes, Python texts, exceptions as values, programs that
read from a transport, and code that writes to a transport.
-/

namespace Thrift

/-- A Python `bytes` object. -/
abbrev Bytes := List UInt8

/-- A Python `str`: a sequence of code points (surrogates included, as in Python). -/
abbrev PyStr := List Nat

/-- Exceptions as values. The payload of the three Thrift exception classes is their
`type` attribute (`lib/py/src/protocol/TProtocol.py:26-40`,
`lib/py/src/transport/TTransport.py:26-41`, `lib/py/src/Thrift.py:98-137`); messages are
dropped. The other constructors are the built-in Python exceptions that the modelled code
can raise. `user n` is an exception of the application. -/
inductive Exc where
  | tprotocol (type : Int)
  | ttransport (type : Int)
  | tapplication (type : Int)
  | eof
  | structError
  | assertion
  | keyError
  | indexError
  | typeError
  | valueError
  | attributeError
  | unicodeError
  | osError
  | overflowError
  | user (n : Nat)
  deriving DecidableEq, Repr

/-! `TProtocolException` types, `lib/py/src/protocol/TProtocol.py:29-36`. -/
namespace TProtocolException
def UNKNOWN : Exc := .tprotocol 0
def INVALID_DATA : Exc := .tprotocol 1
def NEGATIVE_SIZE : Exc := .tprotocol 2
def SIZE_LIMIT : Exc := .tprotocol 3
def BAD_VERSION : Exc := .tprotocol 4
def NOT_IMPLEMENTED : Exc := .tprotocol 5
def DEPTH_LIMIT : Exc := .tprotocol 6
def INVALID_PROTOCOL : Exc := .tprotocol 7
end TProtocolException

/-! `TTransportException` types, `lib/py/src/transport/TTransport.py:29-36`. -/
namespace TTransportException
def UNKNOWN : Exc := .ttransport 0
def NOT_OPEN : Exc := .ttransport 1
def ALREADY_OPEN : Exc := .ttransport 2
def TIMED_OUT : Exc := .ttransport 3
def END_OF_FILE : Exc := .ttransport 4
def NEGATIVE_SIZE : Exc := .ttransport 5
def SIZE_LIMIT : Exc := .ttransport 6
def INVALID_CLIENT_TYPE : Exc := .ttransport 7
end TTransportException

deriving instance DecidableEq for Except

/-! ## Programs that read from a transport -/

/-- An interaction tree: a computation that may call `trans.read(n)` and continue with the
answer (bytes or an exception). `diverge` marks a loop that ran out of fuel; it is neither a
value nor an exception. -/
inductive Prog (α : Type) where
  | ret (a : α)
  | read (n : Nat) (k : Except Exc Bytes → Prog α)
  | diverge

namespace Prog
/-- Sequencing of interaction trees. -/
def bind {α β : Type} : Prog α → (α → Prog β) → Prog β
  | .ret a, f => f a
  | .read n k, f => .read n (fun r => (k r).bind f)
  | .diverge, _ => .diverge

/-- Run an interaction tree against a transport. `step n t` is what `read(n)` does on a
transport in state `t`; `none` means that the read itself never returns. -/
def run {α τ : Type} (step : Nat → τ → Option (Except Exc Bytes × τ)) :
    Prog α → τ → Option (α × τ)
  | .ret a, t => some (a, t)
  | .read n k, t =>
    match step n t with
    | none => none
    | some (r, t') => (k r).run step t'
  | .diverge, _ => none
end Prog

/-- A method of a protocol object with state `σ` that reads from the transport. It returns a
value or raises; in both cases the mutations of the protocol object are kept. -/
def P (σ α : Type) := σ → Prog (Except Exc α × σ)

namespace P
variable {σ α β : Type}

def pure (a : α) : P σ α := fun s => .ret (.ok a, s)

def bind (m : P σ α) (k : α → P σ β) : P σ β := fun s =>
  (m s).bind fun r =>
    match r with
    | (.ok a, s') => k a s'
    | (.error e, s') => .ret (.error e, s')

instance : Monad (P σ) where
  pure := P.pure
  bind := P.bind

/-- `raise e` -/
def raise (e : Exc) : P σ α := fun s => .ret (.error e, s)
/-- read the protocol object -/
def get : P σ σ := fun s => .ret (.ok s, s)
/-- replace the protocol object -/
def set (s : σ) : P σ Unit := fun _ => .ret (.ok (), s)
/-- update the protocol object -/
def modify (f : σ → σ) : P σ Unit := fun s => .ret (.ok (), f s)
/-- a loop that does not end -/
def diverge : P σ α := fun _ => .diverge
/-- `assert c` -/
def assert (c : Bool) : P σ Unit := if c then P.pure () else raise .assertion
/-- the result of a pure computation that can raise -/
def lift (r : Except Exc α) : P σ α := fun s => .ret (r, s)

/-- `try: m finally: f` where `f` cannot raise: `f` runs whether `m` returned or raised. -/
def tryFinally (m : P σ α) (f : σ → σ) : P σ α := fun s =>
  (m s).bind fun r => .ret (r.1, f r.2)

/-- `self.trans.read(n)` -/
def transRead (n : Nat) : P σ Bytes := fun s => .read n fun r => .ret (r, s)

/-- The loop of `readAll`, `lib/py/src/transport/TTransport.py:62-69`. `left` is
`sz - have`. The fuel is `sz`: every iteration that does not raise adds at least one byte, so
it cannot run out. -/
def readAllLoop : (fuel left : Nat) → (buff : Bytes) → P σ Bytes
  | _, 0, buff => P.pure buff
  | 0, _ + 1, _ => diverge
  | f + 1, l + 1, buff =>
    P.bind (transRead (l + 1)) fun chunk =>
      if chunk.length = 0 then raise .eof
      else readAllLoop f (l + 1 - chunk.length) (buff ++ chunk)

/-- `TTransportBase.readAll(sz)`, `lib/py/src/transport/TTransport.py:59-71`. For `sz <= 0` the
loop body is never entered and `b''` is returned. -/
def readAll (sz : Int) : P σ Bytes := readAllLoop sz.toNat sz.toNat []

/-- `for _ in range(n): xs.append(m())` -/
def repeatN : Nat → P σ α → P σ (List α)
  | 0, _ => P.pure []
  | n + 1, m => P.bind m fun a => P.bind (repeatN n m) fun as => P.pure (a :: as)

/-- `for _ in range(n): m()` -/
def repeatN_ : Nat → P σ Unit → P σ Unit
  | 0, _ => P.pure ()
  | n + 1, m => P.bind m fun _ => repeatN_ n m

/-- `while True: ...` with a loop-carried value: `body a` either breaks with a result or
continues with a new value. Without fuel the loop does not end. -/
def whileTrue : (fuel : Nat) → (body : α → P σ (α ⊕ β)) → α → P σ β
  | 0, _, _ => diverge
  | f + 1, body, a => P.bind (body a) fun r =>
    match r with
    | .inl a' => whileTrue f body a'
    | .inr b => P.pure b

end P

/-- What `read(n)` does on a `TMemoryBuffer` whose unread part is `b`
(`lib/py/src/transport/TTransport.py:232-233`, `io.BytesIO.read`). -/
def memStep (n : Nat) (b : Bytes) : Option (Except Exc Bytes × Bytes) :=
  some (.ok (b.take n), b.drop n)

/-- Run a reading method in protocol state `s` over a memory buffer with unread part `b`. The
result is the value or the exception, the protocol state and the bytes left unread; `none`
means that the call does not return. -/
def exec {σ α : Type} (m : P σ α) (s : σ) (b : Bytes) :
    Option ((Except Exc α × σ) × Bytes) :=
  (m s).run memStep b

/-! ## Code that writes to a transport -/

/-- A method of a protocol object with state `σ` that writes. The second state component is
what has been passed to `trans.write` so far. The transports that are used under a protocol
(`TMemoryBuffer`, `TBufferedTransport`, `TFramedTransport`, `THeaderTransport`) append to a
buffer, so a write does not fail. Mutations and writes made before an exception are kept. -/
def W (σ α : Type) := σ → Bytes → Except Exc α × σ × Bytes

namespace W
variable {σ α β : Type}
def pure (a : α) : W σ α := fun s out => (.ok a, s, out)
def bind (m : W σ α) (k : α → W σ β) : W σ β := fun s out =>
  match m s out with
  | (.ok a, s', out') => k a s' out'
  | (.error e, s', out') => (.error e, s', out')
instance : Monad (W σ) where
  pure := W.pure
  bind := W.bind
def raise (e : Exc) : W σ α := fun s out => (.error e, s, out)
def get : W σ σ := fun s out => (.ok s, s, out)
def set (s : σ) : W σ Unit := fun _ out => (.ok (), s, out)
def modify (f : σ → σ) : W σ Unit := fun s out => (.ok (), f s, out)
def assert (c : Bool) : W σ Unit := if c then W.pure () else raise .assertion
def lift (r : Except Exc α) : W σ α := fun s out => (r, s, out)
/-- `try: m finally: f` where `f` cannot raise. -/
def tryFinally (m : W σ α) (f : σ → σ) : W σ α := fun s out =>
  match m s out with
  | (r, s', out') => (r, f s', out')
/-- `self.trans.write(b)` -/
def write (b : Bytes) : W σ Unit := fun s out => (.ok (), s, out ++ b)
end W

/-- Protocol objects carry the recursion counter of `TProtocolBase`
(`lib/py/src/protocol/TProtocol.py:52`). -/
class HasDepth (σ : Type) where
  depth : σ → Int
  setDepth : Int → σ → σ
  depth_set : ∀ d s, depth (setDepth d s) = d
  set_depth : ∀ s, setDepth (depth s) s = s
  set_set : ∀ d d' s, setDepth d (setDepth d' s) = setDepth d s

end Thrift
