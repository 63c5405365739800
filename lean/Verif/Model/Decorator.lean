import Verif.Model.Base
/-
`lib/py/src/protocol/TProtocolDecorator.py`: the class of a decorated protocol object, and how Python orders its bases.
-/

namespace Thrift.Decorator

/-- The classes that matter. `protocol n`: a protocol class or one of its bases. `decorated d p`: what `type(…, (cls, protocol.__class__), …)` makes of a decorator `d` and a class `p`, `TProtocolDecorator.py` 23-25;
each call makes another class, but no two with the same `d` and `p` are ever bases of one class. -/
inductive Cls where
  | object
  | protocol (n : Nat)
  | decorator  -- `TProtocolDecorator`
  | multiplexed  -- `TMultiplexedProtocol`
  | stored  -- `StoredMessageProtocol`
  | decorated (d p : Cls)
  deriving DecidableEq, Repr

/-- The candidate for the next place, in `pmerge` of CPython's `typeobject.c`: the first head of a list that is not further down in any list -/
def candidate (all : List (List Cls)) : List (List Cls) → Option Cls
  | [] => none
  | [] :: ls => candidate all ls
  | (c :: _) :: ls => if all.any (·.tail.contains c) then candidate all ls else some c

/-- `pmerge`. The first argument bounds the number of steps; as many as there are entries are enough. `none`: `TypeError`, "Cannot create a consistent method resolution order". -/
def merge (n : Nat) (ls : List (List Cls)) : Option (List Cls) :=
  if ls.all (·.isEmpty) then some []
  else
    match n with
    | 0 => none
    | n + 1 =>
      match candidate ls ls with
      | none => none
      | some c => (merge n (ls.map fun l => if l.head? = some c then l.tail else l)).map (c :: ·)

/-- The method resolution order of `TMultiplexedProtocol` (`TMultiplexedProtocol.py` 26) and of `StoredMessageProtocol` (`TMultiplexedProcessor.py` 77) -/
def ownMro (d : Cls) : List Cls := [d, .decorator, .object]

/-- The method resolution order of the class that `TProtocolDecorator.__new__` (21-26) makes of a decorator and the class of a protocol, given that of the latter; `mro_implementation` of `typeobject.c` -/
def decorate (d : Cls) (mro : List Cls) : Option (List Cls) :=
  match mro with
  | [] => none
  | p :: _ =>
    let ls := [ownMro d, mro, [d, p]]
    (merge (ls.flatten.length) ls).map (.decorated d p :: ·)

/-- `getattr(x, n)`, where `x` is an object without attributes of its own (`object.__new__`, 26): the first class that has it. `super(c, x)` begins after `c`. -/
def find {α : Type} (has : Cls → Option α) (mro : List Cls) : Option α := mro.findSome? has

/-- `super(c, x)` -/
def after (c : Cls) (mro : List Cls) : List Cls := (mro.dropWhile (· ≠ c)).tail

end Thrift.Decorator
