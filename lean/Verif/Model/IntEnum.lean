import Verif.Model.Base
/-
The option `enum` of the Python generator: enums are classes derived from `IntEnum`. `t_py_generator.cc` 920-925 (`__init__` of immutable classes),
992-1017 (`__setattr__` of the others), 2419-2424 (reading), 2612-2617 (writing); the C extension, `protocol.tcc`, knows nothing of enums and reads and
writes numbers.

Values are trees here. Their way over the wire, with field ids and types, is the subject of other models (`Verif.Model.Types`, `Verif.Model.Fast`):
`Wire` is what a reader gets of what a writer wrote.

Simplifications. Members have no defaults. No member is named like a reserved word. An enum that is declared after the struct that uses it is a typedef for
the compiler (thrifty.yy 1141), like `alias`. Sets are lists. A value of a wrong type is a `TypeError` or is stored as it is. The name of an enum value
(a text) in place of the value is not modelled: `__members__.get` would find it.
-/

namespace Thrift.IntEnum

abbrev Name := Nat

/-- Types of members and elements. `alias` is a typedef of an enum: `type->is_enum()` does not hold, `get_true_type(type)->is_enum()` does. -/
inductive Ty where
  | base
  | enum (e : Name)
  | alias (e : Name)
  | list (t : Ty)
  | map (k v : Ty)
  | struct (s : Name)

structure Struct where
  immutable : Bool
  fields : List Ty

/-- The enums with their values, the structs with their members -/
structure Schema where
  enums : Name → List Int
  structs : Name → Struct

/-- Values in Python. `base` is a value of another type. `member e i` is the member of the class `e` with the value `i`. -/
inductive V where
  | none
  | base (b : Nat)
  | int (i : Int)
  | member (e : Name) (i : Int)
  | list (xs : List V)
  | map (ps : List (V × V))
  | struct (s : Name) (fs : List V)

/-- What is transmitted -/
inductive Wire where
  | base (b : Nat)
  | int (i : Int)
  | list (xs : List Wire)
  | map (ps : List (Wire × Wire))
  | struct (fs : List (Option Wire))

/-- `name.value`, cc 2614; `PyLong_AsLong` of the extension, protocol.tcc 234, also takes the members of an `IntEnum`. -/
def writeEnum (fast : Bool) : V → Except Exc Wire
  | .member _ i => .ok (.int i)
  | .int i => if fast then .ok (.int i) else .error .attributeError
  | _ => .error (if fast then .typeError else .attributeError)

mutual
/-- The generated `write` and the writing of containers, and `encodeValue` of the extension -/
def write (fast : Bool) (S : Schema) : Ty → V → Except Exc Wire
  | .base, .base b => .ok (.base b)
  | .enum _, v => writeEnum fast v
  | .alias _, v => writeEnum fast v
  | .list t, .list xs => (writeAll fast S t xs).map .list
  | .map k v, .map ps => (writePairs fast S k v ps).map .map
  | .struct _, .struct s fs => (writeFields fast S (S.structs s).fields fs).map .struct
  | _, _ => .error .typeError

def writeAll (fast : Bool) (S : Schema) (t : Ty) : List V → Except Exc (List Wire)
  | [] => .ok []
  | x :: xs => do
    let y ← write fast S t x
    let ys ← writeAll fast S t xs
    .ok (y :: ys)

def writePairs (fast : Bool) (S : Schema) (k v : Ty) : List (V × V) → Except Exc (List (Wire × Wire))
  | [] => .ok []
  | (x, y) :: ps => do
    let x ← write fast S k x
    let y ← write fast S v y
    let ps ← writePairs fast S k v ps
    .ok ((x, y) :: ps)

/-- The members in their order; one that is `None` is left out. -/
def writeFields (fast : Bool) (S : Schema) : List Ty → List V → Except Exc (List (Option Wire))
  | _, [] => .ok []
  | [], _ :: _ => .ok []
  | t :: ts, v :: vs => do
    let w ← match v with
      | .none => .ok none
      | v => (write fast S t v).map some
    let ws ← writeFields fast S ts vs
    .ok (w :: ws)
end

/-- `E(value)`, cc 1011 and 2421 -/
def call (S : Schema) (e : Name) (i : Int) : Except Exc V :=
  if i ∈ S.enums e then .ok (.member e i) else .error .valueError

/-- What is stored as a member of an instance, when the class is called and (if it is mutable) when the member is assigned. Immutable classes: `x if
hasattr(x, 'value') else E.__members__.get(x)`, cc 921-925; the keys of `__members__` are names. The others: `__setattr__`, cc 1008-1012. -/
def store (S : Schema) (immutable : Bool) : Ty → V → Except Exc V
  | .enum _, .member e' i => .ok (.member e' i)
  | .enum _, .none => .ok .none
  | .enum e, .int i => if immutable then .ok .none else call S e i
  | _, v => .ok v

/-- The call of a class -/
def construct (S : Schema) (s : Name) (vs : List V) : Except Exc V :=
  (go (S.structs s).fields vs).map (.struct s)
where
  go : List Ty → List V → Except Exc (List V)
    | t :: ts, v :: vs => do
      let v ← store S (S.structs s).immutable t v
      let vs ← go ts vs
      .ok (v :: vs)
    | _, _ => .ok []

/-- `E(iprot.readI32())`, cc 2421; the extension gives the number. -/
def readEnum (fast : Bool) (S : Schema) (e : Name) (i : Int) : Except Exc V := if fast then .ok (.int i) else call S e i

mutual
/-- The generated `read` and the reading of containers; `decodeValue` and `readStruct` of the extension, protocol.tcc 938-1057 -/
def read (fast : Bool) (S : Schema) : Ty → Wire → Except Exc V
  | .base, .base b => .ok (.base b)
  | .enum e, .int i => readEnum fast S e i
  | .alias e, .int i => readEnum fast S e i
  | .list t, .list xs => (readAll fast S t xs).map .list
  | .map k v, .map ps => (readPairs fast S k v ps).map .map
  | .struct s, .struct fs => (readFields fast S (S.structs s).immutable (S.structs s).fields fs).map (.struct s)
  | _, _ => .error .typeError

def readAll (fast : Bool) (S : Schema) (t : Ty) : List Wire → Except Exc (List V)
  | [] => .ok []
  | x :: xs => do
    let y ← read fast S t x
    let ys ← readAll fast S t xs
    .ok (y :: ys)

def readPairs (fast : Bool) (S : Schema) (k v : Ty) : List (Wire × Wire) → Except Exc (List (V × V))
  | [] => .ok []
  | (x, y) :: ps => do
    let x ← read fast S k x
    let y ← read fast S v y
    let ps ← readPairs fast S k v ps
    .ok ((x, y) :: ps)

/-- The members: read and stored. Of a mutable class they are assigned one by one, of an immutable class passed to the constructor, which then stores them; it
raises no exception, so that the order makes no difference. -/
def readFields (fast : Bool) (S : Schema) (immutable : Bool) : List Ty → List (Option Wire) → Except Exc (List V)
  | t :: ts, w :: ws => do
    let v ← match w with
      | none => .ok .none
      | some w => read fast S t w
    let v ← store S immutable t v
    let vs ← readFields fast S immutable ts ws
    .ok (v :: vs)
  | _, _ => .ok []
end

end Thrift.IntEnum
