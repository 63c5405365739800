import Verif.Model.Base
/-
`TFrozenDict`, `lib/py/src/Thrift.py` 182-199, and what it inherits from `dict`.

Keys and values are arbitrary; what Python's operators do with them is given by `Ops`. A `dict` is the list of its items in
insertion order. `sorted` is a parameter, with the contract `Spec.FrozenDict.Sorts`.
-/

namespace Thrift.FrozenDict

/-- What the operators of Python do with keys and values. A key that cannot be hashed cannot be in a `dict`; hashing a value may raise. -/
structure Ops (K V : Type) where
  eqK : K → K → Bool
  ltK : K → K → Except Exc Bool
  eqV : V → V → Bool
  ltV : V → V → Except Exc Bool
  hashK : K → UInt64
  hashV : V → Except Exc UInt64
  /-- `hash(TFrozenDict)` -/
  hashClass : UInt64

variable {K V : Type}

/-- `d[k] = v`: an existing item keeps its place and its key. -/
def setItem (ops : Ops K V) (k : K) (v : V) : List (K × V) → List (K × V)
  | [] => [(k, v)]
  | (k', v') :: d => if ops.eqK k k' then (k', v) :: d else (k', v') :: setItem ops k v d

/-- `dict(pairs)` -/
def dictOf (ops : Ops K V) (pairs : List (K × V)) : List (K × V) := pairs.foldl (fun d p => setItem ops p.1 p.2 d) []

/-- `d.get(k)` -/
def lookup (ops : Ops K V) (k : K) (d : List (K × V)) : Option V := (d.find? fun p => ops.eqK k p.1).map (·.2)

/-- `d == e` of `dict` -/
def dictEq (ops : Ops K V) (d e : List (K × V)) : Bool :=
  d.length == e.length && d.all fun p => match lookup ops p.1 e with | some v => ops.eqV p.2 v | none => false

/-- `p < q` of two items, which are tuples: the first difference decides. -/
def itemLt (ops : Ops K V) (p q : K × V) : Except Exc Bool :=
  if ops.eqK p.1 q.1 then
    if ops.eqV p.2 q.2 then .ok false else ops.ltV p.2 q.2
  else ops.ltK p.1 q.1

/-- `hash` of a tuple, given the hashes of its elements: `tuplehash` of CPython (since 3.8, 64 bits). -/
def hashTuple (hs : List UInt64) : UInt64 :=
  let p1 : UInt64 := 11400714785074694791
  let p2 : UInt64 := 14029467366897019727
  let p5 : UInt64 := 2870177450012600261
  let acc := hs.foldl (fun acc h =>
    let acc := acc + h * p2
    let acc := (acc <<< 31) ||| (acc >>> 33)
    acc * p1) p5
  let acc := acc + ((UInt64.ofNat hs.length) ^^^ (p5 ^^^ 3527539))
  if acc = 0 - 1 then 1546275796 else acc

/-- `hash((k, v))` -/
def hashItem (ops : Ops K V) (p : K × V) : Except Exc UInt64 :=
  match ops.hashV p.2 with
  | .ok h => .ok (hashTuple [ops.hashK p.1, h])
  | .error e => .error e

/-- The hashes of the items, in order; the first that cannot be computed raises. -/
def hashItems (ops : Ops K V) : List (K × V) → Except Exc (List UInt64)
  | [] => .ok []
  | p :: ps =>
    match hashItem ops p with
    | .error e => .error e
    | .ok h =>
      match hashItems ops ps with
      | .error e => .error e
      | .ok hs => .ok (h :: hs)

structure FD (K V : Type) where
  items : List (K × V)
  hashval : UInt64
  deriving Repr, DecidableEq

/-- `sorted(xs)`: `lt` stands for `<`. -/
abbrev SortFn := {α : Type} → (α → α → Except Exc Bool) → List α → Except Exc (List α)

/-- `__init__`, Thrift.py 185-190 -/
def FD.make (ops : Ops K V) (sort : SortFn) (pairs : List (K × V)) : Except Exc (FD K V) :=
  let d := dictOf ops pairs
  match sort (itemLt ops) d with
  | .error e => .error e
  | .ok s =>
    match hashItems ops s with
    | .error e => .error e
    | .ok hs => .ok { items := d, hashval := ops.hashClass ^^^ hashTuple hs }

/-- `hash(d)`, Thrift.py 198-199; a `__hash__` that returns -1 counts as -2. -/
def FD.hash (f : FD K V) : UInt64 := if f.hashval = 0 - 1 then 0 - 2 else f.hashval

/-- `d == e`: inherited -/
def FD.eq (ops : Ops K V) (f g : FD K V) : Bool := dictEq ops f.items g.items

/-- The methods of `dict` that change it. -/
inductive Mut (K V : Type) where
  | setitem (k : K) (v : V)
  | delitem (k : K)
  | update (pairs : List (K × V))
  | setdefault (k : K) (v : V)
  | pop (k : K)
  | popitem
  | clear
  /-- `d |= pairs` -/
  | ior (pairs : List (K × V))

/-- What happens to a `TFrozenDict`. `__setitem__` and `__delitem__`, Thrift.py 192-196, are overridden; the other methods are those
of `dict`, which do not call them. Returned values are not modelled. -/
def FD.mutate (ops : Ops K V) (f : FD K V) : Mut K V → Except Exc Unit × FD K V
  | .setitem _ _ => (.error .typeError, f)
  | .delitem _ => (.error .typeError, f)
  | .update ps => (.ok (), { f with items := ps.foldl (fun d p => setItem ops p.1 p.2 d) f.items })
  | .ior ps => (.ok (), { f with items := ps.foldl (fun d p => setItem ops p.1 p.2 d) f.items })
  | .setdefault k v =>
    match lookup ops k f.items with
    | some _ => (.ok (), f)
    | none => (.ok (), { f with items := setItem ops k v f.items })
  | .pop k =>
    match lookup ops k f.items with
    | some _ => (.ok (), { f with items := f.items.filter fun p => !ops.eqK k p.1 })
    | none => (.error .keyError, f)
  | .popitem =>
    match f.items with
    | [] => (.error .keyError, f)
    | _ => (.ok (), { f with items := f.items.dropLast })
  | .clear => (.ok (), { f with items := [] })

end Thrift.FrozenDict
