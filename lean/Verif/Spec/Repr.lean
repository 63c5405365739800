import Verif.Model.Repr
/-
Which instances can be written with `repr` and read with `eval`, for C94.
-/

namespace Thrift.Spec.Repr
open Rpc Thrift.Repr
open Thrift.Attrs (Cls)

def Digits (s : PyStr) : Prop := s ≠ [] ∧ ∀ c ∈ s, 48 ≤ c ∧ c ≤ 57

/-- `1.5`, `1e+16`, `1.5e-07`: what Python writes for a finite float that is not negative -/
def FloatText (s : PyStr) : Prop :=
  ∃ i f x, Digits i ∧ (f = [] ∨ ∃ d, f = 46 :: d ∧ Digits d) ∧ (x = [] ∨ ∃ g d, x = 101 :: g :: d ∧ (g = 43 ∨ g = 45) ∧ Digits d) ∧ ¬ (f = [] ∧ x = []) ∧ s = i ++ f ++ x

/-- What Python guarantees: the text of a float is read as the same float, and surrogates are not printable. -/
structure Lawful (P : Py) : Prop where
  float : ∀ x : UInt64, x.toNat < 0x7FF0000000000000 → FloatText (P.show_ x) ∧ P.read (P.show_ x) = some x
  printable : ∀ c, P.printable c = true → c < 0xD800 ∨ 0xDFFF < c

/-- A name: letters, digits and underscores, the first is no digit -/
def Name (w : PyStr) : Prop := ∃ c t, w = c :: t ∧ isStart c = true ∧ ∀ d ∈ t, isIdent d = true

/-- A name that is no reserved word of Python -/
def Identifier (w : PyStr) : Prop := Name w ∧ w ∉ Spec.Names.reserved

/-- The name under which `__init__` stores a member, and under which an instance has it -/
def key (c : Cls) (m : PyStr) : PyStr := if c.immutable then m else c.attr m

mutual
/-- How many brackets are open at once in the text of a value -/
def depth : V → Nat
  | .uuid _ => 1
  | .list xs => depths xs + 1
  | .tuple xs => depths xs + 1
  | .set xs => depths xs + 1
  | .frozenset [] => 1
  | .frozenset xs => depths xs + 2
  | .dict kvs => depthPairs kvs + 1
  | .frozenDict kvs => depthPairs kvs + 1
  | .inst _ as => depthAttrs as + 1
  | _ => 0

def depths : List V → Nat
  | [] => 0
  | x :: xs => max (depth x) (depths xs)

def depthPairs : List (V × V) → Nat
  | [] => 0
  | kv :: kvs => max (max (depth kv.1) (depth kv.2)) (depthPairs kvs)

def depthAttrs : List (PyStr × V) → Nat
  | [] => 0
  | a :: as => max (depth a.2) (depthAttrs as)
end

mutual
/-- The value with a dict for every `TFrozenDict`, which are equal for Python -/
def thaw : V → V
  | .list xs => .list (thaws xs)
  | .tuple xs => .tuple (thaws xs)
  | .set xs => .set (thaws xs)
  | .frozenset xs => .frozenset (thaws xs)
  | .dict kvs => .dict (thawPairs kvs)
  | .frozenDict kvs => .dict (thawPairs kvs)
  | .inst c as => .inst c (thawAttrs as)
  | x => x

def thaws : List V → List V
  | [] => []
  | x :: xs => thaw x :: thaws xs

def thawPairs : List (V × V) → List (V × V)
  | [] => []
  | kv :: kvs => (thaw kv.1, thaw kv.2) :: thawPairs kvs

def thawAttrs : List (PyStr × V) → List (PyStr × V)
  | [] => []
  | a :: as => (a.1, thaw a.2) :: thawAttrs as
end

mutual
/-- The value, or one in it, has the property. -/
def Has (p : V → Prop) : V → Prop
  | .list xs => p (.list xs) ∨ HasAny p xs
  | .tuple xs => p (.tuple xs) ∨ HasAny p xs
  | .set xs => p (.set xs) ∨ HasAny p xs
  | .frozenset xs => p (.frozenset xs) ∨ HasAny p xs
  | .dict kvs => p (.dict kvs) ∨ HasPair p kvs
  | .frozenDict kvs => p (.frozenDict kvs) ∨ HasPair p kvs
  | .inst c as => p (.inst c as) ∨ HasAttr p as
  | x => p x

def HasAny (p : V → Prop) : List V → Prop
  | [] => False
  | x :: xs => Has p x ∨ HasAny p xs

def HasPair (p : V → Prop) : List (V × V) → Prop
  | [] => False
  | kv :: kvs => Has p kv.1 ∨ Has p kv.2 ∨ HasPair p kvs

def HasAttr (p : V → Prop) : List (PyStr × V) → Prop
  | [] => False
  | a :: as => Has p a.2 ∨ HasAttr p as
end

/-- Every value in it, and itself, has the property. -/
def Each (p : V → Prop) (x : V) : Prop := ¬ Has (fun y => ¬ p y) x

/-- What all values are: texts consist of characters; classes and attributes have names, and with slots an instance has just the attributes that `__slots__` names. -/
def Proper : V → Prop
  | .str s => ∀ c ∈ s, c < 0x110000
  | .uuid n => n < 2 ^ 128
  | .enum c m _ => Name c ∧ Name m
  | .inst c as => Identifier c.name ∧ (∀ a ∈ as, Name a.1) ∧ (c.slots = true → as.map (·.1) = c.members ∧ c.members.Nodup)
  | _ => True

/-- Values are told apart by `==`, and can be hashed. -/
def Elements (P : Py) (xs : List V) : Prop := (∀ x ∈ xs, hashable x = true) ∧ xs.Pairwise fun x y => P.eq x y = false

/-- A class that exists, and whose parameters are called like the attributes: without slots and `immutable` always; else no name may be one that the generator changes (`from`) or that Python does
(`__x`). -/
structure Regular (c : Cls) : Prop where
  created : Attrs.create c = .ok ()
  distinct : (c.members.map c.attr).Nodup
  plain : c.immutable = true ∨ c.slots = true → ∀ m ∈ c.members, m ∉ Names.keywords ∧ ¬ pyStr "__" <+: m

/-- What `eval` needs of a value, besides the right syntax: floats are finite, there are no members of enums, keys and elements can be hashed as plain dicts, and in the program in which `eval` is called the names of the classes mean these
classes. -/
def Good (P : Py) (env : Env) : V → Prop
  | .float x => x.toNat % 2 ^ 63 < 0x7FF0000000000000
  | .uuid _ => env (pyStr "UUID") = some .uuid
  | .set xs => (xs = [] → env (pyStr "set") = some .set) ∧ Elements P (thaws xs)
  | .frozenset xs => env (pyStr "frozenset") = some .frozenset ∧ Elements P (thaws xs)
  | .dict kvs => Elements P ((thawPairs kvs).map (·.1))
  | .frozenDict kvs => Elements P ((thawPairs kvs).map (·.1))
  | .enum _ _ _ => False
  | .inst c as => env c.name = some (.cls c) ∧ Regular c ∧ as.map (·.1) = c.members.map (key c)
  | _ => True

/-- A member of an enum, or an instance with an attribute that is called like a reserved word of Python -/
def NoExpression : V → Prop
  | .enum _ _ _ => True
  | .inst _ as => ∃ a ∈ as, a.1 ∈ Spec.Names.reserved
  | _ => False

/-- `eval(repr(x))` is `y`. -/
def Reads (P : Py) (lim : Nat) (env : Env) (x y : V) : Prop := ∃ s, repr P x = .ok s ∧ eval P lim env s = .ok y

/-- `eval(repr(x))` raises an exception. -/
def Unreadable (P : Py) (lim : Nat) (env : Env) (x : V) (e : Err) : Prop := ∃ s, repr P x = .ok s ∧ eval P lim env s = .error e

end Thrift.Spec.Repr
