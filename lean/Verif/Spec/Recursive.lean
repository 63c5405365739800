import Verif.Model.Recursive
/-
Specification for `thrift_spec`: what the tuples show.
-/

namespace Thrift.Spec.Recursive
open Thrift.Recursive

/-- The type ids of the documentation (`doc/specs/thrift-binary-protocol.md`, "Struct"; `TType`, Thrift.py 23-42). -/
def typeId : FType → Int
  | .base .bool => 2
  | .base .byte => 3
  | .base .double => 4
  | .base .i16 => 6
  | .base .i32 => 8
  | .base .enum => 8
  | .base .i64 => 10
  | .base .string => 11
  | .base .binary => 11
  | .base .uuid => 16
  | .struct _ => 12
  | .map .. => 13
  | .set .. => 14
  | .list .. => 15

/-- What `TProtocolBase` and the C extension look for as arguments of a base type: "BINARY" for `binary` (TProtocol.py 273-275,
ext/protocol.tcc 160-164), "UTF8" for text (ext/protocol.tcc 77, Python 2); nothing for the others. -/
def baseArg : Base → Obj
  | .string => .str [85, 84, 70, 56]
  | .binary => .str [66, 73, 78, 65, 82, 89]
  | _ => .none

/-- The object `o` is the argument part of the type `t`: tuples of type codes and arguments, and for every struct `c`, at any depth, a
list of the class and an object `x` with `ok c x`. -/
inductive Shows (h : Heap) (ok : Nat → Obj → Prop) : FType → Obj → Prop
  | base (b : Base) : Shows h ok (.base b) b.arg
  | struct {a c : Nat} {x : Obj} : h[a]? = some [.cls c, x] → ok c x → Shows h ok (.struct c) (.ref a)
  | list {i : Bool} {e : FType} {o : Obj} : Shows h ok e o → Shows h ok (.list i e) (.tuple [.int e.code, o, .bool i])
  | set {i : Bool} {e : FType} {o : Obj} : Shows h ok e o → Shows h ok (.set i e) (.tuple [.int e.code, o, .bool i])
  | map {i : Bool} {k v : FType} {o o' : Obj} : Shows h ok k o → Shows h ok v o' →
      Shows h ok (.map i k v) (.tuple [.int k.code, o, .int v.code, o', .bool i])

/-- The object is the entry of the field. -/
def ShowsField (h : Heap) (ok : Nat → Obj → Prop) (f : Member) (o : Obj) : Prop :=
  ∃ a, Shows h ok f.type a ∧
    o = .tuple [.int f.id, .int f.type.code, .str f.name, a, match f.default with | some n => .int n | none => .none]

/-- The tuple is the `thrift_spec` of a struct with these fields: the entry of a field is at the index that is its id, every other entry
is `None`, and it ends with the last field. -/
structure ShowsSpec (h : Heap) (ok : Nat → Obj → Prop) (fs : List Member) (os : List Obj) : Prop where
  field : ∀ f ∈ fs, ∃ n : Nat, f.id = n ∧ ∃ o, os[n]? = some o ∧ ShowsField h ok f o
  other : ∀ (n : Nat) (o : Obj), os[n]? = some o → o = .none ∨ ∃ f ∈ fs, f.id = n
  last : os = [] ∨ ∃ f ∈ fs, f.id + 1 = os.length

/-- Not yet fixed: `[Class, None]`. -/
def fresh (_ : Nat) (x : Obj) : Prop := x = .none

/-- Fixed: `[Class, Class.thrift_spec]`. -/
def fixed (c : Nat) (x : Obj) : Prop := x = .spec c

/-- Anything. -/
def whatever (_ : Nat) (_ : Obj) : Prop := True

/-- The list at `a` is part of the object. -/
inductive Reach : Obj → Nat → Prop
  | here (a : Nat) : Reach (.ref a) a
  | elem {xs : List Obj} {x : Obj} {a : Nat} : x ∈ xs → Reach x a → Reach (.tuple xs) a

end Thrift.Spec.Recursive
