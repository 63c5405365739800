import Verif.Model.Types
/-
`lib/py/src/TRecursive.py`, and the `thrift_spec` tuples that the compiler writes for it, `t_py_generator.cc` 776-812 and 3004-3037.

Tuples are immutable; the only mutable objects are the lists `[Class, None]` that stand for structs, which live in a heap. Classes are
numbered; every class has an attribute `thrift_spec`, which `Obj.spec c` denotes.
-/

namespace Thrift.Recursive

/-- Python objects that occur in a `thrift_spec`. -/
inductive Obj where
  | none
  | int (n : Int)
  | str (s : PyStr)
  | bool (b : Bool)
  | cls (c : Nat)
  /-- the tuple `c.thrift_spec` -/
  | spec (c : Nat)
  | tuple (xs : List Obj)
  /-- a list in the heap -/
  | ref (a : Nat)
  deriving Repr

abbrev Heap := List (List Obj)

/-- `o == n` for an integer `n` -/
def Obj.isInt (n : Int) : Obj → Bool
  | .int m => m == n
  | _ => false

/-- `a[1] = a[0].thrift_spec`, TRecursive.py 36-37, 52, 77, 85. -/
def fixRef (a : Option Obj) (h : Heap) : Except Exc Heap :=
  match a with
  | Option.none => .error .indexError
  | some (.ref r) =>
    match h[r]? with
    | some (.cls c :: _ :: rest) => .ok (h.set r (.cls c :: .spec c :: rest))
    | some [.cls _] => .error .indexError
    | some [] => .error .indexError
    | _ => .error .attributeError
  | some _ => .error .typeError

/-- The chain of tests on a type and its arguments, which occurs four times: TRecursive.py 35-41 for a field, 51-56 for an element,
`_fix_list_or_set`, 72-77 for a key and 80-85 for a value, `_fix_map`. The arguments `a` are only looked at in the branches that need
them: `none` stands for an index behind the end. In this model only tuples can be indexed as `element_type`. -/
def fixChain (t : Obj) (a : Option Obj) (h : Heap) : Except Exc Heap :=
  if t.isInt 12 then fixRef a h
  else if t.isInt 15 || t.isInt 14 then
    match a with
    | some (.tuple xs) =>
      match xs[0]? with
      | some e => match _h : xs[1]? with
        | some o => fixChain e (some o) h
        | Option.none => fixChain e Option.none h
      | Option.none => .error .indexError
    | some _ => .error .typeError
    | Option.none => .error .indexError
  else if t.isInt 13 then
    match a with
    | some (.tuple xs) =>
      match xs[0]? with
      | some k =>
        match (match _h : xs[1]? with
          | some o => fixChain k (some o) h
          | Option.none => fixChain k Option.none h) with
        | .error e => .error e
        | .ok h' =>
          match xs[2]? with
          | some v => match _h : xs[3]? with
            | some o => fixChain v (some o) h'
            | Option.none => fixChain v Option.none h'
          | Option.none => .error .indexError
      | Option.none => .error .indexError
    | some _ => .error .typeError
    | Option.none => .error .indexError
  else .ok h
termination_by sizeOf a
decreasing_by
  all_goals simp_wf
  all_goals first
    | (have := List.sizeOf_lt_of_mem (List.mem_of_getElem? _h); omega)
    | omega

/-- One entry of a `thrift_spec`, TRecursive.py 32-41. -/
def fixEntry (o : Obj) (h : Heap) : Except Exc Heap :=
  match o with
  | .none => .ok h
  | .tuple xs =>
    match xs[1]? with
    | some t => fixChain t xs[3]? h
    | Option.none => .error .indexError
  | _ => .error .typeError

def fixEntries : List Obj → Heap → Except Exc Heap
  | [], h => .ok h
  | o :: os, h =>
    match fixEntry o h with
    | .error e => .error e
    | .ok h' => fixEntries os h'

/-- `fix_spec`, TRecursive.py 28-41: the `thrift_spec`s of `all_structs`. -/
def fixSpec : List (List Obj) → Heap → Except Exc Heap
  | [], h => .ok h
  | s :: ss, h =>
    match fixEntries s h with
    | .error e => .error e
    | .ok h' => fixSpec ss h'

/-! ## What the compiler writes -/

/-- Base types and enums. -/
inductive Base where
  | bool | byte | i16 | i32 | i64 | double | string | binary | uuid | enum
  deriving Repr, DecidableEq

/-- `type_to_enum` of base types and enums, t_py_generator.cc 2964-2989 -/
def Base.code : Base → Int
  | .bool => 2
  | .byte => 3
  | .i16 => 6
  | .i32 => 8
  | .i64 => 10
  | .double => 4
  | .string => 11
  | .binary => 11
  | .uuid => 16
  | .enum => 8

/-- `type_to_spec_args` of base types and enums, t_py_generator.cc 3009-3015 (with `utf8strings`, the default). -/
def Base.arg : Base → Obj
  | .binary => .str ("BINARY".toList.map Char.toNat)
  | .string => .str ("UTF8".toList.map Char.toNat)
  | _ => .none

/-- A type of the IDL with typedefs resolved. -/
inductive FType where
  | base (b : Base)
  | struct (c : Nat)
  | list (immutable : Bool) (e : FType)
  | set (immutable : Bool) (e : FType)
  | map (immutable : Bool) (k v : FType)
  deriving Repr, DecidableEq

/-- `type_to_enum`, t_py_generator.cc 2961-3001 -/
def FType.code : FType → Int
  | .base b => b.code
  | .struct _ => 12
  | .map .. => 13
  | .set .. => 14
  | .list .. => 15

/-- `type_to_spec_args`, t_py_generator.cc 3004-3037, evaluated by Python from left to right: every `[Class, None]` is a new list. -/
def specArgs : FType → Heap → Obj × Heap
  | .base b, h => (b.arg, h)
  | .struct c, h => (.ref h.length, h ++ [[.cls c, .none]])
  | .list i e, h => let (o, h') := specArgs e h; (.tuple [.int e.code, o, .bool i], h')
  | .set i e, h => let (o, h') := specArgs e h; (.tuple [.int e.code, o, .bool i], h')
  | .map i k v, h =>
    let (o, h') := specArgs k h
    let (o', h'') := specArgs v h'
    (.tuple [.int k.code, o, .int v.code, o', .bool i], h'')

/-- A field: its id, name, type and default (any object without references). -/
structure Member where
  id : Int
  name : PyStr
  type : FType
  default : Option Int
  deriving Repr, DecidableEq

/-- The tuple of a field, t_py_generator.cc 794-799 -/
def specField (f : Member) (h : Heap) : Obj × Heap :=
  let (o, h') := specArgs f.type h
  (.tuple [.int f.id, .int f.type.code, .str f.name, o, match f.default with | some n => .int n | Option.none => .none], h')

/-- The entries from position `pos` on, t_py_generator.cc 788-803; a gap is filled with `None`. -/
def specEntries (pos : Nat) : List Member → Heap → List Obj × Heap
  | [], h => ([], h)
  | f :: fs, h =>
    let (o, h') := specField f h
    let (os, h'') := specEntries (f.id.toNat + 1) fs h'
    (List.replicate (f.id.toNat - pos) .none ++ o :: os, h'')

/-- `generate_py_thrift_spec`, t_py_generator.cc 776-812, for the members in the order of their ids. -/
def thriftSpec (fs : List Member) (h : Heap) : List Obj × Heap :=
  match fs with
  | [] => ([], h)
  | f :: _ => if 0 ≤ f.id then specEntries 0 fs h else ([], h)

/-- The `thrift_spec`s of a module, in the order of `all_structs`. -/
def thriftSpecs : List (List Member) → Heap → List (List Obj) × Heap
  | [], h => ([], h)
  | s :: ss, h =>
    let (o, h') := thriftSpec s h
    let (os, h'') := thriftSpecs ss h'
    (o :: os, h'')

end Thrift.Recursive
