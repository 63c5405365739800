import Verif.Model.Hints
/-
`==` of what generated code writes and reads: `__eq__` of generated classes, `t_py_generator.cc` 1046-1058 (over `__dict__`) and 1072-1088 (over `__slots__`), on
top of Python's `==` of numbers, texts and containers; and `write`, cc 1208-1260 and 2549-2735, of code generated with the option `enum`. Reading is
`Hints.read`, types and objects are those of `Verif.Model.Hints`, with the simplifications listed there.

More simplifications. Objects of other classes than those that Python programs use for a type are refused (the code would write what it can, for instance 1 as a
double). A number and a float are never equal here. Members are written in the order in which they are listed (the code: that of their ids). The objects compared do not
share NaN objects, which Python's containers would take for equal without asking.
-/

namespace Thrift.Equal
open Thrift.Hints

/-- `struct.pack` of the binary protocol and `checkIntegerLimits`, `TProtocol.py:419-431`, of the compact one: the range of an integer type. (JSON does not check.) -/
def fits (k : Kind) (i : Int) : Bool :=
  match k with
  | .i8 => -128 ≤ i ∧ i ≤ 127
  | .i16 => -32768 ≤ i ∧ i ≤ 32767
  | .i32 => -2147483648 ≤ i ∧ i ≤ 2147483647
  | .i64 => -9223372036854775808 ≤ i ∧ i ≤ 9223372036854775807

/-- `validate()`, cc 1262-1283: false if it raises -/
def validate : List Field → List Obj → Bool
  | f :: fs, a :: as => !(f.required && a.isNone) && validate fs as
  | _, _ => true

mutual
/-- `generate_serialize_field` and `generate_serialize_container`, cc 2555-2735; for an instance its method `write`, whatever its class, cc 2629-2632. Lists and
sets are written by iterating over the object. -/
def write (S : Schema) : Ty → Obj → Except Exc Wire
  | .alias t, o => write S t o
  | .bool, .bool b => .ok (.bool b)
  | .int k, .int i => if fits k i then .ok (.int k i) else .error .structError
  | .double, .float d => .ok (.double d)
  | .string, .str b => .ok (.string b)
  | .binary, .bytes b => .ok (.string b)
  | .uuid, .uuid b => .ok (.uuid b)
  | .enum _, .member _ i => if fits .i32 i then .ok (.int .i32 i) else .error .structError
  | .enum _, _ => .error .attributeError
  | .list _ t, .list xs | .list _ t, .tuple xs | .list _ t, .set xs | .list _ t, .frozenset xs => do
    let ws ← writeAll S t xs
    .ok (.list ws)
  | .set _ t, .list xs | .set _ t, .tuple xs | .set _ t, .set xs | .set _ t, .frozenset xs => do
    let ws ← writeAll S t xs
    .ok (.set ws)
  | .map _ k v, .dict ps | .map _ k v, .frozendict ps => do
    let ws ← writePairs S k v ps
    .ok (.map ws)
  | .struct _, .inst s as =>
    if validate (S.structs s).fields as then do
      let ws ← writeFields S (S.structs s).fields as
      .ok (.struct ws)
    else .error (.tprotocol 0)
  | _, _ => .error .typeError
termination_by t o => (sizeOf o, sizeOf t)

def writeAll (S : Schema) (t : Ty) : List Obj → Except Exc (List Wire)
  | [] => .ok []
  | x :: xs => do
    let w ← write S t x
    let ws ← writeAll S t xs
    .ok (w :: ws)
termination_by xs => (sizeOf xs, 0)

def writePairs (S : Schema) (k v : Ty) : List (Obj × Obj) → Except Exc (List (Wire × Wire))
  | [] => .ok []
  | (x, y) :: ps => do
    let a ← write S k x
    let b ← write S v y
    let ws ← writePairs S k v ps
    .ok ((a, b) :: ws)
termination_by ps => (sizeOf ps, 0)

/-- Members that are not `None`, cc 1228-1244 -/
def writeFields (S : Schema) : List Field → List Obj → Except Exc (List (Int × Wire))
  | f :: fs, a :: as =>
    if a.isNone then writeFields S fs as
    else do
      let w ← write S f.ty a
      let ws ← writeFields S fs as
      .ok ((f.fid, w) :: ws)
  | _, _ => .ok []
termination_by _ as => (sizeOf as, 0)
end

/-- The number that an object is: `bool` and `IntEnum` are subclasses of `int` -/
def num : Obj → Option Int
  | .bool b => some (if b then 1 else 0)
  | .int i => some i
  | .member _ i => some i
  | _ => none

/-- A NaN: all bits of the exponent are set, and some of the fraction -/
def nan (d : UInt64) : Bool := 0x7ff0000000000000 < d &&& 0x7fffffffffffffff

/-- `==` of floats: a NaN equals nothing, and zero equals minus zero. -/
def floatEq (a b : UInt64) : Bool := !nan a && !nan b && (a == b || (a &&& 0x7fffffffffffffff == 0 && b &&& 0x7fffffffffffffff == 0))

mutual
/-- `a == b`. `TFrozenDict` is a `dict`. A list is no tuple, but a set and a frozen set may be equal. -/
def eq : Obj → Obj → Bool
  | .none, .none => true
  | .float a, .float b => floatEq a b
  | .str a, .str b => a == b
  | .bytes a, .bytes b => a == b
  | .uuid a, .uuid b => a == b
  | .list xs, .list ys => eqAll xs ys
  | .tuple xs, .tuple ys => eqAll xs ys
  | .set xs, .set ys | .set xs, .frozenset ys | .frozenset xs, .set ys | .frozenset xs, .frozenset ys => xs.length == ys.length && subset xs ys
  | .dict ps, .dict qs | .dict ps, .frozendict qs | .frozendict ps, .dict qs | .frozendict ps, .frozendict qs =>
    ps.length == qs.length && submap ps qs
  | .inst s as, .inst t bs => s == t && eqAll as bs
  | a, b =>
    match num a, num b with
    | some i, some j => i == j
    | _, _ => false
termination_by a b => sizeOf a + sizeOf b

/-- Elements, or attributes, one by one -/
def eqAll : List Obj → List Obj → Bool
  | [], [] => true
  | x :: xs, y :: ys => eq x y && eqAll xs ys
  | _, _ => false
termination_by xs ys => sizeOf xs + sizeOf ys

/-- All elements of one set are in the other -/
def subset : List Obj → List Obj → Bool
  | [], _ => true
  | x :: xs, ys => contains x ys && subset xs ys
termination_by xs ys => sizeOf xs + sizeOf ys

def contains : Obj → List Obj → Bool
  | _, [] => false
  | x, y :: ys => eq x y || contains x ys
termination_by x ys => sizeOf x + sizeOf ys

/-- For all keys of one dictionary there is an equal key in the other, with an equal value -/
def submap : List (Obj × Obj) → List (Obj × Obj) → Bool
  | [], _ => true
  | (k, v) :: ps, qs => maps k v qs && submap ps qs
termination_by ps qs => sizeOf ps + sizeOf qs

/-- The keys of a dictionary are different from each other: there is at most one to consider. -/
def maps : Obj → Obj → List (Obj × Obj) → Bool
  | _, _, [] => false
  | k, v, (k', v') :: qs => (eq k k' && eq v v') || maps k v qs
termination_by k v qs => sizeOf k + sizeOf v + sizeOf qs
end

end Thrift.Equal
