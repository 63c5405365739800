import Verif.Model.Base
/-
Wire types, schemas (`thrift_spec`) and values.
-/

namespace Thrift

/-! `TType`, `lib/py/src/Thrift.py:20-37`. -/
namespace TType
def STOP : Int := 0
def VOID : Int := 1
def BOOL : Int := 2
def BYTE : Int := 3
def DOUBLE : Int := 4
def I16 : Int := 6
def I32 : Int := 8
def I64 : Int := 10
def STRING : Int := 11
def STRUCT : Int := 12
def MAP : Int := 13
def SET : Int := 14
def LIST : Int := 15
def UUID : Int := 16
end TType

/-! `TMessageType`, `lib/py/src/Thrift.py:60-64`. -/
namespace TMessageType
def CALL : Int := 1
def REPLY : Int := 2
def EXCEPTION : Int := 3
def ONEWAY : Int := 4
end TMessageType

/-- A declared type, i.e. the `(ttype, spec_args)` part of a `thrift_spec` entry
(`compiler/cpp/src/thrift/generate/t_py_generator.cc:862-879`). `string` and `binary` share the
wire type STRING and differ in the spec argument `'BINARY'`
(`lib/py/src/protocol/TProtocol.py:273-279`). Structs are referred to by number, so that schemas
may be recursive. Simplification: the immutability flag of container specs is not modelled
(containers decode to `list`, `set`, `dict`, the default of the generator); enums are `i32`. -/
inductive Ty where
  | bool | byte | i16 | i32 | i64 | double | string | binary | uuid
  | list (e : Ty)
  | set (e : Ty)
  | map (k v : Ty)
  | struct (sid : Nat)
  deriving DecidableEq, Repr

/-- The wire type of a declared type. -/
def Ty.ttype : Ty → Int
  | .bool => TType.BOOL
  | .byte => TType.BYTE
  | .i16 => TType.I16
  | .i32 => TType.I32
  | .i64 => TType.I64
  | .double => TType.DOUBLE
  | .string => TType.STRING
  | .binary => TType.STRING
  | .uuid => TType.UUID
  | .list _ => TType.LIST
  | .set _ => TType.SET
  | .map _ _ => TType.MAP
  | .struct _ => TType.STRUCT

/-- Python values. `int` serves byte, i16, i32, i64; a double is its bit pattern; a `set` and a
`dict` are the sequence of their elements in iteration order; a struct is the list of its
attributes in `thrift_spec` order, `none` being Python's `None`. -/
inductive Val where
  | bool (b : Bool)
  | int (i : Int)
  | double (bits : UInt64)
  | str (s : PyStr)
  | bin (b : Bytes)
  | uuid (b : Bytes)
  | list (vs : List Val)
  | set (vs : List Val)
  | map (kvs : List (Val × Val))
  | struct (fs : List (Option Val))

/-- One field of a struct: id, type, whether it is `required`, and the default that the
constructor assigns (`none`: no default, attribute `None`). -/
structure Field where
  fid : Int
  ty : Ty
  required : Bool := false
  dflt : Option Val := none

/-- The fields of every struct, sorted by field id (`get_sorted_members`). -/
abbrev Schema := Nat → List Field

/-- Attributes of a freshly constructed struct (`__init__`,
`t_py_generator.cc:895-938`). -/
def initAttrs (fs : List Field) : List (Option Val) := fs.map (·.dflt)

/-- Can values of this type be put in a `set` or be `dict` keys? Mutable containers are
unhashable, and generated (mutable) struct classes define `__eq__` without `__hash__`
(`t_py_generator.cc:1049-1053`, `lib/py/src/protocol/TBase.py:30-38`). -/
def Ty.hashable : Ty → Bool
  | .list _ | .set _ | .map _ _ | .struct _ => false
  | _ => true

/-- Is the bit pattern a NaN? -/
def isNaN (x : UInt64) : Bool := x.toNat % 2 ^ 63 > 0x7FF0000000000000
/-- Is the bit pattern `0.0` or `-0.0`? -/
def isZero (x : UInt64) : Bool := x.toNat % 2 ^ 63 == 0

/-- Python's `==` on two hashable values of the same declared type, as `set` and `dict` use it
on values that were just decoded: `0.0 == -0.0`, and a NaN is equal to no other object. -/
def keyEq : Val → Val → Bool
  | .bool a, .bool b => a == b
  | .int a, .int b => a == b
  | .double a, .double b => (a == b && !isNaN a) || (isZero a && isZero b)
  | .str a, .str b => a == b
  | .bin a, .bin b => a == b
  | .uuid a, .uuid b => a == b
  | _, _ => false

/-- `s.add(v)` on the elements of a Python set. -/
def setAdd (s : List Val) (v : Val) : List Val :=
  if s.any (keyEq v) then s else s ++ [v]

/-- `set(vs)` -/
def pySet (vs : List Val) : List Val := vs.foldl setAdd []

/-- `d[k] = v`: an existing key keeps its place and its key object. -/
def dictPut : List (Val × Val) → Val → Val → List (Val × Val)
  | [], k, v => [(k, v)]
  | (k', v') :: d, k, v => if keyEq k k' then (k', v) :: d else (k', v') :: dictPut d k v

/-- `dict(kvs)` -/
def pyDict (kvs : List (Val × Val)) : List (Val × Val) :=
  kvs.foldl (fun d kv => dictPut d kv.1 kv.2) []

/-- Which code reads and writes structs: the methods the compiler generates by default, or
`TBase` with `TProtocolBase.readStruct`/`writeStruct` (compiler option `dynamic`). -/
inductive Mode where
  | gen
  | dyn
  deriving DecidableEq, Repr

/-- The `thrift_spec` tuple for fields sorted by id, `t_py_generator.cc:785-811`, with field
positions instead of field tuples: gaps are `None`. -/
def thriftSpecFrom : (pos : Int) → (idx : Nat) → List Field → List (Option Nat)
  | _, _, [] => []
  | pos, idx, f :: fs =>
    List.replicate (f.fid - pos).toNat none ++ some idx :: thriftSpecFrom (f.fid + 1) (idx + 1) fs

/-- The whole tuple; `()` if the first id is negative. -/
def thriftSpec : List Field → List (Option Nat)
  | [] => []
  | f :: fs => if 0 ≤ f.fid then thriftSpecFrom 0 0 (f :: fs) else []

/-- Python subscription `l[i]` of a tuple: negative indices count from the end; `none` is
`IndexError`. -/
def pyIndex {α : Type} (l : List α) (i : Int) : Option α :=
  if 0 ≤ i then l[i.toNat]? else if 0 ≤ (l.length : Int) + i then l[((l.length : Int) + i).toNat]?
  else none

/-- Which field, if any, the reader associates with a field id from the wire.
`gen`: the chain `if fid == k: ... elif ...` (`t_py_generator.cc:1160-1183`).
`dyn`: `thrift_spec[fid]` (`lib/py/src/protocol/TProtocol.py:344-349`). -/
def lookupField (mode : Mode) (fs : List Field) (fid : Int) : Option Nat :=
  match mode with
  | .gen => fs.findIdx? (fun f => f.fid == fid)
  | .dyn =>
    match pyIndex (thriftSpec fs) fid with
    | some (some i) => some i
    | _ => none

/-- Does the writer of this mode see the fields at all? With `dyn` and a negative id the
`thrift_spec` is `()` and `writeStruct` writes no field. -/
def writerSees (mode : Mode) (fs : List Field) : Bool :=
  match mode, fs with
  | .dyn, f :: _ => 0 ≤ f.fid
  | _, _ => true

end Thrift
