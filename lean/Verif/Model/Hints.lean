import Verif.Model.Base
/-
The option `type_hints` of the Python generator (it needs the option `enum`): the annotations that `t_py_generator.cc` 849-858, 935, 2778-2792, 2815-2830
and 2888-2956 write, and the classes of the objects that generated code assigns to what is annotated: the reading of fields and containers, cc 1094-1206 and
2361-2545, and the same by the C extension, `protocol.tcc` 700-1057, which knows nothing of enums; `__init__` and `__setattr__`, cc 895-938 and 994-1017.

An annotation is modelled by its syntax tree. `from __future__ import annotations`, cc 493, keeps Python from evaluating it.

Values on the wire are trees, as in `Verif.Model.IntEnum`: fields with ids in the order of their arrival, each of a wire type. Simplifications. An element of a
container whose wire type is not the declared one is an exception (the code reads the bytes as what it expects). Text is not decoded. Repeated elements of
sets and keys of maps are kept. No member has the name of a reserved word. The limits of sizes and depths are left out; instances have no attribute `value`.
-/

namespace Thrift.Hints

abbrev Name := Nat

inductive Kind where
  | i8 | i16 | i32 | i64
  deriving DecidableEq, Repr

/-- Types of the IDL. `frozen`: `is_immutable`, the annotation `python.immutable`, cc 296-299. `alias`: a typedef. -/
inductive Ty where
  | void
  | bool
  | int (k : Kind)
  | double
  | string
  | binary
  | uuid
  | enum (e : Name)
  | struct (s : Name)
  | list (frozen : Bool) (t : Ty)
  | set (frozen : Bool) (t : Ty)
  | map (frozen : Bool) (k v : Ty)
  | alias (t : Ty)
  deriving DecidableEq, Repr

/-- Annotations. `cls` is the class of a struct, `enum` that of an enum. -/
inductive Hint where
  | none | str | bool | int | float | bytes | uuid
  | cls (s : Name)
  | enum (e : Name)
  | dict (k v : Hint)
  | set (h : Hint)
  | list (h : Hint)
  | optional (h : Hint)
  deriving DecidableEq, Repr

/-- `type_to_py_type`, cc 2919-2956 -/
def hint : Ty → Hint
  | .binary => .bytes
  | .void => .none
  | .string => .str
  | .bool => .bool
  | .int _ => .int
  | .double => .float
  | .uuid => .uuid
  | .enum e => .enum e
  | .struct s => .cls s
  | .map _ k v => .dict (hint k) (hint v)
  | .set _ t => .set (hint t)
  | .list _ t => .list (hint t)
  | .alias t => hint t

/-- Python objects. `member e i` is the member of the class `e` with the value `i`; `inst s as` is an instance of the class of the struct `s` with its attributes
in the order of the members; `deferred` is a `Deferred` of Twisted or a `Future` of Tornado. -/
inductive Obj where
  | none
  | bool (b : Bool)
  | int (i : Int)
  | float (bits : UInt64)
  | str (b : Bytes)
  | bytes (b : Bytes)
  | uuid (b : Bytes)
  | member (e : Name) (i : Int)
  | list (xs : List Obj)
  | tuple (xs : List Obj)
  | set (xs : List Obj)
  | frozenset (xs : List Obj)
  | dict (ps : List (Obj × Obj))
  | frozendict (ps : List (Obj × Obj))
  | inst (s : Name) (as : List Obj)
  | deferred

/-- A member of a struct. `dflt` is the object that `render_field_default_value` denotes. -/
structure Field where
  fid : Int
  ty : Ty
  required : Bool
  dflt : Option Obj

structure Struct where
  immutable : Bool
  fields : List Field

structure Schema where
  enums : Name → List Int
  structs : Name → Struct

/-- `member_hint`, cc 2896-2906 -/
def memberHint (f : Field) : Hint := if f.required then hint f.ty else .optional (hint f.ty)

/-- `arg_hint`, cc 2888-2894: the annotation of a parameter of a function -/
def argHint (f : Field) : Hint := hint f.ty

/-- `func_hint`, cc 2908-2914 -/
def funcHint (t : Ty) : Hint := hint t

/-- What is transmitted -/
inductive Wire where
  | bool (b : Bool)
  | int (k : Kind) (i : Int)
  | double (bits : UInt64)
  | string (b : Bytes)
  | uuid (b : Bytes)
  | list (xs : List Wire)
  | set (xs : List Wire)
  | map (ps : List (Wire × Wire))
  | struct (fs : List (Int × Wire))

/-- The wire types. `stop` stands for the type of nothing. -/
inductive WTy where
  | stop | bool | int (k : Kind) | double | string | uuid | list | set | map | struct
  deriving DecidableEq, Repr

def Wire.ty : Wire → WTy
  | .bool _ => .bool
  | .int k _ => .int k
  | .double _ => .double
  | .string _ => .string
  | .uuid _ => .uuid
  | .list _ => .list
  | .set _ => .set
  | .map _ => .map
  | .struct _ => .struct

/-- `type_to_enum`, cc 2961-3005 -/
def Ty.wire : Ty → WTy
  | .void => .stop
  | .bool => .bool
  | .int k => .int k
  | .double => .double
  | .string => .string
  | .binary => .string
  | .uuid => .uuid
  | .enum _ => .int .i32
  | .struct _ => .struct
  | .list _ _ => .list
  | .set _ _ => .set
  | .map _ _ _ => .map
  | .alias t => t.wire

/-- `E(value)` -/
def call (S : Schema) (e : Name) (i : Int) : Except Exc Obj :=
  if i ∈ S.enums e then .ok (.member e i) else .error .valueError

/-- `E(iprot.readI32())`, cc 2419-2424; the extension gives the number. -/
def readEnum (fast : Bool) (S : Schema) (e : Name) (i : Int) : Except Exc Obj := if fast then .ok (.int i) else call S e i

/-- What is stored as a member. Only if the declared type is an enum, not a typedef of one (`type->is_enum()`): immutable classes, cc 921-925, `x if hasattr(x,
'value') else E.__members__.get(x)`, where the keys of `__members__` are names; the others, `__setattr__`, cc 1006-1013, `x if hasattr(x, 'value') or x is
None else E(x)`. -/
def store (S : Schema) (immutable : Bool) : Ty → Obj → Except Exc Obj
  | .enum e, v =>
    match v with
    | .member e' i => .ok (.member e' i)
    | .none => .ok .none
    | .int i => if immutable then .ok .none else call S e i
    | _ => if immutable then .ok .none else .error .valueError
  | _, v => .ok v

/-- What has been read is put in a variable, or assigned to the attribute. -/
def assign (S : Schema) (d : Struct) (f : Field) (v : Obj) : Except Exc Obj := if d.immutable then .ok v else store S false f.ty v

/-- `__init__`: all parameters are stored -/
def storeAll (S : Schema) (immutable : Bool) : List Field → List Obj → Except Exc (List Obj)
  | f :: fs, v :: vs => do
    let v ← store S immutable f.ty v
    let vs ← storeAll S immutable fs vs
    .ok (v :: vs)
  | _, _ => .ok []

/-- The defaults of the parameters of `__init__`, cc 2778-2792 -/
def defaults (fs : List Field) : List Obj := fs.map fun f => f.dflt.getD .none

/-- The field with an id: the chain of `if fid == …`, cc 1155-1178 -/
def position (fs : List Field) (fid : Int) : Option Nat := fs.findIdx? fun f => f.fid = fid

mutual
/-- `generate_deserialize_field` and `generate_deserialize_container`, cc 2361-2505; `decodeValue` of the extension. A struct: a mutable class is called, and
the fields are assigned as they come; for an immutable class they are collected, starting with the defaults, and the class is called with them. -/
def read (fast : Bool) (S : Schema) : Ty → Wire → Except Exc Obj
  | .alias t, w => read fast S t w
  | .bool, .bool b => .ok (.bool b)
  | .int k, .int k' i => if k = k' then .ok (.int i) else .error .typeError
  | .double, .double d => .ok (.float d)
  | .string, .string b => .ok (.str b)
  | .binary, .string b => .ok (.bytes b)
  | .uuid, .uuid b => .ok (.uuid b)
  | .enum e, .int .i32 i => readEnum fast S e i
  | .list frozen t, .list xs => do
    let xs ← readAll fast S t xs
    .ok (if frozen then .tuple xs else .list xs)
  | .set frozen t, .set xs => do
    let xs ← readAll fast S t xs
    .ok (if frozen then .frozenset xs else .set xs)
  | .map frozen k v, .map ps => do
    let ps ← readPairs fast S k v ps
    .ok (if frozen then .frozendict ps else .dict ps)
  | .struct s, .struct ws =>
    if (S.structs s).immutable then do
      let as ← readFields fast S (S.structs s) ws (defaults (S.structs s).fields)
      let as ← storeAll S true (S.structs s).fields as
      .ok (.inst s as)
    else do
      let as ← storeAll S false (S.structs s).fields (defaults (S.structs s).fields)
      let as ← readFields fast S (S.structs s) ws as
      .ok (.inst s as)
  | _, _ => .error .typeError
termination_by t w => (sizeOf w, sizeOf t)

def readAll (fast : Bool) (S : Schema) (t : Ty) : List Wire → Except Exc (List Obj)
  | [] => .ok []
  | x :: xs => do
    let y ← read fast S t x
    let ys ← readAll fast S t xs
    .ok (y :: ys)
termination_by ws => (sizeOf ws, 0)

def readPairs (fast : Bool) (S : Schema) (k v : Ty) : List (Wire × Wire) → Except Exc (List (Obj × Obj))
  | [] => .ok []
  | (x, y) :: ps => do
    let x ← read fast S k x
    let y ← read fast S v y
    let ps ← readPairs fast S k v ps
    .ok ((x, y) :: ps)
termination_by ws => (sizeOf ws, 0)

/-- The loop over the fields: those with an unknown id or another type are skipped. -/
def readFields (fast : Bool) (S : Schema) (d : Struct) : List (Int × Wire) → List Obj → Except Exc (List Obj)
  | [], as => .ok as
  | (fid, w) :: ws, as =>
    match position d.fields fid with
    | none => readFields fast S d ws as
    | some i =>
      match d.fields[i]? with
      | none => readFields fast S d ws as  -- does not happen: `i` is a position in the list
      | some f =>
        if w.ty = f.ty.wire then do
          let v ← read fast S f.ty w
          let v ← assign S d f v
          readFields fast S d ws (as.set i v)
        else readFields fast S d ws as
termination_by ws => (sizeOf ws, 0)
end

/-- The frameworks that clients are generated for -/
inductive Style where
  | plain | twisted | tornado
  deriving DecidableEq, Repr

/-- A function of a service: its return type and the struct `…_result`, whose first member is `success` unless the return type is void; the others are the
declared exceptions. -/
structure Fn where
  ret : Ty
  oneway : Bool
  result : Name

/-- `o is None` -/
def Obj.isNone : Obj → Bool
  | .none => true
  | _ => false

/-- `recv_…`, cc 1666-1755, when the reply is no `TApplicationException`. `user 0` stands for a declared exception. -/
def recv (fast : Bool) (S : Schema) (fn : Fn) (reply : Wire) : Except Exc Obj := do
  let r ← read fast S (.struct fn.result) reply
  match r with
  | .inst _ as =>
    if fn.ret = .void then
      if as.all Obj.isNone then .ok .none else .error (.user 0)
    else
      match as with
      | a :: as =>
        if a.isNone = false then .ok a
        else if as.all Obj.isNone then .error (.tapplication 5) else .error (.user 0)
      | [] => .error (.tapplication 5)
  | _ => .error .typeError

/-- What a function of a client returns, cc 1536-1605: what `recv_…` returned, or what will give it. All have the annotation `func_hint`, cc 1545. -/
def returned (style : Style) (fn : Fn) (received : Obj) : Obj :=
  match style with
  | .plain => if fn.oneway then .none else received
  | .twisted => .deferred
  | .tornado => if fn.oneway then .none else .deferred

end Thrift.Hints
