import Verif.Model.Types
import Verif.Model.Pack
/-
`TProtocolBase`: recursion counter, length checks, `skip`, and reading and writing of values
described by a `thrift_spec`, over abstract protocol operations.
-/

namespace Thrift

/-- The reading operations a protocol class implements. `readFieldBegin` returns the field type
and the field id (the name is always `None` in the protocols modelled); `readMapBegin` returns key
type, value type and size; `readListBegin` and `readSetBegin` return element type and size. -/
structure RdOps (σ : Type) where
  readStructBegin : P σ Unit
  readStructEnd : P σ Unit
  readFieldBegin : P σ (Int × Int)
  readFieldEnd : P σ Unit
  readMapBegin : P σ (Int × Int × Int)
  readMapEnd : P σ Unit
  readListBegin : P σ (Int × Int)
  readListEnd : P σ Unit
  readSetBegin : P σ (Int × Int)
  readSetEnd : P σ Unit
  readBool : P σ Bool
  readByte : P σ Int
  readI16 : P σ Int
  readI32 : P σ Int
  readI64 : P σ Int
  readDouble : P σ UInt64
  readString : P σ PyStr
  readBinary : P σ Bytes
  readUuid : P σ Bytes

/-- The writing operations a protocol class implements. -/
structure WrOps (σ : Type) where
  writeStructBegin : W σ Unit
  writeStructEnd : W σ Unit
  writeFieldBegin : (ttype fid : Int) → W σ Unit
  writeFieldEnd : W σ Unit
  writeFieldStop : W σ Unit
  writeMapBegin : (ktype vtype size : Int) → W σ Unit
  writeMapEnd : W σ Unit
  writeListBegin : (etype size : Int) → W σ Unit
  writeListEnd : W σ Unit
  writeSetBegin : (etype size : Int) → W σ Unit
  writeSetEnd : W σ Unit
  writeBool : Bool → W σ Unit
  writeByte : Int → W σ Unit
  writeI16 : Int → W σ Unit
  writeI32 : Int → W σ Unit
  writeI64 : Int → W σ Unit
  writeDouble : UInt64 → W σ Unit
  writeString : PyStr → W σ Unit
  writeBinary : Bytes → W σ Unit
  writeUuid : Bytes → W σ Unit

/-- `DEFAULT_RECURSION_DEPTH`, `lib/py/src/protocol/TProtocol.py:46`. -/
def recursionLimit : Int := 64

section
variable {σ : Type} [HasDepth σ]

/-- `increment_recursion_depth`, `lib/py/src/protocol/TProtocol.py:54-59`. -/
def incDepth : P σ Unit := do
  P.modify fun s => HasDepth.setDepth (HasDepth.depth s + 1) s
  let s ← P.get
  if HasDepth.depth s > recursionLimit then
    P.modify fun s => HasDepth.setDepth (HasDepth.depth s - 1) s
    P.raise TProtocolException.DEPTH_LIMIT

/-- `decrement_recursion_depth`, `lib/py/src/protocol/TProtocol.py:61-62`. -/
def decDepth (s : σ) : σ := HasDepth.setDepth (HasDepth.depth s - 1) s

/-- `increment_recursion_depth` on a protocol object that is being written to. -/
def incDepthW : W σ Unit := do
  W.modify fun s => HasDepth.setDepth (HasDepth.depth s + 1) s
  let s ← W.get
  if HasDepth.depth s > recursionLimit then
    W.modify fun s => HasDepth.setDepth (HasDepth.depth s - 1) s
    W.raise TProtocolException.DEPTH_LIMIT
end

/-- `_check_length`, `lib/py/src/protocol/TProtocol.py:64-71`; `limit = none` is Python's
`None`. -/
def checkLength (limit : Option Int) (length : Int) : Except Exc Unit :=
  if length < 0 then .error TTransportException.NEGATIVE_SIZE
  else
    match limit with
    | none => .ok ()
    | some l => if length > l then .error TTransportException.SIZE_LIMIT else .ok ()

/-- One iteration of the struct loop of `skip`, `lib/py/src/protocol/TProtocol.py:222-227`;
`skipField` is `self.skip(_, max_depth - 1)`. -/
def skipStructBody {σ : Type} (ops : RdOps σ) (skipField : Int → P σ Unit) :
    Unit → P σ (Unit ⊕ Unit) := fun _ => do
  let (ttype, _) ← ops.readFieldBegin
  if ttype = TType.STOP then pure (.inr ())
  else
    skipField ttype
    ops.readFieldEnd
    pure (.inl ())

/-- `TProtocolBase.skip(ttype, max_depth)`, `lib/py/src/protocol/TProtocol.py:202-250`. The
recursion is on `max_depth`; `fuel` bounds the `while True` loops. `range(size)` of a negative
size is empty, hence `toNat`. -/
def skip {σ : Type} (ops : RdOps σ) (fuel : Nat) : (maxDepth : Nat) → (ttype : Int) → P σ Unit
  | 0, _ => P.raise TProtocolException.DEPTH_LIMIT
  | d + 1, ttype => do
    if ttype = TType.BOOL then let _ ← ops.readBool
    else if ttype = TType.BYTE then let _ ← ops.readByte
    else if ttype = TType.I16 then let _ ← ops.readI16
    else if ttype = TType.I32 then let _ ← ops.readI32
    else if ttype = TType.I64 then let _ ← ops.readI64
    else if ttype = TType.DOUBLE then let _ ← ops.readDouble
    else if ttype = TType.STRING then let _ ← ops.readString
    else if ttype = TType.STRUCT then
      ops.readStructBegin
      P.whileTrue fuel (skipStructBody ops (skip ops fuel d)) ()
      ops.readStructEnd
    else if ttype = TType.MAP then
      let (ktype, vtype, size) ← ops.readMapBegin
      P.repeatN_ size.toNat (do skip ops fuel d ktype; skip ops fuel d vtype)
      ops.readMapEnd
    else if ttype = TType.SET then
      let (etype, size) ← ops.readSetBegin
      P.repeatN_ size.toNat (skip ops fuel d etype)
      ops.readSetEnd
    else if ttype = TType.LIST then
      let (etype, size) ← ops.readListBegin
      P.repeatN_ size.toNat (skip ops fuel d etype)
      ops.readListEnd
    else if ttype = TType.UUID then let _ ← ops.readUuid
    else P.raise TProtocolException.INVALID_DATA

/-- The default of the `max_depth` parameter of `skip`, `TProtocol.py:202`. -/
def skipDepth : Nat := 64

section
variable {σ : Type} [HasDepth σ]

/-- One iteration of the struct reader loop. `gen`: `t_py_generator.cc:1143-1186`; `dyn`:
`lib/py/src/protocol/TProtocol.py:340-359`. A field with a known id and the declared wire type is
read and assigned, anything else is skipped. `readV` reads a value of a declared type. -/
def readStructBody (ops : RdOps σ) (mode : Mode) (fs : List Field)
    (readV : Ty → P σ Val) (skipF : Int → P σ Unit) (attrs : List (Option Val)) :
    P σ (List (Option Val) ⊕ List (Option Val)) := do
  let (ftype, fid) ← ops.readFieldBegin
  if ftype = TType.STOP then pure (.inr attrs)
  else
    match lookupField mode fs fid with
    | none =>
      skipF ftype
      ops.readFieldEnd
      pure (.inl attrs)
    | some i =>
      match fs[i]? with
      | none => P.raise .indexError  -- does not happen: `lookupField` returns a position in `fs`
      | some f =>
        if ftype = f.ty.ttype then
          let v ← readV f.ty
          ops.readFieldEnd
          pure (.inl (attrs.set i (some v)))
        else
          skipF ftype
          ops.readFieldEnd
          pure (.inl attrs)

/-- The part of a struct reader after the depth check: `readStructBegin`, the loop,
`readStructEnd`. -/
def readStructCore (ops : RdOps σ) (mode : Mode) (fuel : Nat) (fs : List Field)
    (readV : Ty → P σ Val) (skipF : Int → P σ Unit) : P σ Val := do
  ops.readStructBegin
  let attrs ← P.whileTrue fuel (readStructBody ops mode fs readV skipF) (initAttrs fs)
  ops.readStructEnd
  pure (.struct attrs)

/-- Read an element that will be put in a `set`: an unhashable element raises `TypeError` when it
is added. -/
def readHashed (readV : Ty → P σ Val) (t : Ty) : P σ Val := do
  let v ← readV t
  if t.hashable then pure v else P.raise .typeError

/-- Read a key and a value that will be put in a `dict`. -/
def readPair (readV : Ty → P σ Val) (k v : Ty) : P σ (Val × Val) := do
  let a ← readV k
  let b ← readV v
  if k.hashable then pure (a, b) else P.raise .typeError

/-- Read a value of a declared type.
`dyn`: `readFieldByTType`, `readContainerList/Set/Map/Struct`, `readStruct`
(`lib/py/src/protocol/TProtocol.py:281-362`), `TBase.read` (`TBase.py:43-49`).
`gen`: the generated `read` and `generate_deserialize_field/container`
(`t_py_generator.cc:1094-1206, 2400-2640`); struct reading is bracketed by the recursion counter
in `try/finally`.
The wire's element types are ignored in both modes. `fuel` bounds nesting and loops. -/
def readVal (ops : RdOps σ) (sch : Schema) (mode : Mode) : (fuel : Nat) → Ty → P σ Val
  | _, .bool => do let b ← ops.readBool; pure (.bool b)
  | _, .byte => do let i ← ops.readByte; pure (.int i)
  | _, .i16 => do let i ← ops.readI16; pure (.int i)
  | _, .i32 => do let i ← ops.readI32; pure (.int i)
  | _, .i64 => do let i ← ops.readI64; pure (.int i)
  | _, .double => do let d ← ops.readDouble; pure (.double d)
  | _, .string => do let s ← ops.readString; pure (.str s)
  | _, .binary => do let b ← ops.readBinary; pure (.bin b)
  | _, .uuid => do let u ← ops.readUuid; pure (.uuid u)
  | 0, _ => P.diverge
  | f + 1, .list e => do
    let (_, size) ← ops.readListBegin
    let vs ← P.repeatN size.toNat (readVal ops sch mode f e)
    ops.readListEnd
    pure (.list vs)
  | f + 1, .set e => do
    let (_, size) ← ops.readSetBegin
    let vs ← P.repeatN size.toNat (readHashed (readVal ops sch mode f) e)
    ops.readSetEnd
    pure (.set (pySet vs))
  | f + 1, .map k v => do
    let (_, _, size) ← ops.readMapBegin
    let kvs ← P.repeatN size.toNat (readPair (readVal ops sch mode f) k v)
    ops.readMapEnd
    pure (.map (pyDict kvs))
  | f + 1, .struct sid =>
    let core := readStructCore ops mode f (sch sid) (readVal ops sch mode f)
      (skip ops f skipDepth)
    match mode with
    | .gen => do
      incDepth
      P.tryFinally core decDepth
    | .dyn => core

/-- Does `validate()` find every required field set?
(`t_py_generator.cc:1263-1287`) -/
def requiredSet : List Field → List (Option Val) → Bool
  | f :: fs, v :: vs => (!f.required || v.isSome) && requiredSet fs vs
  | _, _ => true

mutual
/-- Write a value of a declared type.
`dyn`: `writeFieldByTType`, `writeContainer*`, `writeStruct`
(`lib/py/src/protocol/TProtocol.py:364-416`), `TBase.write`.
`gen`: the generated `write` (`t_py_generator.cc:1208-1261`) and
`generate_serialize_field/container` (`t_py_generator.cc:2640-2800`).
A Python object that does not fit the declared type is modelled as `TypeError`. -/
def writeVal (ops : WrOps σ) (sch : Schema) (mode : Mode) : Ty → Val → W σ Unit
  | .bool, .bool b => ops.writeBool b
  | .byte, .int i => ops.writeByte i
  | .i16, .int i => ops.writeI16 i
  | .i32, .int i => ops.writeI32 i
  | .i64, .int i => ops.writeI64 i
  | .double, .double d => ops.writeDouble d
  | .string, .str s => ops.writeString s
  | .binary, .bin b => ops.writeBinary b
  | .uuid, .uuid u => ops.writeUuid u
  | .list e, .list vs => do
    ops.writeListBegin e.ttype vs.length
    writeElems ops sch mode e vs
    ops.writeListEnd
  | .set e, .set vs => do
    ops.writeSetBegin e.ttype vs.length
    writeElems ops sch mode e vs
    ops.writeSetEnd
  | .map k v, .map kvs => do
    ops.writeMapBegin k.ttype v.ttype kvs.length
    writePairs ops sch mode k v kvs
    ops.writeMapEnd
  | .struct sid, .struct fs =>
    match mode with
    | .gen =>
      if requiredSet (sch sid) fs then do
        incDepthW
        W.tryFinally (do
          ops.writeStructBegin
          writeFields ops sch mode (sch sid) fs
          ops.writeFieldStop
          ops.writeStructEnd) decDepth
      else W.raise TProtocolException.UNKNOWN
    | .dyn => do
      ops.writeStructBegin
      if writerSees mode (sch sid) then writeFields ops sch mode (sch sid) fs else pure ()
      ops.writeFieldStop
      ops.writeStructEnd
  | _, _ => W.raise .typeError
/-- The elements of a list or set. -/
def writeElems (ops : WrOps σ) (sch : Schema) (mode : Mode) : Ty → List Val → W σ Unit
  | _, [] => pure ()
  | e, v :: vs => do
    writeVal ops sch mode e v
    writeElems ops sch mode e vs
/-- The items of a map, key before value. -/
def writePairs (ops : WrOps σ) (sch : Schema) (mode : Mode) :
    Ty → Ty → List (Val × Val) → W σ Unit
  | _, _, [] => pure ()
  | k, v, (a, b) :: kvs => do
    writeVal ops sch mode k a
    writeVal ops sch mode v b
    writePairs ops sch mode k v kvs
/-- The fields of a struct in id order; `None` attributes are skipped. -/
def writeFields (ops : WrOps σ) (sch : Schema) (mode : Mode) :
    List Field → List (Option Val) → W σ Unit
  | f :: fs, some v :: vs => do
    ops.writeFieldBegin f.ty.ttype f.fid
    writeVal ops sch mode f.ty v
    ops.writeFieldEnd
    writeFields ops sch mode fs vs
  | _ :: fs, none :: vs => writeFields ops sch mode fs vs
  | _ :: _, [] => W.raise .attributeError
  | [], _ => pure ()
end
end

/-- `checkIntegerLimits(i, bits)`, `lib/py/src/protocol/TProtocol.py:419-431`. -/
def checkIntegerLimits (i : Int) (bits : Nat) : Except Exc Unit :=
  if bits = 8 ∧ (i < -128 ∨ i > 127) then .error TProtocolException.INVALID_DATA
  else if bits = 16 ∧ (i < -32768 ∨ i > 32767) then .error TProtocolException.INVALID_DATA
  else if bits = 32 ∧ (i < -2147483648 ∨ i > 2147483647) then
    .error TProtocolException.INVALID_DATA
  else if bits = 64 ∧ (i < -9223372036854775808 ∨ i > 9223372036854775807) then
    .error TProtocolException.INVALID_DATA
  else .ok ()

end Thrift
