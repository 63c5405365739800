import Verif.Model.Binary
import Verif.Model.Compact
/-
The C extension `thrift.protocol.fastbinary`, `lib/py/src/ext/`, and the calls of it that the compiler
puts into generated `read` and `write` methods.

Simplifications. Memory (reference counts, allocation failure) is not modelled. The extension is
compiled for Python 3. `long` has 64 bits and signed arithmetic wraps (what the C++ compilers in use
do). The reading functions take their bytes from a `BytesIO` and a refill function; here `readBytes`
is `readAll`, which is what that amounts to on a transport that holds all the bytes
(`TTransport.py:203-215, 304-325`); `CReadable` has the other transports. The extension's protocol object lives for one call, so its state
after an error is not observable; destructors are modelled where the function goes on. Structs are
mutable classes.
-/

namespace Thrift.Fast

/-! ### Encoding -/

/-- The operations that `BinaryProtocol` (`binary.h:33-101`) and `CompactProtocol`
(`compact.h:38-118`) provide to `encodeValue`. `writeField` gets the wire type and the id of the field,
`PyObject_IsTrue` of the value, and the call of `encodeValue` for the value. -/
structure Wr (σ : Type) where
  writeBool : Bool → W σ Unit
  writeI8 : Int → W σ Unit
  writeI16 : Int → W σ Unit
  writeI32 : Int → W σ Unit
  writeI64 : Int → W σ Unit
  writeDouble : UInt64 → W σ Unit
  writeString : Bytes → W σ Unit
  writeListBegin : (etype len : Int) → W σ Unit
  writeMapBegin : (ktag vtag len : Int) → W σ Unit
  writeStructBegin : W σ Unit
  writeStructEnd : W σ Unit
  writeField : (type tag : Int) → (truth : Bool) → (encode : W σ Unit) → W σ Unit
  writeFieldStop : W σ Unit
  writeUuid : Bytes → W σ Unit

/-- `parse_pyint`, `protocol.tcc:234-248`, and the checks of `T_I64`, 425-435. -/
def parsePyint (i : Int) (bits : Nat) : Except Exc Int :=
  if -(2 : Int) ^ (bits - 1) ≤ i ∧ i ≤ (2 : Int) ^ (bits - 1) - 1 then .ok i
  else .error .overflowError

/-- `check_ssize_t_32`, `protocol.tcc:219-230`: a length that is at most `INT32_MAX`. -/
def checkSsize (n : Nat) : Except Exc Unit :=
  if (n : Int) ≤ 2147483647 then .ok () else .error .overflowError

/-- `PyObject_IsTrue`; only used for fields of type bool. -/
def isTrue : Val → Bool
  | .bool b => b
  | _ => true

section
variable {σ : Type} [HasDepth σ]

mutual
/-- `ProtocolBase::encodeValue`, `protocol.tcc:376-629`. `typeargs` are in the declared type. The
recursion guard (`RecursionGuard`, 203-213; `checkDepthLimit`, 274-296) is that of Python with the
counter of the extension's own object. The loop over the `thrift_spec` of a struct (574-602) skips the
`None` entries and meets the fields in the order of their ids, unless the tuple is empty
(`writerSees`). A Python object that does not fit the declared type is `TypeError`. -/
def encodeValue (ops : Wr σ) (sch : Schema) : Ty → Val → W σ Unit
  | .bool, .bool b => ops.writeBool b
  | .byte, .int i => do let n ← W.lift (parsePyint i 8); ops.writeI8 n
  | .i16, .int i => do let n ← W.lift (parsePyint i 16); ops.writeI16 n
  | .i32, .int i => do let n ← W.lift (parsePyint i 32); ops.writeI32 n
  | .i64, .int i => do let n ← W.lift (parsePyint i 64); ops.writeI64 n
  | .double, .double d => ops.writeDouble d
  | .string, .str s => do
    let b ← W.lift (utf8Encode s)
    W.lift (checkSsize b.length)
    ops.writeString b
  | .binary, .bin b => do
    W.lift (checkSsize b.length)
    ops.writeString b
  | .uuid, .uuid u => if u.length = 16 then ops.writeUuid u else W.raise .typeError
  | .list e, .list vs => do
    W.lift (checkSsize vs.length)
    ops.writeListBegin e.ttype vs.length
    encodeElems ops sch e vs
  | .set e, .set vs => do
    W.lift (checkSsize vs.length)
    ops.writeListBegin e.ttype vs.length
    encodeElems ops sch e vs
  | .map k v, .map kvs => do
    W.lift (checkSsize kvs.length)
    ops.writeMapBegin k.ttype v.ttype kvs.length
    encodePairs ops sch k v kvs
  | .struct sid, .struct fs => do
    incDepthW
    W.tryFinally (do
      ops.writeStructBegin
      if writerSees .dyn (sch sid) then encodeFields ops sch (sch sid) fs else pure ()
      ops.writeFieldStop
      ops.writeStructEnd) decDepth
  | _, _ => W.raise .typeError
/-- The elements of a list or set, `protocol.tcc:518-523`. -/
def encodeElems (ops : Wr σ) (sch : Schema) : Ty → List Val → W σ Unit
  | _, [] => pure ()
  | e, v :: vs => do
    encodeValue ops sch e v
    encodeElems ops sch e vs
/-- The items of a map, `protocol.tcc:546-552`. -/
def encodePairs (ops : Wr σ) (sch : Schema) : Ty → Ty → List (Val × Val) → W σ Unit
  | _, _, [] => pure ()
  | k, v, (a, b) :: kvs => do
    encodeValue ops sch k a
    encodeValue ops sch v b
    encodePairs ops sch k v kvs
/-- The fields of a struct, `protocol.tcc:574-602`; `None` attributes are skipped. -/
def encodeFields (ops : Wr σ) (sch : Schema) : List Field → List (Option Val) → W σ Unit
  | f :: fs, some v :: vs => do
    ops.writeField f.ty.ttype f.fid (isTrue v) (encodeValue ops sch f.ty v)
    encodeFields ops sch fs vs
  | _ :: fs, none :: vs => encodeFields ops sch fs vs
  | _ :: _, [] => W.raise .attributeError
  | [], _ => pure ()
end

/-- `encode_impl`, `module.cpp:53-74`: a fresh protocol object, the encoded bytes or the
exception. -/
def encode (ops : Wr σ) (init : σ) (sch : Schema) (sid : Nat) (v : Val) : Except Exc Bytes :=
  match encodeValue ops sch (.struct sid) v init [] with
  | (.ok (), _, out) => .ok out
  | (.error e, _, _) => .error e

/-- The generated `write` with a protocol that has `_fast_encode`, `t_py_generator.cc:1208-1224`: only
the outermost struct is validated, then `trans.write(oprot._fast_encode(...))`. -/
def acceleratedWrite (ops : Wr σ) (init : σ) (sch : Schema) (sid : Nat) (v : Val) :
    Except Exc Bytes :=
  match v with
  | .struct fs =>
    if requiredSet (sch sid) fs then encode ops init sch sid v
    else .error TProtocolException.UNKNOWN
  | _ => .error .attributeError
end

/-- An unsigned number of `bits` bits with the same low bits. -/
def wrap (bits : Nat) (i : Int) : Nat := (i % (2 ^ bits : Int)).toNat

/-- `BinaryProtocol`, `binary.h:37-101`. The only state is the recursion counter. -/
def binaryWr : Wr Binary.St where
  writeBool b := W.write [if b then 1 else 0]
  writeI8 i := W.write (beBytes 1 (wrap 8 i))
  writeI16 i := W.write (beBytes 2 (wrap 16 i))
  writeI32 i := W.write (beBytes 4 (wrap 32 i))
  writeI64 i := W.write (beBytes 8 (wrap 64 i))
  writeDouble x := W.write (beBytes 8 x.toNat)
  writeString b := do W.write (beBytes 4 (wrap 32 b.length)); W.write b
  writeListBegin e n := do W.write [UInt8.ofNat (wrap 8 e)]; W.write (beBytes 4 (wrap 32 n))
  writeMapBegin k v n := do
    W.write [UInt8.ofNat (wrap 8 k)]
    W.write [UInt8.ofNat (wrap 8 v)]
    W.write (beBytes 4 (wrap 32 n))
  writeStructBegin := pure ()
  writeStructEnd := pure ()
  writeField type tag _ encode := do
    W.write [UInt8.ofNat (wrap 8 type)]
    W.write (beBytes 2 (wrap 16 tag))
    encode
  writeFieldStop := W.write [0]
  writeUuid u := W.write u

/-- A `CompactProtocol` object, `compact.h:370-376`: the recursion counter, the stacks of the last field
ids, `readBool_` (`none`: `exists` is false). -/
structure CSt where
  depth : Int := 0
  writeTags : List Int := []
  readTags : List Int := []
  readBool : Option Bool := none
  deriving DecidableEq, Repr

instance : HasDepth CSt where
  depth s := s.depth
  setDepth d s := { s with depth := d }
  depth_set _ _ := rfl
  set_depth _ := rfl
  set_set _ _ _ := rfl

/-- `TTypeToCType[t]`, `compact.cpp:29-47`. All declared types are in the table. -/
def toCompactType (t : Int) : Nat :=
  ([0, 0, 1, 3, 7, 0, 4, 0, 5, 0, 6, 8, 12, 11, 10, 9, 13] : List Nat).getD t.toNat 0

/-- `toZigZag` and `toZigZag64`, `compact.h:306-308`. -/
def toZigZag (bits : Nat) (i : Int) : Nat := wrap bits (pyXor (pyShr i (bits - 1)) (pyShl i 1))

/-- The loop of `writeVarint` and `writeVarint64`, `compact.h:310-330`. `val & ~0x7f` is zero exactly
for `val < 128`. The fuel `n + 1` is not used up. -/
def varintLoop : (fuel : Nat) → (n : Nat) → Bytes
  | 0, _ => []
  | f + 1, n =>
    if n < 128 then [UInt8.ofNat n]
    else UInt8.ofNat ((n &&& 0x7f) ||| 0x80) :: varintLoop f (n >>> 7)

/-- `writeVarint`, `writeVarint64`, `compact.h:310-330`. -/
def writeVarint (n : Nat) : W CSt Unit := W.write (varintLoop (n + 1) n)

/-- `doWriteFieldBegin`, `compact.h:359-368`. `top()` of an empty stack is undefined; a struct is open
whenever a field is written. -/
def doWriteFieldBegin (tag : Int) (ctype : Nat) : W CSt Unit := do
  let s ← W.get
  let diff := tag - s.writeTags.headD 0
  if diff > 0 ∧ diff ≤ 15 then
    W.write [UInt8.ofNat (diff.toNat <<< 4 ||| ctype)]
  else
    W.write [UInt8.ofNat ctype]
    writeVarint (toZigZag 32 tag)
  W.modify fun s => { s with writeTags := tag :: s.writeTags.tail }

/-- `CompactProtocol`, `compact.h:44-118`. -/
def compactWr : Wr CSt where
  writeBool b := W.write [if b then 1 else 2]
  writeI8 i := W.write (beBytes 1 (wrap 8 i))
  writeI16 i := writeVarint (toZigZag 32 i)
  writeI32 i := writeVarint (toZigZag 32 i)
  writeI64 i := writeVarint (toZigZag 64 i)
  writeDouble x := W.write (beBytes 8 x.toNat).reverse
  writeString b := do writeVarint (wrap 32 b.length); W.write b
  writeListBegin e n :=
    if n ≤ 14 then W.write [UInt8.ofNat (wrap 32 n <<< 4 ||| toCompactType e)]
    else do
      W.write [UInt8.ofNat (0xf0 ||| toCompactType e)]
      writeVarint (wrap 32 n)
  writeMapBegin k v n :=
    if n = 0 then W.write [0]
    else do
      writeVarint (wrap 32 n)
      W.write [UInt8.ofNat (toCompactType k <<< 4 ||| toCompactType v)]
  writeStructBegin := W.modify fun s => { s with writeTags := 0 :: s.writeTags }
  writeStructEnd := W.modify fun s => { s with writeTags := s.writeTags.tail }
  writeField type tag truth encode :=
    if type = TType.BOOL then doWriteFieldBegin tag (if truth then 1 else 2)
    else do
      doWriteFieldBegin tag (toCompactType type)
      encode
  writeFieldStop := W.write [0]
  writeUuid u := W.write u

/-! ### Decoding -/

/-- The operations that `BinaryProtocol` (`binary.h:103-228`) and `CompactProtocol`
(`compact.h:120-286`) provide to `decodeValue` and `skip`. `readString` returns the bytes. The `skip`
operations that are not listed read the value and drop it. -/
structure Rd (σ : Type) where
  readBool : P σ Bool
  readI8 : P σ Int
  readI16 : P σ Int
  readI32 : P σ Int
  readI64 : P σ Int
  readDouble : P σ UInt64
  readString : P σ Bytes
  readUuid : P σ Bytes
  readListBegin : P σ (Int × Int)
  readMapBegin : P σ (Int × Int × Int)
  readStructBegin : P σ Unit
  readStructEnd : P σ Unit
  readFieldBegin : P σ (Int × Int)
  skipString : P σ Unit
  skipUuid : P σ Unit

/-- What is outside of the library. -/
structure Env where
  /-- `PyUnicode_DecodeUTF8(b, len, "replace")` -/
  replace : Bytes → PyStr
  /-- Sixteen bytes of memory that a failed `readUuid` leaves the caller with: the rest of the buffer
  and what happens to be behind it. -/
  beyond : Bytes

/-- The contract of `"replace"`: valid UTF-8 is decoded as usual. -/
def Env.Decodes (env : Env) : Prop := ∀ b s, utf8Decode b = .ok s → env.replace b = s

/-- `readBytes`, `protocol.tcc:299-337`. -/
def readBytes {σ : Type} (len : Int) : P σ Bytes :=
  if len < 0 then P.raise .valueError else P.readAll len

/-- `checkLengthLimit`, `protocol.tcc:261-271`. -/
def checkLengthLimit (len limit : Int) : Except Exc Unit :=
  if len < 0 then .error .overflowError
  else if len > limit then .error .overflowError
  else .ok ()

/-- `as_long_then_delete(..., INT32_MAX)`, `module.cpp:76-84, 96-102`; `None` is no integer. -/
def limitOf : Option Int → Int
  | none => 2147483647
  | some l => l

/-- One iteration of the struct loop of `skip`, `protocol.tcc:693-705`. -/
def skipStructBody {σ : Type} (ops : Rd σ) (skipField : Int → P σ Unit) :
    Unit → P σ (Unit ⊕ Unit) := fun _ => do
  let (type, _) ← ops.readFieldBegin
  if type = TType.STOP then pure (.inr ())
  else
    skipField type
    pure (.inl ())

section
variable {σ : Type} [HasDepth σ]

/-- `ProtocolBase::skip`, `protocol.tcc:631-721`. Every call passes the recursion guard. `fuel` bounds
nesting and loops. -/
def skip (ops : Rd σ) : (fuel : Nat) → (type : Int) → P σ Unit
  | 0, _ => P.diverge
  | f + 1, type => do
    incDepth
    P.tryFinally (
      if type = TType.BOOL then do let _ ← ops.readBool
      else if type = TType.BYTE then do let _ ← ops.readI8
      else if type = TType.I16 then do let _ ← ops.readI16
      else if type = TType.I32 then do let _ ← ops.readI32
      else if type = TType.I64 then do let _ ← ops.readI64
      else if type = TType.DOUBLE then do let _ ← ops.readDouble
      else if type = TType.STRING then ops.skipString
      else if type = TType.LIST ∨ type = TType.SET then do
        let (etype, len) ← ops.readListBegin
        P.repeatN_ len.toNat (skip ops f etype)
      else if type = TType.MAP then do
        let (ktype, vtype, len) ← ops.readMapBegin
        P.repeatN_ len.toNat (do skip ops f ktype; skip ops f vtype)
      else if type = TType.STRUCT then do
        ops.readStructBegin
        P.whileTrue f (skipStructBody ops (skip ops f)) ()
        ops.readStructEnd
      else if type = TType.UUID then ops.skipUuid
      else P.raise .typeError) decDepth

/-- The entry of the `thrift_spec` for a field id, `protocol.tcc:1001-1021`: nothing for a negative id
and for an id beyond the end, and `None` entries. -/
def specEntry (fs : List Field) (tag : Int) : Option Nat :=
  if tag < 0 then none
  else
    match (thriftSpec fs)[tag.toNat]? with
    | some (some i) => some i
    | _ => none

/-- One iteration of the loop of `readStruct`, `protocol.tcc:991-1046`. -/
def readStructBody (ops : Rd σ) (fs : List Field) (decode : Ty → P σ Val) (skipF : Int → P σ Unit)
    (attrs : List (Option Val)) : P σ (List (Option Val) ⊕ List (Option Val)) := do
  let (type, tag) ← ops.readFieldBegin
  if type = TType.STOP then pure (.inr attrs)
  else
    match specEntry fs tag with
    | none =>
      skipF type
      pure (.inl attrs)
    | some i =>
      match fs[i]? with
      | none => P.raise .indexError  -- does not happen: `specEntry` returns a position in `fs`
      | some f =>
        if f.ty.ttype ≠ type then
          skipF type
          pure (.inl attrs)
        else
          let v ← decode f.ty
          pure (.inl (attrs.set i (some v)))

/-- If `m` raises, a `TypeError` is raised instead: `decodeValue` stores the length -1 of a failed
`readMapBegin` in an unsigned variable, so that the failure is only noticed by `checkType`
(`protocol.tcc:834-839`; `ktype` or `vtype` is then `T_STOP` or `T_INVALID`). -/
def orTypeError {α : Type} (m : P σ α) : P σ α := fun s =>
  (m s).bind fun r =>
    match r with
    | (.ok a, s') => .ret (.ok a, s')
    | (.error _, s') => .ret (.error .typeError, s')

/-- A `set` of the elements of a list, `PySet_New`. -/
def newSet (e : Ty) (vs : List Val) : Except Exc Val :=
  if e.hashable || vs.isEmpty then .ok (.set (pySet vs)) else .error .typeError

/-- A key and a value, then `PyDict_SetItem`, `protocol.tcc:846-857`. -/
def decodePair (decode : Ty → P σ Val) (k v : Ty) : P σ (Val × Val) := do
  let a ← decode k
  let b ← decode v
  if k.hashable then pure (a, b) else P.raise .typeError

/-- `ProtocolBase::decodeValue`, `protocol.tcc:725-935`, and `readStruct`, 938-1056. `fuel` bounds
nesting and loops. -/
def decodeValue (env : Env) (ops : Rd σ) (sch : Schema) : (fuel : Nat) → Ty → P σ Val
  | _, .bool => do let b ← ops.readBool; pure (.bool b)
  | _, .byte => do let i ← ops.readI8; pure (.int i)
  | _, .i16 => do let i ← ops.readI16; pure (.int i)
  | _, .i32 => do let i ← ops.readI32; pure (.int i)
  | _, .i64 => do let i ← ops.readI64; pure (.int i)
  | _, .double => do let d ← ops.readDouble; pure (.double d)
  | _, .string => do let b ← ops.readString; pure (.str (env.replace b))
  | _, .binary => do let b ← ops.readString; pure (.bin b)
  | _, .uuid => do let u ← ops.readUuid; pure (.uuid u)
  | 0, _ => P.diverge
  | f + 1, .list e => do
    let (etype, len) ← ops.readListBegin
    if len > 0 ∧ etype ≠ e.ttype then P.raise .typeError
    else
      let vs ← P.repeatN len.toNat (decodeValue env ops sch f e)
      pure (.list vs)
  | f + 1, .set e => do
    let (etype, len) ← ops.readListBegin
    if len > 0 ∧ etype ≠ e.ttype then P.raise .typeError
    else
      let vs ← P.repeatN len.toNat (decodeValue env ops sch f e)
      P.lift (newSet e vs)
  | f + 1, .map k v => do
    let (ktype, vtype, len) ← orTypeError ops.readMapBegin
    if len > 0 ∧ (ktype ≠ k.ttype ∨ vtype ≠ v.ttype) then P.raise .typeError
    else
      let kvs ← P.repeatN len.toNat (decodePair (decodeValue env ops sch f) k v)
      pure (.map (pyDict kvs))
  | f + 1, .struct sid => do
    incDepth
    P.tryFinally (do
      ops.readStructBegin
      let attrs ← P.whileTrue f (readStructBody ops (sch sid) (decodeValue env ops sch f) (skip ops f))
        (initAttrs (sch sid))
      ops.readStructEnd
      pure (.struct attrs)) decDepth
end

/-- `readBytes` of the `n` bytes of a signed integer, most significant first (`ntohs`, `ntohl`,
`ntohll`), `binary.h:112-147`. -/
def readInt (n : Nat) : P Binary.St Int := do
  let b ← readBytes n
  pure (unpackS b)

/-- `readByte`, `protocol.h:69-76` -/
def readByte {σ : Type} : P σ Int := do
  let b ← readBytes 1
  pure (unpackU b)

/-- `readString`, `binary.h:162-168` -/
def binaryReadString (cfg : Binary.Cfg) : P Binary.St Bytes := do
  let len ← readInt 4
  P.lift (checkLengthLimit len (limitOf cfg.stringLimit))
  readBytes len

/-- `readUuid`, `binary.h:170-175`, as `decodeValue` uses it (`protocol.tcc:889-893`): a failure is
reported as -1, which the caller takes for success, and sixteen bytes are taken from where the unread
bytes began. The pending exception is not modelled: the bytes are used up, so the reading of the
enclosing struct fails anyway. -/
def binaryReadUuid (env : Env) : P Binary.St Bytes := fun s =>
  (P.readAll (σ := Binary.St) 16 s).bind fun r =>
    match r with
    | (.ok u, s') => .ret (.ok u, s')
    | (.error _, s') => .ret (.ok env.beyond, s')

/-- `readFieldBegin`, `binary.cpp:27-37` -/
def binaryReadFieldBegin : P Binary.St (Int × Int) := do
  let type ← readByte
  if type = TType.STOP then pure (type, 0)
  else
    let tag ← readInt 2
    pure (type, tag)

/-- `readListBegin`, `binary.h:177-185` -/
def binaryReadListBegin (cfg : Binary.Cfg) : P Binary.St (Int × Int) := do
  let b ← readByte
  let len ← readInt 4
  P.lift (checkLengthLimit len (limitOf cfg.containerLimit))
  pure (b, len)

/-- `readMapBegin`, `binary.h:187-196` -/
def binaryReadMapBegin (cfg : Binary.Cfg) : P Binary.St (Int × Int × Int) := do
  let k ← readByte
  let v ← readByte
  let len ← readInt 4
  P.lift (checkLengthLimit len (limitOf cfg.containerLimit))
  pure (k, v, len)

/-- `BinaryProtocol`, `binary.h:103-228`. -/
def binaryRd (env : Env) (cfg : Binary.Cfg) : Rd Binary.St where
  readBool := do
    let b ← readBytes 1
    pure (unpackU b == 1)
  readI8 := readInt 1
  readI16 := readInt 2
  readI32 := readInt 4
  readI64 := readInt 8
  readDouble := do
    let b ← readBytes 8
    pure (UInt64.ofNat (beNat b))
  readString := binaryReadString cfg
  readUuid := binaryReadUuid env
  readListBegin := binaryReadListBegin cfg
  readMapBegin := binaryReadMapBegin cfg
  readStructBegin := pure ()
  readStructEnd := pure ()
  readFieldBegin := binaryReadFieldBegin
  skipString := do
    let len ← readInt 4
    let _ ← readBytes len
  skipUuid := do let _ ← readBytes 16

/-- The loop of `readVarint<T, Max>`, `compact.h:332-351`, for a `T` of `bits` bits; `left` iterations
remain. -/
def readVarintLoop (bits : Nat) : (left : Nat) → (val shift : Nat) → P CSt Nat
  | 0, _, _ => P.raise .overflowError
  | k + 1, val, shift => do
    let x ← readBytes 1
    let b := beNat x
    if b &&& 0x80 ≠ 0 then
      readVarintLoop bits k ((val ||| ((b &&& 0x7f) <<< shift)) % 2 ^ bits) (shift + 7)
    else pure ((val ||| (b <<< shift)) % 2 ^ bits)

/-- `readVarint<uint16_t, 3>`, `readVarint<uint32_t, 5>`, `readVarint<uint64_t, 10>` -/
def readVarint16 : P CSt Nat := readVarintLoop 16 3 0 0
def readVarint32 : P CSt Nat := readVarintLoop 32 5 0 0
def readVarint64 : P CSt Nat := readVarintLoop 64 10 0 0

/-- A signed number of `bits` bits with the given bits. -/
def signed (bits : Nat) (n : Nat) : Int := if n < 2 ^ (bits - 1) then n else (n : Int) - 2 ^ bits

/-- `fromZigZag`, `compact.h:353-356`. -/
def fromZigZag (bits : Nat) (n : Nat) : Int :=
  signed bits ((n >>> 1) ^^^ wrap bits (-((n &&& 1 : Nat) : Int)))

/-- `getTType`, `compact.cpp:77-109` -/
def getTType (c : Int) : Except Exc Int :=
  if c = 0 then .ok TType.STOP
  else if c = 1 ∨ c = 2 then .ok TType.BOOL
  else if c = 3 then .ok TType.BYTE
  else if c = 4 then .ok TType.I16
  else if c = 5 then .ok TType.I32
  else if c = 6 then .ok TType.I64
  else if c = 7 then .ok TType.DOUBLE
  else if c = 8 then .ok TType.STRING
  else if c = 9 then .ok TType.LIST
  else if c = 10 then .ok TType.SET
  else if c = 11 then .ok TType.MAP
  else if c = 12 then .ok TType.STRUCT
  else if c = 13 then .ok TType.UUID
  else .error .typeError

/-- `readBool`, `compact.h:120-132` -/
def compactReadBool : P CSt Bool := do
  let s ← P.get
  match s.readBool with
  | some b =>
    P.set { s with readBool := none }
    pure b
  | none =>
    let b ← readBytes 1
    pure (unpackS b == 1)

/-- The length in front of a string or in a container header: checked as an `int32_t`. -/
def checkLen (n : Nat) (limit : Option Int) : Except Exc Unit :=
  checkLengthLimit (signed 32 n) (limitOf limit)

/-- `readString`, `compact.h:183-195` -/
def compactReadString (cfg : Compact.Cfg) : P CSt Bytes := do
  let len ← readVarint32
  P.lift (checkLen len cfg.stringLimit)
  if len = 0 then pure [] else readBytes len

/-- `readListBegin`, `compact.h:197-214` -/
def compactReadListBegin (cfg : Compact.Cfg) : P CSt (Int × Int) := do
  let b ← readByte
  let etype ← P.lift (getTType (pyAnd b 0xf))
  let len := pyAnd (pyShr b 4) 0xf
  let len ← if len = 15 then do let n ← readVarint32; pure n else pure len.toNat
  P.lift (checkLen len cfg.containerLimit)
  pure (etype, (len : Int))

/-- `readMapBegin`, `compact.h:216-233` -/
def compactReadMapBegin (cfg : Compact.Cfg) : P CSt (Int × Int × Int) := do
  let len ← readVarint32
  P.lift (checkLen len cfg.containerLimit)
  if len ≠ 0 then
    let kv ← readByte
    -- both types are looked up before either is tested
    let ktype ← P.lift (getTType (pyShr kv 4))
    let vtype ← P.lift (getTType (pyAnd kv 0xf))
    pure (ktype, vtype, (len : Int))
  else pure (TType.STOP, TType.STOP, 0)

/-- `readI16`, `compact.h:142-149` -/
def compactReadI16 : P CSt Int := do let n ← readVarint16; pure (fromZigZag 16 n)

/-- `readFieldBegin`, `compact.cpp:49-75`. The sum is stored in an `int16_t`. -/
def compactReadFieldBegin : P CSt (Int × Int) := do
  let b ← readByte
  let ctype := pyAnd b 0xf
  let type ← P.lift (getTType ctype)
  if type = TType.STOP then pure (type, 0)
  else
    let diff := pyShr b 4
    let s ← P.get
    let tag ← if diff ≠ 0 then pure (signed 16 (wrap 16 (s.readTags.headD 0 + diff))) else compactReadI16
    if ctype = 1 ∨ ctype = 2 then P.modify fun s => { s with readBool := some (ctype == 1) }
    else pure ()
    P.modify fun s => { s with readTags := tag :: s.readTags.tail }
    pure (type, tag)

/-- `CompactProtocol`, `compact.h:120-286`. -/
def compactRd (cfg : Compact.Cfg) : Rd CSt where
  readBool := compactReadBool
  readI8 := do
    let b ← readBytes 1
    pure (unpackS b)
  readI16 := compactReadI16
  readI32 := do let n ← readVarint32; pure (fromZigZag 32 n)
  readI64 := do let n ← readVarint64; pure (fromZigZag 64 n)
  readDouble := do
    let b ← readBytes 8
    pure (UInt64.ofNat (beNat b.reverse))
  readString := compactReadString cfg
  readUuid := readBytes 16
  readListBegin := compactReadListBegin cfg
  readMapBegin := compactReadMapBegin cfg
  readStructBegin := P.modify fun s => { s with readTags := 0 :: s.readTags }
  readStructEnd := P.modify fun s => { s with readTags := s.readTags.tail }
  readFieldBegin := compactReadFieldBegin
  skipString := do
    let len ← readVarint32
    let _ ← readBytes (signed 32 len)
  skipUuid := do let _ ← readBytes 16

end Thrift.Fast
