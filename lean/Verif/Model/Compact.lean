import Verif.Model.Protocol
import Verif.Model.Bits
/-
`TCompactProtocol`, `lib/py/src/protocol/TCompactProtocol.py`.
-/

namespace Thrift.Compact

/-- The protocol states, `TCompactProtocol.py:26-34`. -/
inductive State where
  | CLEAR | FIELD_WRITE | VALUE_WRITE | CONTAINER_WRITE | BOOL_WRITE
  | FIELD_READ | CONTAINER_READ | VALUE_READ | BOOL_READ
  deriving DecidableEq, Repr

/-- Constructor arguments, 141-152. -/
structure Cfg where
  stringLimit : Option Int := none
  containerLimit : Option Int := none

/-- A `TCompactProtocol` object, 144-150. `None` values of `__bool_fid` and `__bool_value` are
never used before being assigned; they are `0` and `false` here. -/
structure St where
  depth : Int := 0
  state : State := .CLEAR
  lastFid : Int := 0
  boolFid : Int := 0
  boolValue : Bool := false
  structs : List (State × Int) := []
  containers : List State := []
  deriving DecidableEq, Repr

instance : HasDepth St where
  depth s := s.depth
  setDepth d s := { s with depth := d }
  depth_set _ _ := rfl
  set_depth _ := rfl
  set_set _ _ _ := rfl

/-! ### Integers -/

/-- `makeZigZag`, 50-52 -/
def makeZigZag (n : Int) (bits : Nat) : Except Exc Int :=
  match checkIntegerLimits n bits with
  | .error e => .error e
  | .ok () => .ok (pyXor (pyShl n 1) (pyShr n (bits - 1)))

/-- `fromZigZag`, 55-56 -/
def fromZigZag (n : Int) : Int := pyXor (pyShr n 1) (-(pyAnd n 1))

/-- The loop of `writeVarint`, 62-68, on a natural number. `n & ~0x7f == 0` holds exactly for
`n < 128`; `(n & 0xff) | 0x80` is below 256, so appending it to a `bytearray` succeeds. The fuel
`n + 1` is never used up, since `n >> 7 < n` in the second branch. -/
def varintLoop : (fuel : Nat) → (n : Nat) → Bytes
  | 0, _ => []
  | f + 1, n =>
    if n < 128 then [UInt8.ofNat n]
    else UInt8.ofNat ((n &&& 0xff) ||| 0x80) :: varintLoop f (n >>> 7)

/-- The bytes `writeVarint` accumulates in `out`. -/
def varintBytes (n : Nat) : Bytes := varintLoop (n + 1) n

/-- `writeVarint`, 59-69 -/
def writeVarint (n : Int) : W St Unit := do
  W.assert (0 ≤ n)
  W.write (varintBytes n.toNat)

/-- The loop of `readVarint`, 78-86: `left` iterations remain. -/
def readVarintLoop : (left : Nat) → (result shift : Nat) → P St Int
  | 0, _, _ => P.raise TProtocolException.INVALID_DATA
  | k + 1, result, shift => do
    let x ← P.readAll 1
    -- `ord(x)`: `readAll(1)` returns one byte
    let byte := beNat x
    let result := result ||| ((byte &&& 0x7f) <<< shift)
    if byte >>> 7 = 0 then pure (result : Int)
    else readVarintLoop k result (shift + 7)

/-- `_MAX_VARINT_BYTES`, 72 -/
def maxVarintBytes : Nat := 10

/-- `readVarint`, 75-86 -/
def readVarint : P St Int := readVarintLoop maxVarintBytes 0 0

/-! ### Types -/

/-! `CompactType`, 90-104 -/
namespace CompactType
def STOP : Int := 0x00
def TRUE : Int := 0x01
def FALSE : Int := 0x02
def BYTE : Int := 0x03
def I16 : Int := 0x04
def I32 : Int := 0x05
def I64 : Int := 0x06
def DOUBLE : Int := 0x07
def BINARY : Int := 0x08
def LIST : Int := 0x09
def SET : Int := 0x0A
def MAP : Int := 0x0B
def STRUCT : Int := 0x0C
def UUID : Int := 0x0D
end CompactType

/-- `CTYPES[t]`, 107-121; a missing key is `KeyError`. -/
def ctypes (t : Int) : Except Exc Int :=
  if t = TType.STOP then .ok CompactType.STOP
  else if t = TType.BOOL then .ok CompactType.TRUE
  else if t = TType.BYTE then .ok CompactType.BYTE
  else if t = TType.I16 then .ok CompactType.I16
  else if t = TType.I32 then .ok CompactType.I32
  else if t = TType.I64 then .ok CompactType.I64
  else if t = TType.DOUBLE then .ok CompactType.DOUBLE
  else if t = TType.STRING then .ok CompactType.BINARY
  else if t = TType.STRUCT then .ok CompactType.STRUCT
  else if t = TType.LIST then .ok CompactType.LIST
  else if t = TType.SET then .ok CompactType.SET
  else if t = TType.MAP then .ok CompactType.MAP
  else if t = TType.UUID then .ok CompactType.UUID
  else .error .keyError

/-- `TTYPES[c]`, 123-126: the inverse of `CTYPES`, with FALSE mapped to BOOL as well. -/
def ttypes (c : Int) : Except Exc Int :=
  if c = CompactType.STOP then .ok TType.STOP
  else if c = CompactType.TRUE then .ok TType.BOOL
  else if c = CompactType.FALSE then .ok TType.BOOL
  else if c = CompactType.BYTE then .ok TType.BYTE
  else if c = CompactType.I16 then .ok TType.I16
  else if c = CompactType.I32 then .ok TType.I32
  else if c = CompactType.I64 then .ok TType.I64
  else if c = CompactType.DOUBLE then .ok TType.DOUBLE
  else if c = CompactType.BINARY then .ok TType.STRING
  else if c = CompactType.STRUCT then .ok TType.STRUCT
  else if c = CompactType.LIST then .ok TType.LIST
  else if c = CompactType.SET then .ok TType.SET
  else if c = CompactType.MAP then .ok TType.MAP
  else if c = CompactType.UUID then .ok TType.UUID
  else .error .keyError

/-- `__getTType`, 444-445 -/
def getTType (byte : Int) : P St Int := P.lift (ttypes (pyAnd byte 0x0f))

/-! ### Writing -/

/-- `__writeUByte`, 217-218 -/
def writeUByte (b : Int) : W St Unit := do
  let x ← W.lift (packU 1 b)
  W.write x

/-- `__writeByte`, 220-221 -/
def writeByteRaw (b : Int) : W St Unit := do
  let x ← W.lift (packS 1 b)
  W.write x

/-- `__writeI16`, 223-224, and the bodies of `writeI32`, `writeI64`, 276-282 -/
def writeZigZag (bits : Nat) (i : Int) : W St Unit := do
  let z ← W.lift (makeZigZag i bits)
  writeVarint z

/-- `__writeSize`, 226-227 -/
def writeSize (i : Int) : W St Unit := writeVarint i

/-- `__writeBinary`, 292-294 -/
def writeBinaryRaw (s : Bytes) : W St Unit := do
  writeSize s.length
  W.write s

/-- The `writer` decorator, 37-46: `assert self.state in (VALUE_WRITE, CONTAINER_WRITE)` -/
def writer (m : W St Unit) : W St Unit := do
  let s ← W.get
  W.assert (s.state == .VALUE_WRITE || s.state == .CONTAINER_WRITE)
  m

/-- `writeStructBegin`, 182-186 -/
def writeStructBegin : W St Unit := do
  let s ← W.get
  W.assert (s.state == .CLEAR || s.state == .CONTAINER_WRITE || s.state == .VALUE_WRITE)
  W.modify fun s => { s with
    structs := (s.state, s.lastFid) :: s.structs, state := .FIELD_WRITE, lastFid := 0 }

/-- `writeStructEnd`, 188-190; `pop` of an empty list is `IndexError`. -/
def writeStructEnd : W St Unit := do
  let s ← W.get
  W.assert (s.state == .FIELD_WRITE)
  match s.structs with
  | [] => W.raise .indexError
  | (st, fid) :: rest => W.set { s with state := st, lastFid := fid, structs := rest }

/-- `writeFieldStop`, 192-193 -/
def writeFieldStop : W St Unit := writeByteRaw 0

/-- `__writeFieldHeader`, 195-202 -/
def writeFieldHeader (type fid : Int) : W St Unit := do
  let s ← W.get
  let delta := fid - s.lastFid
  if 0 < delta ∧ delta ≤ 15 then
    writeUByte (pyOr (pyShl delta 4) type)
  else
    writeByteRaw type
    writeZigZag 16 fid
  W.modify fun s => { s with lastFid := fid }

/-- `writeFieldBegin`, 204-211 -/
def writeFieldBegin (type fid : Int) : W St Unit := do
  let s ← W.get
  W.assert (s.state == .FIELD_WRITE)
  if type = TType.BOOL then
    W.modify fun s => { s with state := .BOOL_WRITE, boolFid := fid }
  else
    W.modify fun s => { s with state := .VALUE_WRITE }
    let c ← W.lift (ctypes type)
    writeFieldHeader c fid

/-- `writeFieldEnd`, 213-215 -/
def writeFieldEnd : W St Unit := do
  let s ← W.get
  W.assert (s.state == .VALUE_WRITE || s.state == .BOOL_WRITE)
  W.modify fun s => { s with state := .FIELD_WRITE }

/-- `writeCollectionBegin`, 229-239 -/
def writeCollectionBegin (etype size : Int) : W St Unit := do
  let s ← W.get
  W.assert (s.state == .VALUE_WRITE || s.state == .CONTAINER_WRITE)
  if size ≤ 14 then
    let c ← W.lift (ctypes etype)
    writeUByte (pyOr (pyShl size 4) c)
  else
    let c ← W.lift (ctypes etype)
    writeUByte (pyOr 0xf0 c)
    writeSize size
  W.modify fun s => { s with containers := s.state :: s.containers, state := .CONTAINER_WRITE }

/-- `writeMapBegin`, 241-249 -/
def writeMapBegin (ktype vtype size : Int) : W St Unit := do
  let s ← W.get
  W.assert (s.state == .VALUE_WRITE || s.state == .CONTAINER_WRITE)
  if size = 0 then writeByteRaw 0
  else
    writeSize size
    let k ← W.lift (ctypes ktype)
    let v ← W.lift (ctypes vtype)
    writeUByte (pyOr (pyShl k 4) v)
  W.modify fun s => { s with containers := s.state :: s.containers, state := .CONTAINER_WRITE }

/-- `writeCollectionEnd`, 251-256 -/
def writeCollectionEnd : W St Unit := do
  let s ← W.get
  W.assert (s.state == .CONTAINER_WRITE)
  match s.containers with
  | [] => W.raise .indexError
  | c :: rest => W.set { s with state := c, containers := rest }

/-- `writeBool`, 258-271 -/
def writeBool (b : Bool) : W St Unit := do
  let s ← W.get
  if s.state = .BOOL_WRITE then
    let ctype := if b then CompactType.TRUE else CompactType.FALSE
    writeFieldHeader ctype s.boolFid
  else if s.state = .CONTAINER_WRITE then
    if b then writeByteRaw CompactType.TRUE else writeByteRaw CompactType.FALSE
  else W.raise .assertion

/-- `writeString`, `TProtocol.py:130-131`: encode, then `writeBinary` (295). -/
def writeString (s : PyStr) : W St Unit := do
  let b ← W.lift (utf8Encode s)
  writer (writeBinaryRaw b)

/-- The writing operations, 182-295. -/
def wr : WrOps St where
  writeStructBegin := writeStructBegin
  writeStructEnd := writeStructEnd
  writeFieldBegin := writeFieldBegin
  writeFieldEnd := writeFieldEnd
  writeFieldStop := writeFieldStop
  writeMapBegin := writeMapBegin
  writeMapEnd := writeCollectionEnd
  writeListBegin := writeCollectionBegin
  writeListEnd := writeCollectionEnd
  writeSetBegin := writeCollectionBegin
  writeSetEnd := writeCollectionEnd
  writeBool := writeBool
  writeByte i := writer (writeByteRaw i)
  writeI16 i := writer (writeZigZag 16 i)
  writeI32 i := writer (writeZigZag 32 i)
  writeI64 i := writer (writeZigZag 64 i)
  -- `pack('<d', x)`, 284-286: the bit pattern, least significant byte first
  writeDouble x := writer (W.write (beBytes 8 x.toNat).reverse)
  writeString := writeString
  writeBinary b := writer (writeBinaryRaw b)
  writeUuid u := writer (W.write u)

/-- `PROTOCOL_ID`, 134 -/
def PROTOCOL_ID : Int := 0x82
/-- `VERSION`, 135 -/
def VERSION : Int := 1
/-- `VERSION_MASK`, 136 -/
def VERSION_MASK : Int := 0x1f
/-- `TYPE_BITS`, 138 -/
def TYPE_BITS : Int := 0x07
/-- `TYPE_SHIFT_AMOUNT`, 139 -/
def TYPE_SHIFT_AMOUNT : Nat := 5

/-- `writeMessageBegin`, 163-176 -/
def writeMessageBegin (name : PyStr) (type seqid : Int) : W St Unit := do
  let s ← W.get
  W.assert (s.state == .CLEAR)
  writeUByte PROTOCOL_ID
  writeUByte (pyOr VERSION (pyShl type TYPE_SHIFT_AMOUNT))
  let tseqid := if seqid < 0 then 2147483648 + (2147483648 + seqid) else seqid
  writeVarint tseqid
  let b ← W.lift (utf8Encode name)
  writeBinaryRaw b
  W.modify fun s => { s with state := .VALUE_WRITE }

/-- `writeMessageEnd`, 178-180 -/
def writeMessageEnd : W St Unit := do
  let s ← W.get
  W.assert (s.state == .VALUE_WRITE)
  W.modify fun s => { s with state := .CLEAR }

/-! ### Reading -/

/-- The `reader` decorator, 37-47: `assert self.state in (VALUE_READ, CONTAINER_READ)` -/
def reader {α : Type} (m : P St α) : P St α := do
  let s ← P.get
  P.assert (s.state == .VALUE_READ || s.state == .CONTAINER_READ)
  m

/-- `__readUByte`, 323-325 -/
def readUByte : P St Int := do
  let b ← P.readAll 1
  pure (unpackU b)

/-- `__readByte`, 327-329 -/
def readByteRaw : P St Int := do
  let b ← P.readAll 1
  pure (unpackS b)

/-- `__readZigZag`, 334-335 -/
def readZigZag : P St Int := do
  let n ← readVarint
  pure (fromZigZag n)

/-- `__readSize`, 337-341; the string is passed as the `type` of the exception there. -/
def readSize : P St Int := do
  let n ← readVarint
  if n < 0 then P.raise TProtocolException.UNKNOWN else pure n

/-- `__readBinary`, 438-441 -/
def readBinaryRaw (cfg : Cfg) : P St Bytes := do
  let size ← readSize
  P.lift (checkLength cfg.stringLimit size)
  P.readAll size

/-- `readFieldBegin`, 297-317 -/
def readFieldBegin : P St (Int × Int) := do
  let s ← P.get
  P.assert (s.state == .FIELD_READ)
  let type ← readUByte
  if pyAnd type 0x0f = TType.STOP then pure (0, 0)
  else
    let delta := pyShr type 4
    let fid ← if delta = 0 then readZigZag else do
      let s ← P.get
      pure (s.lastFid + delta)
    P.modify fun s => { s with lastFid := fid }
    let type := pyAnd type 0x0f
    if type = CompactType.TRUE then
      P.modify fun s => { s with state := .BOOL_READ, boolValue := true }
    else if type = CompactType.FALSE then
      P.modify fun s => { s with state := .BOOL_READ, boolValue := false }
    else
      P.modify fun s => { s with state := .VALUE_READ }
    let t ← getTType type
    pure (t, fid)

/-- `readFieldEnd`, 319-321 -/
def readFieldEnd : P St Unit := do
  let s ← P.get
  P.assert (s.state == .VALUE_READ || s.state == .BOOL_READ)
  P.modify fun s => { s with state := .FIELD_READ }

/-- `readStructBegin`, 367-371 -/
def readStructBegin : P St Unit := do
  let s ← P.get
  P.assert (s.state == .CLEAR || s.state == .CONTAINER_READ || s.state == .VALUE_READ)
  P.modify fun s => { s with
    structs := (s.state, s.lastFid) :: s.structs, state := .FIELD_READ, lastFid := 0 }

/-- `readStructEnd`, 373-375 -/
def readStructEnd : P St Unit := do
  let s ← P.get
  P.assert (s.state == .FIELD_READ)
  match s.structs with
  | [] => P.raise .indexError
  | (st, fid) :: rest => P.set { s with state := st, lastFid := fid, structs := rest }

/-- `readCollectionBegin`, 377-389 -/
def readCollectionBegin (cfg : Cfg) : P St (Int × Int) := do
  let s ← P.get
  P.assert (s.state == .VALUE_READ || s.state == .CONTAINER_READ)
  let sizeType ← readUByte
  let size := pyShr sizeType 4
  let type ← getTType sizeType
  let size ← if size = 15 then readSize else pure size
  P.lift (checkLength cfg.containerLimit size)
  P.modify fun s => { s with containers := s.state :: s.containers, state := .CONTAINER_READ }
  pure (type, size)

/-- `readMapBegin`, 391-402 -/
def readMapBegin (cfg : Cfg) : P St (Int × Int × Int) := do
  let s ← P.get
  P.assert (s.state == .VALUE_READ || s.state == .CONTAINER_READ)
  let size ← readSize
  P.lift (checkLength cfg.containerLimit size)
  let types ← if size > 0 then readUByte else pure 0
  let vtype ← getTType types
  let ktype ← getTType (pyShr types 4)
  P.modify fun s => { s with containers := s.state :: s.containers, state := .CONTAINER_READ }
  pure (ktype, vtype, size)

/-- `readCollectionEnd`, 404-409 -/
def readCollectionEnd : P St Unit := do
  let s ← P.get
  P.assert (s.state == .CONTAINER_READ)
  match s.containers with
  | [] => P.raise .indexError
  | c :: rest => P.set { s with state := c, containers := rest }

/-- `readBool`, 411-418; `True == CompactType.TRUE` holds in Python, `False == CompactType.TRUE`
does not. -/
def readBool : P St Bool := do
  let s ← P.get
  if s.state = .BOOL_READ then pure s.boolValue
  else if s.state = .CONTAINER_READ then do
    let b ← readByteRaw
    pure (b == CompactType.TRUE)
  else P.raise .assertion

/-- `readString`, `TProtocol.py:193-194` with `readBinary`, 442 -/
def readString (cfg : Cfg) : P St PyStr := do
  let b ← reader (readBinaryRaw cfg)
  P.lift (utf8Decode b)

/-- The reading operations, 297-442. -/
def rd (cfg : Cfg) : RdOps St where
  readStructBegin := readStructBegin
  readStructEnd := readStructEnd
  readFieldBegin := readFieldBegin
  readFieldEnd := readFieldEnd
  readMapBegin := readMapBegin cfg
  readMapEnd := readCollectionEnd
  readListBegin := readCollectionBegin cfg
  readListEnd := readCollectionEnd
  readSetBegin := readCollectionBegin cfg
  readSetEnd := readCollectionEnd
  readBool := readBool
  readByte := reader readByteRaw
  readI16 := reader readZigZag
  readI32 := reader readZigZag
  readI64 := reader readZigZag
  readDouble := reader do
    let b ← P.readAll 8
    pure (UInt64.ofNat (beNat b.reverse))
  readString := readString cfg
  readBinary := reader (readBinaryRaw cfg)
  readUuid := reader (P.readAll 16)

/-- `readMessageBegin`, 343-361 -/
def readMessageBegin (cfg : Cfg) : P St (PyStr × Int × Int) := do
  let s ← P.get
  P.assert (s.state == .CLEAR)
  let protoId ← readUByte
  if protoId ≠ PROTOCOL_ID then P.raise TProtocolException.BAD_VERSION
  else
    let verType ← readUByte
    let type := pyAnd (pyShr verType TYPE_SHIFT_AMOUNT) TYPE_BITS
    let version := pyAnd verType VERSION_MASK
    if version ≠ VERSION then P.raise TProtocolException.BAD_VERSION
    else
      let seqid ← readVarint
      let seqid := if seqid > 2147483647 then -2147483648 - (2147483648 - seqid) else seqid
      let b ← readBinaryRaw cfg
      let name ← P.lift (utf8Decode b)
      pure (name, type, seqid)

/-- `readMessageEnd`, 363-365 -/
def readMessageEnd : P St Unit := do
  let s ← P.get
  P.assert (s.state == .CLEAR)
  P.assert (s.structs.isEmpty)

end Thrift.Compact
