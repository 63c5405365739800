import Verif.Model.Protocol
import Verif.Model.Bits
/-
`TBinaryProtocol`, `lib/py/src/protocol/TBinaryProtocol.py`.
-/

namespace Thrift.Binary

/-- Constructor arguments, `TBinaryProtocol.py:41-46`. -/
structure Cfg where
  strictRead : Bool := false
  strictWrite : Bool := true
  stringLimit : Option Int := none
  containerLimit : Option Int := none

/-- The mutable part of a `TBinaryProtocol` object: only the recursion counter of
`TProtocolBase` (`TProtocol.py:52`). -/
structure St where
  depth : Int := 0
  deriving DecidableEq, Repr

instance : HasDepth St where
  depth s := s.depth
  setDepth d _ := ⟨d⟩
  depth_set _ _ := rfl
  set_depth _ := rfl
  set_set _ _ _ := rfl

/-- `VERSION_MASK`, `TBinaryProtocol.py:34`. -/
def VERSION_MASK : Int := -65536
/-- `VERSION_1`, `TBinaryProtocol.py:37`. -/
def VERSION_1 : Int := -2147418112
/-- `TYPE_MASK`, `TBinaryProtocol.py:39`. -/
def TYPE_MASK : Int := 0xff

/-! ### Writing, `TBinaryProtocol.py:54-136` -/

/-- `self.trans.write(pack(fmt, i))` for a signed format of `n` bytes. -/
def writeInt (n : Nat) (i : Int) : W St Unit := do
  let b ← W.lift (packS n i)
  W.write b

/-- `writeByte`, 111-113 -/
def writeByte (i : Int) : W St Unit := writeInt 1 i
/-- `writeI16`, 115-117 -/
def writeI16 (i : Int) : W St Unit := writeInt 2 i
/-- `writeI32`, 119-121 -/
def writeI32 (i : Int) : W St Unit := writeInt 4 i
/-- `writeI64`, 123-125 -/
def writeI64 (i : Int) : W St Unit := writeInt 8 i
/-- `writeBool`, 105-109 -/
def writeBool (b : Bool) : W St Unit := if b then writeByte 1 else writeByte 0
/-- `writeDouble`, 127-129: `pack('!d', x)` is the bit pattern, most significant byte first. -/
def writeDouble (x : UInt64) : W St Unit := W.write (beBytes 8 x.toNat)
/-- `writeBinary`, 131-133 -/
def writeBinary (b : Bytes) : W St Unit := do
  writeI32 b.length
  W.write b
/-- `writeString`, `TProtocol.py:130-131` -/
def writeString (s : PyStr) : W St Unit := do
  let b ← W.lift (utf8Encode s)
  writeBinary b
/-- `writeUuid`, 135-136; a `uuid.UUID` is its 16 bytes. -/
def writeUuid (u : Bytes) : W St Unit := W.write u

/-- The writing operations, 67-136. -/
def wr : WrOps St where
  writeStructBegin := pure ()
  writeStructEnd := pure ()
  writeFieldBegin t fid := do writeByte t; writeI16 fid
  writeFieldEnd := pure ()
  writeFieldStop := writeByte TType.STOP
  writeMapBegin k v n := do writeByte k; writeByte v; writeI32 n
  writeMapEnd := pure ()
  writeListBegin e n := do writeByte e; writeI32 n
  writeListEnd := pure ()
  writeSetBegin e n := do writeByte e; writeI32 n
  writeSetEnd := pure ()
  writeBool := writeBool
  writeByte := writeByte
  writeI16 := writeI16
  writeI32 := writeI32
  writeI64 := writeI64
  writeDouble := writeDouble
  writeString := writeString
  writeBinary := writeBinary
  writeUuid := writeUuid

/-- `writeMessageBegin`, 54-62 -/
def writeMessageBegin (cfg : Cfg) (name : PyStr) (type seqid : Int) : W St Unit :=
  if cfg.strictWrite then do
    writeI32 (pyOr VERSION_1 type)
    writeString name
    writeI32 seqid
  else do
    writeString name
    writeByte type
    writeI32 seqid

/-! ### Reading, `TBinaryProtocol.py:138-245` -/

/-- `val, = unpack(fmt, self.trans.readAll(n))` for a signed format of `n` bytes. -/
def readInt (n : Nat) : P St Int := do
  let b ← P.readAll n
  pure (unpackS b)

/-- `readByte`, 211-214 -/
def readByte : P St Int := readInt 1
/-- `readI16`, 216-219 -/
def readI16 : P St Int := readInt 2
/-- `readI32`, 221-224 -/
def readI32 : P St Int := readInt 4
/-- `readI64`, 226-229 -/
def readI64 : P St Int := readInt 8
/-- `readBool`, 205-209 -/
def readBool : P St Bool := do
  let b ← readByte
  if b = 0 then pure false else pure true
/-- `readDouble`, 231-234 -/
def readDouble : P St UInt64 := do
  let b ← P.readAll 8
  pure (UInt64.ofNat (beNat b))
/-- `readBinary`, 236-240 -/
def readBinary (cfg : Cfg) : P St Bytes := do
  let size ← readI32
  P.lift (checkLength cfg.stringLimit size)
  P.readAll size
/-- `readString`, `TProtocol.py:193-194` -/
def readString (cfg : Cfg) : P St PyStr := do
  let b ← readBinary cfg
  P.lift (utf8Decode b)
/-- `readUuid`, 242-245 -/
def readUuid : P St Bytes := P.readAll 16

/-- `readFieldBegin`, 167-172 -/
def readFieldBegin : P St (Int × Int) := do
  let type ← readByte
  if type = TType.STOP then pure (type, 0)
  else
    let id ← readI16
    pure (type, id)

/-- `readMapBegin`, 177-182 -/
def readMapBegin (cfg : Cfg) : P St (Int × Int × Int) := do
  let ktype ← readByte
  let vtype ← readByte
  let size ← readI32
  P.lift (checkLength cfg.containerLimit size)
  pure (ktype, vtype, size)

/-- `readListBegin`, 187-191, and `readSetBegin`, 196-200 -/
def readListBegin (cfg : Cfg) : P St (Int × Int) := do
  let etype ← readByte
  let size ← readI32
  P.lift (checkLength cfg.containerLimit size)
  pure (etype, size)

/-- The reading operations, 161-245. -/
def rd (cfg : Cfg) : RdOps St where
  readStructBegin := pure ()
  readStructEnd := pure ()
  readFieldBegin := readFieldBegin
  readFieldEnd := pure ()
  readMapBegin := readMapBegin cfg
  readMapEnd := pure ()
  readListBegin := readListBegin cfg
  readListEnd := pure ()
  readSetBegin := readListBegin cfg
  readSetEnd := pure ()
  readBool := readBool
  readByte := readByte
  readI16 := readI16
  readI32 := readI32
  readI64 := readI64
  readDouble := readDouble
  readString := readString cfg
  readBinary := readBinary cfg
  readUuid := readUuid

/-- `readMessageBegin`, 138-156: name, type, seqid -/
def readMessageBegin (cfg : Cfg) : P St (PyStr × Int × Int) := do
  let sz ← readI32
  if sz < 0 then
    let version := pyAnd sz VERSION_MASK
    if version ≠ VERSION_1 then P.raise TProtocolException.BAD_VERSION
    else
      let type := pyAnd sz TYPE_MASK
      let name ← readString cfg
      let seqid ← readI32
      pure (name, type, seqid)
  else if cfg.strictRead then P.raise TProtocolException.BAD_VERSION
  else
    let b ← P.readAll sz
    let name ← P.lift (utf8Decode b)
    let type ← readByte
    let seqid ← readI32
    pure (name, type, seqid)

end Thrift.Binary
