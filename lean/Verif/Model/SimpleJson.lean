import Verif.Model.Json
/-
`TSimpleJSONProtocol`, `lib/py/src/protocol/TJSONProtocol.py:609-690`: the write-only JSON protocol. The
contexts and the methods `writeJSON…` are those of `TJSONProtocolBase` (`Model/Json`).
-/

namespace Thrift.SimpleJson
open Json

/-- `writeMessageBegin`, 627-628: the name, the type and the sequence id are not written. -/
def writeMessageBegin (_name : PyStr) (_type _seqid : Int) : W St Unit := W.modify resetWrite

/-- `writeMessageEnd`, 630-631 -/
def writeMessageEnd : W St Unit := pure ()

/-- The names of the fields of each struct, in the order of the schema: what the generated code passes to
`writeFieldBegin`, and what `thrift_spec` holds. -/
abbrev FieldNames := Nat → List PyStr

mutual
/-- Writing a value through `TSimpleJSONProtocol`: the generated code (`t_py_generator.cc:1208-1261`,
`generate_serialize_field` and below) or `TProtocolBase.writeStruct` and the methods it calls
(`TProtocol.py:330-403`), as in `Thrift.writeVal`, over the methods of lines 633-690. A value of another
Python type than declared is `TypeError`, as in `Thrift.writeVal`. -/
def writeVal (py : Floats) (names : FieldNames) (sch : Schema) (mode : Mode) : Ty → Val → W St Unit
  | .bool, .bool b => writeInt (if b then 1 else 0)
  | .byte, .int i => writeChecked 8 i
  | .i16, .int i => writeChecked 16 i
  | .i32, .int i => writeChecked 32 i
  | .i64, .int i => writeChecked 64 i
  | .double, .double x => writeJSONNumber (py.fmt x)
  | .string, .str s => writeJSONString s
  | .binary, .bin b => writeJSONBase64 b
  | .uuid, .uuid u => writeJSONString (uuidText u)
  | .list e, .list vs => do
    writeJSONArrayStart
    writeElems py names sch mode e vs
    writeJSONArrayEnd
  | .set e, .set vs => do
    writeJSONArrayStart
    writeElems py names sch mode e vs
    writeJSONArrayEnd
  | .map k v, .map kvs => do
    writeJSONObjectStart
    writePairs py names sch mode k v kvs
    writeJSONObjectEnd
  | .struct sid, .struct as =>
    match mode with
    | .gen =>
      if requiredSet (sch sid) as then do
        incDepthW
        W.tryFinally (do
          writeJSONObjectStart
          writeFields py names sch mode (names sid) (sch sid) as
          writeJSONObjectEnd) decDepth
      else W.raise TProtocolException.UNKNOWN
    | .dyn => do
      writeJSONObjectStart
      if writerSees mode (sch sid) then writeFields py names sch mode (names sid) (sch sid) as else pure ()
      writeJSONObjectEnd
  | _, _ => W.raise .typeError
/-- The elements of a list or set. -/
def writeElems (py : Floats) (names : FieldNames) (sch : Schema) (mode : Mode) : Ty → List Val → W St Unit
  | _, [] => pure ()
  | e, v :: vs => do
    writeVal py names sch mode e v
    writeElems py names sch mode e vs
/-- The items of a map, key before value. -/
def writePairs (py : Floats) (names : FieldNames) (sch : Schema) (mode : Mode) :
    Ty → Ty → List (Val × Val) → W St Unit
  | _, _, [] => pure ()
  | k, v, (a, b) :: kvs => do
    writeVal py names sch mode k a
    writeVal py names sch mode v b
    writePairs py names sch mode k v kvs
/-- The fields of a struct that are not `None`. `writeFieldBegin` (639-640) writes the name, `writeFieldEnd`
(642-643) and the inherited `writeFieldStop` (`TProtocol.py:91-92`) write nothing. -/
def writeFields (py : Floats) (names : FieldNames) (sch : Schema) (mode : Mode) :
    List PyStr → List Field → List (Option Val) → W St Unit
  | n :: ns, f :: fs, some v :: vs => do
    writeJSONString n
    writeVal py names sch mode f.ty v
    writeFields py names sch mode ns fs vs
  | _ :: ns, _ :: fs, none :: vs => writeFields py names sch mode ns fs vs
  | _, _ :: _, _ => W.raise .attributeError
  | _, [], _ => pure ()
end

end Thrift.SimpleJson
