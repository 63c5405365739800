import Verif.Spec.Bytes
/-
The binary protocol as described in `doc/specs/thrift-binary-protocol.md`, as a function from values
to bytes.
-/

namespace Thrift.Spec.Binary
open Thrift.Spec

/-- Field type codes (section "Struct encoding"). -/
def typeCode : Ty → UInt8
  | .bool => 2
  | .byte => 3
  | .double => 4
  | .i16 => 6
  | .i32 => 8
  | .i64 => 10
  | .string => 11
  | .binary => 11
  | .struct _ => 12
  | .map _ _ => 13
  | .set _ => 14
  | .list _ => 15
  | .uuid => 16

/-- Binary data: 4 byte length, then the bytes. -/
def blob (b : Bytes) : Bytes := beInt 4 b.length ++ b

mutual
/-- A value of a declared type. -/
def value (sch : Schema) : Ty → Val → Bytes
  | .bool, .bool b => [if b then 1 else 0]
  | .byte, .int i => beInt 1 i
  | .i16, .int i => beInt 2 i
  | .i32, .int i => beInt 4 i
  | .i64, .int i => beInt 8 i
  | .double, .double x => beInt 8 x.toNat
  | .string, .str s => blob (utf8 s)
  | .binary, .bin b => blob b
  | .uuid, .uuid u => u
  | .list e, .list vs => typeCode e :: (beInt 4 vs.length ++ elements sch e vs)
  | .set e, .set vs => typeCode e :: (beInt 4 vs.length ++ elements sch e vs)
  | .map k v, .map kvs =>
    typeCode k :: typeCode v :: (beInt 4 kvs.length ++ pairs sch k v kvs)
  | .struct sid, .struct as => fields sch (sch sid) as ++ [0]
  | _, _ => []
def elements (sch : Schema) : Ty → List Val → Bytes
  | _, [] => []
  | e, v :: vs => value sch e v ++ elements sch e vs
def pairs (sch : Schema) : Ty → Ty → List (Val × Val) → Bytes
  | _, _, [] => []
  | k, v, (a, b) :: kvs => value sch k a ++ value sch v b ++ pairs sch k v kvs
/-- Field header (type, 2 byte id) and value of every field that is set, in order. -/
def fields (sch : Schema) : List Field → List (Option Val) → Bytes
  | f :: fs, some v :: as => typeCode f.ty :: (beInt 2 f.fid ++ value sch f.ty v ++ fields sch fs as)
  | _ :: fs, none :: as => fields sch fs as
  | _, _ => []
end

/-- Message header, strict encoding. -/
def messageStrict (name : PyStr) (type : Nat) (seqid : Int) : Bytes :=
  [0x80, 0x01, 0x00, UInt8.ofNat type] ++ blob (utf8 name) ++ beInt 4 seqid

/-- Message header, old encoding. -/
def messageOld (name : PyStr) (type : Nat) (seqid : Int) : Bytes :=
  blob (utf8 name) ++ [UInt8.ofNat type] ++ beInt 4 seqid

end Thrift.Spec.Binary
