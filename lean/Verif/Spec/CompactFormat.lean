import Verif.Spec.Bytes
/-
The compact protocol as described in `doc/specs/thrift-compact-protocol.md`, as a function from
values to bytes.
-/

namespace Thrift.Spec.Compact
open Thrift.Spec

/-- Section "ZigZag encoding": 0, -1, 1, -2, ... become 0, 1, 2, 3, ... -/
def zigzag (n : Int) : Nat := if 0 ≤ n then 2 * n.toNat else 2 * (-n).toNat - 1

/-- Section "Varint encoding": 7 bits at a time, least significant first, top bit set if more
follow. -/
def varint (n : Nat) : Bytes :=
  if n < 128 then [UInt8.ofNat n] else UInt8.ofNat (n % 128 + 128) :: varint (n / 128)
termination_by n

/-- The value of a varint: little-endian, base 128, top bits ignored. -/
def varintValue : Bytes → Nat
  | [] => 0
  | x :: xs => x.toNat % 128 + 128 * varintValue xs

/-- A signed integer. -/
def int (n : Int) : Bytes := varint (zigzag n)

/-- Sections "Struct encoding" and "List and Set": field and element types. Bool elements are
announced as 1. -/
def typeCode : Ty → Nat
  | .bool => 1
  | .byte => 3
  | .i16 => 4
  | .i32 => 5
  | .i64 => 6
  | .double => 7
  | .string => 8
  | .binary => 8
  | .list _ => 9
  | .set _ => 10
  | .map _ _ => 11
  | .struct _ => 12
  | .uuid => 13

/-- Section "Binary encoding". -/
def blob (b : Bytes) : Bytes := varint b.length ++ b

/-- Section "Boolean encoding": 1 for true, 2 for false, both as element and as field type. -/
def boolCode (b : Bool) : Nat := if b then 1 else 2

/-- Section "Struct encoding": short form for a delta of 1 to 15, long form otherwise. -/
def fieldHeader (last : Int) (code : Nat) (fid : Int) : Bytes :=
  if 1 ≤ fid - last ∧ fid - last ≤ 15 then [UInt8.ofNat (16 * (fid - last).toNat + code)]
  else UInt8.ofNat code :: int fid

/-- Section "List and Set". -/
def listHeader (code n : Nat) : Bytes :=
  if n ≤ 14 then [UInt8.ofNat (16 * n + code)] else UInt8.ofNat (0xF0 + code) :: varint n

/-- Section "Map". -/
def mapHeader (kcode vcode n : Nat) : Bytes :=
  if n = 0 then [0] else varint n ++ [UInt8.ofNat (16 * kcode + vcode)]

mutual
/-- A value of a declared type (a bool in its form as an element). -/
def value (sch : Schema) : Ty → Val → Bytes
  | .bool, .bool b => [UInt8.ofNat (boolCode b)]
  | .byte, .int i => beInt 1 i
  | .i16, .int i => int i
  | .i32, .int i => int i
  | .i64, .int i => int i
  | .double, .double x => leInt 8 x.toNat
  | .string, .str s => blob (utf8 s)
  | .binary, .bin b => blob b
  | .uuid, .uuid u => u
  | .list e, .list vs => listHeader (typeCode e) vs.length ++ elements sch e vs
  | .set e, .set vs => listHeader (typeCode e) vs.length ++ elements sch e vs
  | .map k v, .map kvs => mapHeader (typeCode k) (typeCode v) kvs.length ++ pairs sch k v kvs
  | .struct sid, .struct as => fields sch 0 (sch sid) as ++ [0]
  | _, _ => []
def elements (sch : Schema) : Ty → List Val → Bytes
  | _, [] => []
  | e, v :: vs => value sch e v ++ elements sch e vs
def pairs (sch : Schema) : Ty → Ty → List (Val × Val) → Bytes
  | _, _, [] => []
  | k, v, (a, b) :: kvs => value sch k a ++ value sch v b ++ pairs sch k v kvs
/-- The fields that are set, in order; `last` is the id of the previous field sent. The value of a
bool field is its field type. -/
def fields (sch : Schema) : (last : Int) → List Field → List (Option Val) → Bytes
  | last, f :: fs, some v :: as =>
    (if f.ty = .bool then
      match v with
      | .bool b => fieldHeader last (boolCode b) f.fid
      | _ => []
    else fieldHeader last (typeCode f.ty) f.fid ++ value sch f.ty v) ++ fields sch f.fid fs as
  | last, _ :: fs, none :: as => fields sch last fs as
  | _, _, _ => []
end

/-- Section "Message". The sequence id is sent as the unsigned 32-bit number with the same bits. -/
def message (name : PyStr) (type : Nat) (seqid : Int) : Bytes :=
  [0x82, UInt8.ofNat (32 * type + 1)] ++ varint (seqid % 2 ^ 32).toNat ++ blob (utf8 name)

end Thrift.Spec.Compact
