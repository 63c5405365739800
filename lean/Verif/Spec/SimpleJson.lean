import Verif.Spec.Json
/-
The documents that `TSimpleJSONProtocol` writes: plain JSON in which structs are objects with the names of
their fields.
-/

namespace Thrift.Spec.SimpleJson
open Json

mutual
/-- The JSON value that stands for a value: lists and sets are arrays, maps are objects, structs are objects
with the names of the fields that are set. -/
def tree (fmt : UInt64 → Bytes) (names : Nat → List PyStr) (sch : Schema) : Ty → Val → J
  | _, .bool b => .num (if b then ascii "1" else ascii "0")
  | _, .int i => .num (decimal i)
  | _, .double x => .num (fmt x)
  | _, .str s => .str (escaped s)
  | _, .bin b => .str (base64 b)
  | _, .uuid u => .str (uuidText u)
  | .list e, .list vs => .arr (trees fmt names sch e vs)
  | .set e, .set vs => .arr (trees fmt names sch e vs)
  | .map _ v, .map kvs => .obj (treep fmt names sch v kvs)
  | .struct sid, .struct as => .obj (treef fmt names sch (names sid) (sch sid) as)
  | _, _ => .str []
def trees (fmt : UInt64 → Bytes) (names : Nat → List PyStr) (sch : Schema) : Ty → List Val → List J
  | _, [] => []
  | e, v :: vs => tree fmt names sch e v :: trees fmt names sch e vs
def treep (fmt : UInt64 → Bytes) (names : Nat → List PyStr) (sch : Schema) : Ty → List (Val × Val) → List (Bytes × J)
  | _, [] => []
  | v, (a, b) :: kvs => (keyText fmt a, tree fmt names sch v b) :: treep fmt names sch v kvs
def treef (fmt : UInt64 → Bytes) (names : Nat → List PyStr) (sch : Schema) :
    List PyStr → List Field → List (Option Val) → List (Bytes × J)
  | n :: ns, f :: fs, some v :: as => (escaped n, tree fmt names sch f.ty v) :: treef fmt names sch ns fs as
  | _ :: ns, _ :: fs, none :: as => treef fmt names sch ns fs as
  | _, _, _ => []
end

/-- The document of a value. -/
def value (fmt : UInt64 → Bytes) (names : Nat → List PyStr) (sch : Schema) (t : Ty) (v : Val) : Bytes :=
  render (tree fmt names sch t v)

/-- What the IDL compiler guarantees about names: one for each field, pairwise different, all printable (they
are ASCII identifiers). -/
def NamesOK (names : Nat → List PyStr) (sch : Schema) : Prop :=
  ∀ sid, (names sid).length = (sch sid).length ∧ (names sid).Nodup ∧
    ∀ n ∈ names sid, ∀ c ∈ n, 0x20 ≤ c ∧ c < 0x7F

mutual
/-- No object inside has two members of the same name. -/
def Unique : J → Prop
  | .arr xs => UniqueItems xs
  | .obj ms => (ms.map (·.1)).Nodup ∧ UniqueMembers ms
  | _ => True
def UniqueItems : List J → Prop
  | [] => True
  | x :: xs => Unique x ∧ UniqueItems xs
def UniqueMembers : List (Bytes × J) → Prop
  | [] => True
  | (_, x) :: ms => Unique x ∧ UniqueMembers ms
end

end Thrift.Spec.SimpleJson
