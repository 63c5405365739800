import Verif.Spec.WellTyped
/-
Independent specification for C71: the values that the documented formats can represent.
-/

namespace Thrift.Spec

mutual
/-- Everything in `v` can be represented in the declared type `t`: integers in the range of their type,
texts of scalar values, if `lengths` then all lengths below 2^31, and if `required`
then all required fields are set. (A `uuid.UUID` always has its 16 bytes; every object has
a truth value.) -/
def Fits (lengths required : Bool) (sch : Schema) : Ty → Val → Prop
  | .bool, _ => True
  | .byte, .int i => InRange 8 i
  | .i16, .int i => InRange 16 i
  | .i32, .int i => InRange 32 i
  | .i64, .int i => InRange 64 i
  | .double, .double _ => True
  | .string, .str s => (∀ c ∈ s, Scalar c) ∧ (lengths = true → utf8Len s < 2 ^ 31)
  | .binary, .bin b => lengths = true → b.length < 2 ^ 31
  | .uuid, .uuid _ => True
  | .list e, .list vs => (lengths = true → vs.length < 2 ^ 31) ∧ FitsAll lengths required sch e vs
  | .set e, .set vs => (lengths = true → vs.length < 2 ^ 31) ∧ FitsAll lengths required sch e vs
  | .map k v, .map kvs => (lengths = true → kvs.length < 2 ^ 31) ∧ FitsItems lengths required sch k v kvs
  | .struct sid, .struct as => FitsFields lengths required sch (sch sid) as
  | _, _ => False
def FitsAll (lengths required : Bool) (sch : Schema) : Ty → List Val → Prop
  | _, [] => True
  | e, v :: vs => Fits lengths required sch e v ∧ FitsAll lengths required sch e vs
def FitsItems (lengths required : Bool) (sch : Schema) : Ty → Ty → List (Val × Val) → Prop
  | _, _, [] => True
  | k, v, (a, b) :: kvs => Fits lengths required sch k a ∧ Fits lengths required sch v b ∧
    FitsItems lengths required sch k v kvs
def FitsFields (lengths required : Bool) (sch : Schema) : List Field → List (Option Val) → Prop
  | [], _ => True
  | f :: fs, some v :: as => Fits lengths required sch f.ty v ∧ FitsFields lengths required sch fs as
  | f :: fs, none :: as => (required = true → f.required = false) ∧ FitsFields lengths required sch fs as
  | _ :: _, [] => False
end

end Thrift.Spec
