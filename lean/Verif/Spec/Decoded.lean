import Verif.Spec.WellTyped
/-
What a reader may return, whatever the bytes were.
-/

namespace Thrift.Spec

/-- `v` was decoded as type `t` with at most `n` structs nested in one another. Attributes that still
have the default of the constructor are not counted, they were not read. -/
inductive Shallow (sch : Schema) : (n : Int) → Ty → Val → Prop
  | bool (n : Int) (b : Bool) : Shallow sch n .bool (.bool b)
  | byte (n i : Int) : Shallow sch n .byte (.int i)
  | i16 (n i : Int) : Shallow sch n .i16 (.int i)
  | i32 (n i : Int) : Shallow sch n .i32 (.int i)
  | i64 (n i : Int) : Shallow sch n .i64 (.int i)
  | double (n : Int) (x : UInt64) : Shallow sch n .double (.double x)
  | string (n : Int) (s : PyStr) : Shallow sch n .string (.str s)
  | binary (n : Int) (b : Bytes) : Shallow sch n .binary (.bin b)
  | uuid (n : Int) (u : Bytes) : Shallow sch n .uuid (.uuid u)
  | list (n : Int) (e : Ty) (vs : List Val) : (∀ v ∈ vs, Shallow sch n e v) →
    Shallow sch n (.list e) (.list vs)
  | set (n : Int) (e : Ty) (vs : List Val) : (∀ v ∈ vs, Shallow sch n e v) →
    Shallow sch n (.set e) (.set vs)
  | map (n : Int) (k v : Ty) (kvs : List (Val × Val)) : (∀ x ∈ kvs, Shallow sch n k x.1) →
    (∀ x ∈ kvs, Shallow sch n v x.2) → Shallow sch n (.map k v) (.map kvs)
  | struct (n : Int) (sid : Nat) (as : List (Option Val)) : 1 ≤ n →
    (∀ (i : Nat) (f : Field) (v : Val), (sch sid)[i]? = some f → as[i]? = some (some v) → f.dflt ≠ some v →
      Shallow sch (n - 1) f.ty v) → Shallow sch n (.struct sid) (.struct as)

/-- `v` is something a reader may return for type `t`. `int bits i`: which integers are possible;
string lengths (in bytes) are within `sl`, container sizes within `cl`. Texts consist of scalar
values, the elements of a set and the keys of a map are pairwise different, a struct has one attribute
per field, and each attribute was decoded as the type of its field or has the default of the
constructor. Nothing is said about `required` fields, which no reader enforces. -/
inductive Decoded (int : Nat → Int → Prop) (sl cl : Option Int) (sch : Schema) : Ty → Val → Prop
  | bool (b : Bool) : Decoded int sl cl sch .bool (.bool b)
  | byte (i : Int) : int 8 i → Decoded int sl cl sch .byte (.int i)
  | i16 (i : Int) : int 16 i → Decoded int sl cl sch .i16 (.int i)
  | i32 (i : Int) : int 32 i → Decoded int sl cl sch .i32 (.int i)
  | i64 (i : Int) : int 64 i → Decoded int sl cl sch .i64 (.int i)
  | double (x : UInt64) : Decoded int sl cl sch .double (.double x)
  | string (s : PyStr) : (∀ c ∈ s, Scalar c) → Within sl (utf8Len s) →
    Decoded int sl cl sch .string (.str s)
  | binary (b : Bytes) : Within sl b.length → Decoded int sl cl sch .binary (.bin b)
  | uuid (u : Bytes) : u.length = 16 → Decoded int sl cl sch .uuid (.uuid u)
  | list (e : Ty) (vs : List Val) : Within cl vs.length → (∀ v ∈ vs, Decoded int sl cl sch e v) →
    Decoded int sl cl sch (.list e) (.list vs)
  | set (e : Ty) (vs : List Val) : Within cl vs.length → (vs ≠ [] → e.hashable = true) →
    Distinct vs → (∀ v ∈ vs, Decoded int sl cl sch e v) → Decoded int sl cl sch (.set e) (.set vs)
  | map (k v : Ty) (kvs : List (Val × Val)) : Within cl kvs.length →
    (kvs ≠ [] → k.hashable = true) → Distinct (kvs.map (·.1)) →
    (∀ x ∈ kvs, Decoded int sl cl sch k x.1) → (∀ x ∈ kvs, Decoded int sl cl sch v x.2) →
    Decoded int sl cl sch (.map k v) (.map kvs)
  | struct (sid : Nat) (as : List (Option Val)) : as.length = (sch sid).length →
    (∀ (i : Nat) (f : Field) (v : Val), (sch sid)[i]? = some f → as[i]? = some (some v) → f.dflt ≠ some v →
      Decoded int sl cl sch f.ty v) →
    (∀ (i : Nat) (f : Field), (sch sid)[i]? = some f → as[i]? = some none → f.dflt = none) →
    Decoded int sl cl sch (.struct sid) (.struct as)

end Thrift.Spec
