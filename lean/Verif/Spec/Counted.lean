import Verif.Model.Types
/-
Running a reader over a memory buffer and counting the calls of `trans.read`.
-/

namespace Thrift.Spec

/-- A memory buffer that also counts the calls of `read`. -/
def countStep (n : Nat) (t : Bytes × Nat) : Option (Except Exc Bytes × (Bytes × Nat)) :=
  some (.ok (t.1.take n), (t.1.drop n, t.2 + 1))

/-- All sets in the type have hashable elements and all maps hashable keys. -/
def Hashes : Ty → Bool
  | .list e => Hashes e
  | .set e => e.hashable && Hashes e
  | .map k v => k.hashable && Hashes k && Hashes v
  | _ => true

/-- The same for a type and all structs of a schema. -/
def SchemaHashes (sch : Schema) (t : Ty) : Prop :=
  Hashes t = true ∧ ∀ sid, ∀ f ∈ sch sid, Hashes f.ty = true

end Thrift.Spec
