import Verif.Model.Base
/-
Observable effects of one call of a writing or reading method.
-/

namespace Thrift.Spec
variable {σ α : Type}

/-- The call returns normally, appends exactly `bs` to what the transport was given and leaves the
protocol object unchanged, whatever the object's state and whatever was written before. -/
def WritesExactly (m : W σ Unit) (bs : Bytes) : Prop := ∀ s out, m s out = (.ok (), s, out ++ bs)

/-- The call raises `e`, nothing is written, the protocol object is unchanged. -/
def RefusesToWrite (m : W σ Unit) (e : Exc) : Prop := ∀ s out, m s out = (.error e, s, out)

/-- From a transport holding `bs` followed by anything, the call returns `a` and leaves exactly what
follows `bs`; the protocol object is unchanged. -/
def ReadsBack (m : P σ α) (bs : Bytes) (a : α) : Prop :=
  ∀ s rest, exec m s (bs ++ rest) = some ((.ok a, s), rest)

end Thrift.Spec
