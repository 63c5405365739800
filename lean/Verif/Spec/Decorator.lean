import Verif.Model.Decorator
/-
What a decorated object is.
-/

namespace Thrift.Spec.Decorator
open Thrift.Decorator (Cls)

/-- The method resolution order of any class: each class is in it once, and `object` at the end, but it is not only that. -/
structure Linear (mro : List Cls) : Prop where
  nodup : mro.Nodup
  last : mro.getLast? = some .object
  more : mro ≠ [.object]

/-- The classes of `TMultiplexedProtocol(…)` and `StoredMessageProtocol(…)` -/
def IsDecorator (d : Cls) : Prop := d = .multiplexed ∨ d = .stored

end Thrift.Spec.Decorator
