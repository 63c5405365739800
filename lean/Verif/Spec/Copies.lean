import Verif.Model.Copies
import Verif.Spec.Attrs
/-
The instances that programs have, and what they expect of a copy.
-/

namespace Thrift.Spec.Copies
open Rpc Thrift.Attrs Thrift.Copies Thrift.Spec.Attrs

variable {V : Type}

/-- The names of the members cause no trouble. -/
structure Good (c : Cls) : Prop where
  plain : Plain c
  keyword : NoKeyword c
  method : c.slots = true → NoMethod c

/-- What a program can come by: a class is called, attributes are set and deleted, and instances are copied. -/
inductive Lives : Obj V → Prop
  | make {c pos kw o} : make c pos kw = .ok o → Lives o
  | set {o n v i} : Lives o → setattr o.inst n v = .ok i → Lives ⟨i, o.args⟩
  | del {o n i} : Lives o → delattr o.inst n = .ok i → Lives ⟨i, o.args⟩
  | copy {cp o o'} : Lives o → copy cp o = .ok o' → Lives o'

/-- A list has an argument for a member. -/
def positional (c : Cls) (args : List (Option V)) (m : PyStr) : Option V := ((c.members.zip args).lookup m).getD none

end Thrift.Spec.Copies
