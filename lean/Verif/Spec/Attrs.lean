import Verif.Model.Attrs
/-
Names of members that cause no trouble, and what a program expects of the attributes of an instance.
-/

namespace Thrift.Spec.Attrs
open Rpc Thrift.Attrs

variable {V : Type}

/-- Names that Python accepts and does not mangle -/
def Plain (c : Cls) : Prop := Thrift.Locals.Accepted c.members ∧ ∀ m ∈ c.members, ¬ pyStr "__" <+: m

/-- No member is called like a keyword of Python. -/
def NoKeyword (c : Cls) : Prop := ∀ m ∈ c.members, m ∉ Names.keywords

/-- No member is called like a method of the class or `thrift_spec`. -/
def NoMethod (c : Cls) : Prop := ∀ m ∈ c.members, m ∉ ["thrift_spec", "read", "write", "validate"].map pyStr

/-- The members of the instance, as a program sees them, have these values. -/
def Has (o : Inst V) (vals : PyStr → Option V) : Prop := ∀ m ∈ o.cls.members, get o (Names.escape m) = .ok (vals m)

/-- The arguments for the constructor -/
def kwargs (c : Cls) (vals : PyStr → Option V) : List (PyStr × Option V) := c.members.map fun m => (Names.escape m, vals m)

/-- The members that are set, in their order -/
def fields (c : Cls) (vals : PyStr → Option V) : List (PyStr × V) := c.members.filterMap fun m => (vals m).map fun v => (m, v)

/-- What was received last for a member -/
def last (ws : List (PyStr × V)) (m : PyStr) : Option V := ((ws.filter fun w => w.1 = m).getLast?).map (·.2)

/-- Two optional values are both absent or equal. -/
def Same (veq : V → V → Bool) : Option V → Option V → Bool
  | some x, some y => veq x y
  | none, none => true
  | _, _ => false

end Thrift.Spec.Attrs
