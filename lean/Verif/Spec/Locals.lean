import Verif.Model.Locals
/-
What generated functions should do, whatever the names are; and the names with which they do it.
-/

namespace Thrift.Spec.Locals
open Rpc Thrift.Locals

variable {V : Type}

/-- The value that is read for a member: the last one on the wire with its key and type, otherwise the default. -/
def received (ws : List (Wire V)) (m : Mem V) : Obj V :=
  match (ws.filter fun w => decide (w.fid = m.key ∧ w.ftype = m.ttype)).getLast? with
  | some w => .val w.v
  | none => orNone m.dflt

/-- The names that Python does not accept for a parameter beside `self` -/
def Names (ns : List PyStr) : Prop := (pyStr "self" :: ns.map Names.escape).Nodup ∧ pyStr "async" ∉ ns ∧ pyStr "await" ∉ ns

/-- The names that go wrong as names of members of an immutable struct -/
def inRead : List PyStr := ["iprot", "cls", "fname", "ftype", "fid"].map pyStr

/-- The names that go wrong as names of parameters in a client -/
def inCall (k : Names.Kind) (oneway : Bool) : List PyStr :=
  (["args", "write", "validate"] ++
    match k with
    | .blocking => []
    | .twisted => ["oprot", "seqid"]
    | .tornado => if oneway then ["oprot"] else ["oprot", "future"]).map pyStr

/-- The names that go wrong as names of declared exceptions in a processor, if the exception is raised -/
def inProcess : List PyStr := ["result", "oprot", "seqid", "msg_type"].map pyStr

end Thrift.Spec.Locals
