import Verif.Model.Rpc
/-
Names that cause no trouble, and the reserved words of Python.
-/

namespace Thrift.Spec.Names
open Rpc

/-- The reserved words of Python 3.7 and later (the Python Language Reference, 2.3.1). -/
def reserved : List PyStr :=
  ["False", "None", "True", "and", "as", "assert", "async", "await", "break", "class", "continue", "def", "del", "elif", "else", "except",
    "finally", "for", "from", "global", "if", "import", "in", "is", "lambda", "nonlocal", "not", "or", "pass", "raise", "return", "try",
    "while", "with", "yield"].map pyStr

/-- The functions have different names, and of no two functions one is named as the other with an underscore appended. -/
structure Distinct (svc : List (List Fn)) : Prop where
  names : ∀ f ∈ svc.flatten, ∀ g ∈ svc.flatten, f.name = g.name → f = g
  underscore : ∀ f ∈ svc.flatten, ∀ g ∈ svc.flatten, f.name ≠ g.name ++ pyStr "_"

/-- No function is named as if it belonged to another. -/
def Plain (svc : List (List Fn)) : Prop :=
  ∀ f ∈ svc.flatten, ∀ p ∈ ["send_", "recv_", "cb_send_", "eb_send_"].map pyStr, ¬ p <+: f.name

end Thrift.Spec.Names
