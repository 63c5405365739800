import Verif.Model.Types
import Verif.Model.Protocol
/-
When two decoded values are the same up to the reading of a bool byte that is neither 0 nor 1.
-/

namespace Thrift.Spec
open Thrift

mutual
/-- `Similar p x`: `p` (Python) and `x` (extension) are equal, except that a bool may be true in `p` and
false in `x`. Elements of sets and keys of maps are equal. -/
inductive Similar : Val → Val → Prop
  | eq (v : Val) : Similar v v
  | bool : Similar (.bool true) (.bool false)
  | list {ps xs : List Val} : Similars ps xs → Similar (.list ps) (.list xs)
  | map {ps xs : List (Val × Val)} : Similarp ps xs → Similar (.map ps) (.map xs)
  | struct {ps xs : List (Option Val)} : Similarf ps xs → Similar (.struct ps) (.struct xs)
inductive Similars : List Val → List Val → Prop
  | nil : Similars [] []
  | cons {p x : Val} {ps xs : List Val} : Similar p x → Similars ps xs → Similars (p :: ps) (x :: xs)
inductive Similarp : List (Val × Val) → List (Val × Val) → Prop
  | nil : Similarp [] []
  | cons {k p x : Val} {ps xs : List (Val × Val)} : Similar p x → Similarp ps xs →
    Similarp ((k, p) :: ps) ((k, x) :: xs)
inductive Similarf : List (Option Val) → List (Option Val) → Prop
  | nil : Similarf [] []
  | none {ps xs : List (Option Val)} : Similarf ps xs → Similarf (none :: ps) (none :: xs)
  | some {p x : Val} {ps xs : List (Option Val)} : Similar p x → Similarf ps xs →
    Similarf (some p :: ps) (some x :: xs)
end

/-- No set of bools and no map with bool keys inside the type (struct fields are not followed). -/
def NoBoolKeys : Ty → Prop
  | .list e => NoBoolKeys e
  | .set e => e ≠ .bool ∧ NoBoolKeys e
  | .map k v => k ≠ .bool ∧ NoBoolKeys k ∧ NoBoolKeys v
  | _ => True

/-- C49: what two decoders made of the same bytes. Both fail, or both return the value. -/
def Same : Option (Except Exc Val × Bytes) → Option (Except Exc Val × Bytes) → Prop
  | some (.ok p, _), some (.ok x, _) => p = x
  | some (.error _, _), some (.error _, _) => True
  | _, _ => False

/-- What is true instead of the Python decoder (first) and the extension (second), when both come to an
end. If both return a value, the values are similar and the same bytes are left. If only the extension
fails, then with a `TypeError` or because of the depth. If only Python fails, then because a string is
not UTF-8 or because a string is longer than allowed. -/
def NearlySame : Option (Except Exc Val × Bytes) → Option (Except Exc Val × Bytes) → Prop
  | some (.ok p, r), some (.ok x, r') => Similar p x ∧ r = r'
  | some (.ok _, _), some (.error e, _) => e = .typeError ∨ e = TProtocolException.DEPTH_LIMIT
  | some (.error e, _), some (.ok _, _) => e = .unicodeError ∨ e = TTransportException.SIZE_LIMIT
  | _, _ => True

end Thrift.Spec
