import Verif.Model.Attrs
import Verif.Spec.Names
/-
Enums: their values, `thrifty.yy` 442-523, the checks of names, `main.cc` 873-879 and `t_scope.h` 73-79, and the class that `generate_enum`,
`t_py_generator.cc` 543-588, writes without the option `enum`.

Simplifications. Names that begin and end with two underscores mean something to Python (`__slots__`, …) and are taken here as any other. Where an
attribute of another object is assigned (`A.B = 1`), the assignment is taken to succeed if the object exists and is not a number.
-/

namespace Thrift.Enums
open Names Attrs Rpc

/-- An `EnumValue`: `name` or `name = value` -/
structure Item where
  name : PyStr
  value : Option Int

/-- thrifty.yy 502 -/
def inInt32 (i : Int) : Bool := -2 ^ 31 ≤ i && i ≤ 2 ^ 31 - 1

/-- `EnumDefList` with `y_enum_val`, thrifty.yy 470-523. `none`: the compiler reports an error. -/
def number : Int → List Item → Option (List (PyStr × Int))
  | _, [] => some []
  | prev, i :: is =>
    match i.value with
    | some v => if inInt32 v then (number v is).map ((i.name, v) :: ·) else none
    | none =>
      if 46 ∈ i.name then none
      else if prev = 2 ^ 31 - 1 then none
      else (number (prev + 1) is).map ((i.name, prev + 1) :: ·)

/-- The declaration of an enum: `add_constant` refuses a name that is there, thrifty.yy 455-467. -/
def declare (is : List Item) : Option (List (PyStr × Int)) :=
  match number (-1) is with
  | some vs => if (vs.map (·.1)).Nodup then some vs else none
  | none => none

inductive Obj where
  | int (i : Int)
  | names (d : List (Int × PyStr))
  | values (d : List (PyStr × Int))
  deriving DecidableEq, Repr

/-- Assignment to a variable, to an entry of a dictionary -/
def put {α β : Type} [DecidableEq α] (k : α) (v : β) (d : List (α × β)) : List (α × β) := (k, v) :: d.filter fun e => e.1 ≠ k

inductive Err where
  | syntaxError | nameError | attributeError
  deriving DecidableEq, Repr

/-- What stands before, between and after the dots -/
def components : PyStr → List PyStr
  | [] => [[]]
  | c :: cs =>
    if c = 46 then [] :: components cs
    else
      match components cs with
      | [] => [[c]]
      | l :: ls => (c :: l) :: ls

/-- `name = value` in the body of the class `cls`, cc 570-572. A name with a dot is an attribute of something else: of a variable of the body, which is a
number, or of a name of the module. -/
def assign (cls : PyStr) (globals : List PyStr) (n : PyStr) (v : Int) (attrs : List (PyStr × Obj)) : Except Err (List (PyStr × Obj)) :=
  match components n with
  | a :: _ :: _ =>
    if (attrs.lookup (mangle cls a)).isSome then .error .attributeError
    else if mangle cls a ∈ globals then .ok attrs
    else .error .nameError
  | _ => .ok (put (mangle cls n) (.int v) attrs)

/-- The assignments in their order, cc 567-579 -/
def body (cls : PyStr) (globals : List PyStr) : List (PyStr × Int) → List (PyStr × Obj) → Except Err (List (PyStr × Obj))
  | [], attrs => .ok attrs
  | (n, v) :: vs, attrs => do
    let attrs ← assign cls globals (escape n) v attrs
    body cls globals vs attrs

/-- A dictionary display: the later of two equal keys counts. -/
def display {α β : Type} [DecidableEq α] (es : List (α × β)) : List (α × β) := es.foldl (fun d e => put e.1 e.2 d) []

/-- The class statement that `generate_enum` writes, cc 543-588: the attributes of the class. A reserved word where a name belongs makes the whole module
unreadable. -/
def classDef (cls : PyStr) (globals : List PyStr) (vs : List (PyStr × Int)) : Except Err (List (PyStr × Obj)) :=
  if ∃ e ∈ vs, ∃ c ∈ components (escape e.1), c ∈ Spec.Names.reserved then .error .syntaxError
  else do
    let attrs ← body cls globals vs []
    let attrs := put (pyStr "_VALUES_TO_NAMES") (.names (display (vs.map fun e => (e.2, e.1)))) attrs
    pure (put (pyStr "_NAMES_TO_VALUES") (.values (display vs)) attrs)

end Thrift.Enums
