import Verif.Spec.Bytes
/-
What the strings and comments of an IDL file are to become in Python.
-/

namespace Thrift.Spec.Source

/-- A literal of the IDL for a value: the quote in use, backslash and newline are escaped. -/
def spell (mark : UInt8) (s : Bytes) : Bytes :=
  s.flatMap fun c => if c = 10 then [92, 110] else if c = mark ∨ c = 92 then [92, c] else [c]

/-- What a literal of the IDL between its quotes stands for: escape sequences with their values, and other characters. -/
inductive Spells (mark : UInt8) : Bytes → Bytes → Prop
  | nil : Spells mark [] []
  | plain {c l s} : c ≠ 10 → c ≠ 92 → c ≠ mark → Spells mark l s → Spells mark (c :: l) (c :: s)
  | escape {e x l s} : (e, x) ∈ ([(114, 13), (110, 10), (116, 9), (34, 34), (39, 39), (92, 92)] : List (UInt8 × UInt8)) → Spells mark l s →
      Spells mark (92 :: e :: l) (x :: s)

/-- The lines of a comment in a docstring: each that is not empty is indented. -/
def docText (ind : PyStr) (ls : List PyStr) : PyStr :=
  ls.flatMap fun l => (if l = [] then [] else ind ++ l) ++ [10]

/-- A comment as the lexer leaves it: its lines with newlines between them -/
def comment (ls : List PyStr) : PyStr := List.intercalate [10] ls

/-- A line without backslashes and without three quotes in a row, of at most 1023 bytes -/
structure PlainLine (l : PyStr) : Prop where
  scalar : ∀ c ∈ l, Scalar c
  newline : 10 ∉ l
  backslash : 92 ∉ l
  quotes : ¬ [34, 34, 34] <:+: l
  short : utf8Len l ≤ 1023

end Thrift.Spec.Source
