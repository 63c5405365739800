import Verif.Spec.Source
/-
How people write doc comments, and what is in them.
-/

namespace Thrift.Spec.Doc

def Blank (c : UInt8) : Prop := c = 32 ∨ c = 9

instance (c : UInt8) : Decidable (Blank c) := inferInstanceAs (Decidable (_ ∨ _))

/-- A line of text: it does not end with a blank. -/
structure Line (l : Bytes) : Prop where
  newline : 10 ∉ l
  return_ : 13 ∉ l
  tail : ∀ c, l.getLast? = some c → ¬ Blank c

/-- Not all of the text is indented. -/
def Flush (ls : List Bytes) : Prop := (∀ l ∈ ls, l = []) ∨ ∃ l ∈ ls, ∃ c, l.head? = some c ∧ ¬ Blank c

/-- The lines of a text, each with its end -/
def text (ls : List Bytes) : Bytes := ls.flatMap fun l => l ++ [10]

/-- A comment after `/**`, with a star before each line -/
def starred (ind gap : Bytes) (ls : List Bytes) : Bytes :=
  [10] ++ ls.flatMap (fun l => ind ++ [42] ++ (if l = [] then [] else gap ++ l) ++ [10]) ++ ind ++ [42, 47]

/-- The same without stars -/
def unstarred (ind : Bytes) (ls : List Bytes) : Bytes :=
  [10] ++ ls.flatMap (fun l => (if l = [] then [] else ind ++ l) ++ [10]) ++ ind ++ [42, 47]

/-- The same on one line -/
def short (a l b : Bytes) : Bytes := a ++ l ++ b ++ [42, 47]

/-- A line without the blanks at its ends -/
def strip (l : Bytes) : Bytes := ((l.dropWhile (Blank ·)).reverse.dropWhile (Blank ·)).reverse

/-- The lines that are not blank, without the blanks at their ends -/
def words (ls : List Bytes) : List Bytes := (ls.map strip).filter (· ≠ [])

end Thrift.Spec.Doc
