import Verif.Model.Source
/-
Doc comments of the IDL: the rule `{doctext_begin}` of the lexer (`compiler/cpp/src/thrift/thriftl.ll` 134-175), `clear_doctext`, `declare_valid_program_doctext` and `clean_up_doctext` (`main.cc` 393-563),
the grammar actions `CaptureDocText` and `DestroyDocText` (`thrifty.yy` 247-282), and the text that `generate_python_docstring` makes (`t_py_generator.cc` 2714-2773). How this text is printed and what
Python reads is in `Source`.

Simplifications: files contain no NUL. Comments of stars only (`sillycomm`, `thriftl.ll` 121) are not doc comments and do not reach this code.
-/

namespace Thrift.Doc
open Source (splitLines)

/-- `" \t"` -/
def blank (c : UInt8) : Bool := c == 32 || c == 9

/-- The loop of the lexer after `/**`, thriftl.ll 136-155: the text it has read, with the `*/` at its end, and what follows. `star`: `state == 1`. `none`: the file ends in the comment. -/
def scan (star : Bool) : Bytes → Option (Bytes × Bytes)
  | [] => none
  | c :: r =>
    if c = 42 then (scan true r).map fun x => (c :: x.1, x.2)
    else if c = 47 ∧ star then some ([c], r)
    else (scan false r).map fun x => (c :: x.1, x.2)

/-- thriftl.ll 162-165: the `*/` becomes a blank. -/
def body (parsed : Bytes) : Bytes := parsed.take (parsed.length - 2) ++ [32]

/-- `find_first_not_of(" \t")`; `none` is `npos`. -/
def indent (l : Bytes) : Option Nat := l.findIdx? fun c => !blank c

/-- main.cc 443-459: the lines; the last one is dropped if it is blank. -/
def lines (t : Bytes) : List Bytes :=
  let ls := splitLines (t.filter (· != 13))
  if ((ls.getLast?.getD []).all blank) then ls.dropLast else ls

/-- main.cc 472-505, on the lines after the first: the lines (blank ones become empty), whether the prefix survived, and `prefix_len` if it was found -/
def starLoop (found : Option Nat) : List Bytes → List Bytes × Bool × Option Nat
  | [] => ([], true, found)
  | l :: ls =>
    if l = [] then
      let r := starLoop found ls
      (l :: r.1, r.2)
    else
      match indent l with
      | none =>
        let r := starLoop found ls
        ([] :: r.1, r.2)
      | some p =>
        match found with
        | none =>
          if l[p]? = some 42 then
            let r := starLoop (some p) ls
            (l :: r.1, r.2)
          else (l :: ls, false, found)
        | some n =>
          if l[p]? = some 42 ∧ p = n then
            let r := starLoop found ls
            (l :: r.1, r.2)
          else (l :: ls, false, found)

/-- main.cc 507-514 -/
def removeStars (ls : List Bytes) : List Bytes :=
  match starLoop none ls with
  | (ls, true, found) => ls.map (·.drop (found.getD 0 + 1))
  | (ls, false, _) => ls

/-- main.cc 516-526: the smallest indentation; `none` is `npos`. -/
def minIndent (least : Option Nat) : List Bytes → Option Nat
  | [] => least
  | l :: ls =>
    match indent l with
    | none => minIndent least ls
    | some p =>
      match least with
      | none => minIndent (some p) ls
      | some n => minIndent (some (if p < n then p else n)) ls

/-- main.cc 528-533 -/
def removeIndent (ls : List Bytes) : List Bytes :=
  match minIndent none ls with
  | none => ls
  | some n => ls.map (·.drop n)

/-- main.cc 535-541: a line of blanks stays as it is. -/
def trimRight (l : Bytes) : Bytes :=
  if l.all blank then l else (l.reverse.dropWhile blank).reverse

/-- `clean_up_doctext`, main.cc 438-563; `none` is `nullptr`. -/
def cleanUp (t : Bytes) : Option Bytes :=
  match lines t with
  | [] => none
  | first :: rest =>
    let first := trimRight (first.dropWhile blank)
    let rest := (removeIndent (removeStars rest)).map trimRight
    let ls := if first = [] then rest else first :: rest
    some (ls.flatMap fun l => l ++ [10])

/-! ### Which declaration gets it -/

/-- What happens to the comments while a file is parsed, in `PROGRAM` mode, in this order. `comment`: the lexer has read a doc comment with this text (`body`). `destroy`: the parser has seen the first token of
a header, `thrifty.yy` 281. `header`: the action of a header, `thrifty.yy` 298-328 (for a `namespace`, the lexer is already behind the comments that follow it). `declare`: the parser has seen the first
token of a definition, an enum value, a function or a field, `thrifty.yy` 338, 485, 759, 820. -/
inductive Ev where
  | comment (text : Bytes)
  | destroy
  | header
  | declare
  deriving DecidableEq, Repr

/-- `g_doctext`; `g_program_doctext_candidate`; whether `g_program_doctext_status` is `INVALID`, as `reset_program_doctext_info`, main.cc 409-417, leaves it -/
structure St where
  doc : Option Bytes := none
  candidate : Option Bytes := none
  invalid : Bool := true
  deriving DecidableEq, Repr

/-- The docs of the declarations, in the order in which they begin. `none`: the compiler crashes, in `strdup(nullptr)`, thriftl.ll 169. The changes of the status by `set_doc`, `t_doc.h` 39-42, are left out:
they lead from `STILL_CANDIDATE` to `ALREADY_PROCESSED`. -/
def docs (s : St) : List Ev → Option (List (Option Bytes))
  | [] => some []
  | .comment t :: es =>
    let d := cleanUp t
    if s.candidate = none ∧ s.invalid then
      match d with
      | none => none
      | some c => docs { doc := d, candidate := some c, invalid := false } es
    else docs { s with doc := d } es
  | .destroy :: es => docs { s with doc := none } es
  | .header :: es => docs { s with invalid := false } es
  | .declare :: es => (docs { s with doc := none } es).map (s.doc :: ·)

/-! ### The docstring -/

/-- The entry of one field, cc 2753-2760 -/
def entry (f : Bytes × Option Bytes) : Bytes :=
  [32, 45, 32] ++ f.1 ++
    match f.2 with
    | some d => [58, 32] ++ d
    | none => [10]

/-- `generate_python_docstring`, cc 2731-2765, for a class (`Attributes`) or a method (`Parameters`): what is printed as a docstring, if there is one -/
def contents (subheader : Bytes) (doc : Option Bytes) (fields : List (Bytes × Option Bytes)) : Option Bytes :=
  if fields = [] then doc
  else
    some ((match doc with
      | some d => d ++ [10]
      | none => []) ++ subheader ++ [58, 10] ++ fields.flatMap entry)

end Thrift.Doc
