import Verif.Model.Pack
import Verif.Model.Json
/-
Text of generated modules: string constants and defaults (`t_py_generator.cc` 611-640), docstrings (`t_py_generator.cc` 2717-2773,
`t_generator.cc` 170-193), from the literals and comments of the IDL (`thriftl.ll` 285-333), and what Python reads in them.

The Python side is written from The Python Language Reference (2.4.1): a module is decoded as UTF-8 (the default; the option `coding`
is not used), a string token is cut out of it, then its escape sequences are replaced. `none` is a `SyntaxError`: the module cannot be
imported.

Simplifications. IDL files contain no NUL (`strdup(result.c_str())` and `strlen(line)` would stop there). Python's decoding of `\r` and `\r\n` as
line ends in source files does not occur: `clean_up_doctext` removes `\r` from comments, and string constants have it escaped.
-/

namespace Thrift.Source

/-- `case '\\'` of a literal, thriftl.ll 298-322 -/
def idlEscape (c : UInt8) : Option UInt8 :=
  if c = 114 then some 13
  else if c = 110 then some 10
  else if c = 116 then some 9
  else if c = 34 then some 34
  else if c = 39 then some 39
  else if c = 92 then some 92
  else none

/-- A literal of the IDL after its opening quote, thriftl.ll 285-333: its value, and what follows the closing quote. `none`: the compiler
reports an error. -/
def idlLiteral (mark : UInt8) : Bytes → Option (Bytes × Bytes)
  | [] => none
  | c :: rest =>
    if c = 10 then none
    else if c = 92 then
      match rest with
      | [] => none
      | e :: rest =>
        match idlEscape e with
        | some x => (idlLiteral mark rest).map fun r => (x :: r.1, r.2)
        | none => none
    else if c = mark then some ([], rest)
    else (idlLiteral mark rest).map fun r => (c :: r.1, r.2)

/-- `escape_`, t_generator.h 52-56 -/
def escapeByte (c : UInt8) : Bytes :=
  if c = 10 then [92, 110]
  else if c = 13 then [92, 114]
  else if c = 9 then [92, 116]
  else if c = 34 then [92, 34]
  else if c = 92 then [92, 92]
  else [c]

/-- `escape_string`, t_generator.cc 150-161 -/
def escapeString (s : Bytes) : Bytes := s.flatMap escapeByte

/-- A constant of type `string` or `binary`, cc 614-619 -/
def renderString (binary : Bool) (s : Bytes) : Bytes := (if binary then [98] else []) ++ [34] ++ escapeString s ++ [34]

/-- The lines that `getline` finds: the contents between the newlines -/
def splitLines : Bytes → List Bytes
  | [] => [[]]
  | c :: cs =>
    if c = 10 then [] :: splitLines cs
    else
      match splitLines cs with
      | [] => [[c]]
      | l :: ls => (c :: l) :: ls

/-- The loop of `generate_docstring_comment` with an empty `line_prefix`, t_generator.cc 177-189. `getline(line, 1024)` fails on a line of more
than 1023 bytes after it has stored 1023 of them, and the loop ends. -/
def emitLines (ind : Bytes) : List Bytes → Bytes
  | [] => []
  | l :: ls =>
    if 1023 < l.length then ind ++ l.take 1023 ++ [10]
    else if l = [] then 10 :: emitLines ind ls
    else ind ++ l ++ [10] ++ emitLines ind ls

def quotes3 : Bytes := [34, 34, 34]

/-- `generate_docstring_comment(out, "\"\"\"\n", "", contents, "\"\"\"\n")`, t_generator.cc 170-193, after the first indentation -/
def renderDoc (ind contents : Bytes) : Bytes :=
  quotes3 ++ [10] ++ emitLines ind (splitLines contents) ++ ind ++ quotes3 ++ [10]

/-! ### Python -/

/-- A string token in quotes `"`, after the first: its characters, backslashes included, and what follows it -/
def scanShort : PyStr → Option (PyStr × PyStr)
  | [] => none
  | c :: rest =>
    if c = 10 then none
    else if c = 34 then some ([], rest)
    else if c = 92 then
      match rest with
      | [] => none
      | e :: rest => (scanShort rest).map fun r => (92 :: e :: r.1, r.2)
    else (scanShort rest).map fun r => (c :: r.1, r.2)

/-- The same in quotes `"""` -/
def scanLong : PyStr → Option (PyStr × PyStr)
  | [] => none
  | c :: rest =>
    if c = 92 then
      match rest with
      | [] => none
      | e :: rest => (scanLong rest).map fun r => (92 :: e :: r.1, r.2)
    else
      match c, rest with
      | 34, 34 :: 34 :: rest => some ([], rest)
      | _, _ => (scanLong rest).map fun r => (c :: r.1, r.2)

def isOctal (c : Nat) : Bool := 48 ≤ c && c ≤ 55

/-- `n` hexadecimal digits and what follows -/
def hexDigits : Nat → (acc : Nat) → PyStr → Option (Nat × PyStr)
  | 0, acc, s => some (acc, s)
  | _ + 1, _, [] => none
  | n + 1, acc, c :: s =>
    match Json.hexVal c with
    | some v => hexDigits n (acc * 16 + v) s
    | none => none

/-- Up to `n` octal digits and what follows -/
def octDigits : Nat → (acc : Nat) → PyStr → Nat × PyStr
  | n + 1, acc, c :: s => if isOctal c then octDigits n (acc * 8 + (c - 48)) s else (acc, c :: s)
  | _, acc, s => (acc, s)

/-- The escape sequences of one character -/
def simpleEscape (c : Nat) : Option Nat :=
  [(92, 92), (39, 39), (34, 34), (97, 7), (98, 8), (102, 12), (110, 10), (114, 13), (116, 9), (118, 11)].lookup c

/-- An escape sequence after its backslash: what it stands for, and what follows. `names` is the table of Unicode for `\N{…}`. In `bytes` there is no
`\N`, `\u`, `\U`. An unknown sequence stays as it is. -/
def escapeSeq (bytes : Bool) (names : PyStr → Option Nat) : PyStr → Option (PyStr × PyStr)
  | [] => none
  | c :: rest =>
    match simpleEscape c with
    | some x => some ([x], rest)
    | none =>
      if c = 10 then some ([], rest)
      else if isOctal c then
        let (v, s) := octDigits 3 0 (c :: rest)
        some ([if bytes then v % 256 else v], s)
      else if c = 120 then (hexDigits 2 0 rest).map fun r => ([r.1], r.2)
      else if bytes then some ([92, c], rest)
      else if c = 117 then (hexDigits 4 0 rest).map fun r => ([r.1], r.2)
      else if c = 85 then
        match hexDigits 8 0 rest with
        | some (v, s) => if v < 0x110000 then some ([v], s) else none
        | none => none
      else if c = 78 then
        match rest with
        | 123 :: rest =>
          match rest.span (· ≠ 125) with
          | (name, _ :: s) => (names name).map fun v => ([v], s)
          | (_, []) => none
        | _ => none
      else some ([92, c], rest)

/-- The escape sequences replaced. The number is the length at most. -/
def unescape (bytes : Bool) (names : PyStr → Option Nat) : Nat → PyStr → Option PyStr
  | _, [] => some []
  | 0, _ :: _ => none
  | n + 1, c :: s =>
    if c = 92 then
      match escapeSeq bytes names s with
      | some (v, s) => (unescape bytes names n s).map (v ++ ·)
      | none => none
    else (unescape bytes names n s).map (c :: ·)

inductive Value where
  | text (s : PyStr)
  | bytes (b : Bytes)
  deriving DecidableEq, Repr

/-- The value of a token `"…"` or `"""…"""` and what follows it -/
def textToken (names : PyStr → Option Nat) (r : Option (PyStr × PyStr)) : Option (Value × PyStr) := do
  let (raw, rest) ← r
  let s ← unescape false names raw.length raw
  some (.text s, rest)

/-- The value of a token `b"…"`: only ASCII characters are allowed in it. -/
def bytesToken (names : PyStr → Option Nat) (r : Option (PyStr × PyStr)) : Option (Value × PyStr) := do
  let (raw, rest) ← r
  if raw.all (· < 128) then
    let s ← unescape true names raw.length raw
    some (.bytes (s.map UInt8.ofNat), rest)
  else none

/-- A string literal at the beginning of a text: its value, and what follows -/
def pyLiteral (names : PyStr → Option Nat) : PyStr → Option (Value × PyStr)
  | 34 :: 34 :: 34 :: rest => textToken names (scanLong rest)
  | 34 :: rest => textToken names (scanShort rest)
  | 98 :: 34 :: 34 :: 34 :: rest => bytesToken names (scanLong rest)
  | 98 :: 34 :: rest => bytesToken names (scanShort rest)
  | _ => none

/-- A string literal at the beginning of the bytes of (the rest of) a module: they have to be UTF-8. -/
def pySource (names : PyStr → Option Nat) (b : Bytes) : Option (Value × PyStr) :=
  match utf8Decode b with
  | .ok s => pyLiteral names s
  | .error _ => none

end Thrift.Source
