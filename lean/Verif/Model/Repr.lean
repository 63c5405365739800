import Verif.Model.Attrs
import Verif.Model.Source
/-
`__repr__` of generated classes, `t_py_generator.cc` 1037-1046 and 1062-1071 (`TBase.__repr__`, `lib/py/src/protocol/TBase.py` 26-28, is the same), the `repr` of the values of fields, and `eval` of the
text, as far as such texts have it: constants, displays of lists, tuples, sets and dicts, names and calls.

Classes are those of `Attrs`; here an instance has its attributes in the order of its `__dict__`. The shortest decimal form of a float and the characters that Python calls printable are parameters.

Simplifications. Values contain no reference to themselves. Integers have not more than 4300 digits. Operators, attributes, comprehensions and so on do not occur in such texts, and the
reader rejects them; strings in three quotes and adjacent strings too. Names are ASCII.
-/

namespace Thrift.Repr
open Rpc
open Attrs (Cls)

/-- Values of fields, and what else occurs in them. `enum`: a member of a class that is generated with the option `enum`, the name of the class and of the member, and its number. -/
inductive V where
  | none
  | bool (b : Bool)
  | int (i : Int)
  | float (x : UInt64)
  | str (s : PyStr)
  | bytes (b : Bytes)
  | uuid (n : Nat)
  | list (xs : List V)
  | tuple (xs : List V)
  | set (xs : List V)
  | frozenset (xs : List V)
  | dict (kvs : List (V × V))
  /-- `TFrozenDict`, `lib/py/src/Thrift.py` 172-193: a subclass of `dict` without `__repr__` of its own -/
  | frozenDict (kvs : List (V × V))
  | enum (cls member : PyStr) (i : Int)
  | inst (c : Cls) (attrs : List (PyStr × V))

/-- Exceptions -/
inductive Err where
  | name | syntax | type | value | attribute | unicode
  deriving DecidableEq, Repr

def Err.of : Locals.PyErr → Err
  | .syntaxError => .syntax
  | .attributeError => .attribute
  | .typeError => .type
  | .unboundLocal => .name
  | .valueError => .value

/-- What is not modelled of Python: `show` is the `repr` of a finite float that is not negative, `read` the value of such a text in a program; `printable` is `str.isprintable` of a character that is not
ASCII; `names` are the names of characters; `eq` is `==` of values. -/
structure Py where
  show_ : UInt64 → PyStr
  read : PyStr → Option UInt64
  printable : Nat → Bool
  names : PyStr → Option Nat
  eq : V → V → Bool

/-! ### `repr` -/

/-- A decimal number -/
def dec (n : Nat) : PyStr := if n < 10 then [48 + n] else dec (n / 10) ++ [48 + n % 10]
termination_by n

def hexDigit (d : Nat) : Nat := if d < 10 then 48 + d else 87 + d

/-- `%0wx` -/
def hexN : Nat → Nat → PyStr
  | 0, _ => []
  | w + 1, v => hexN w (v / 16) ++ [hexDigit (v % 16)]

/-- The quote that `repr` takes for a text or for bytes -/
def quoteFor (s : List Nat) : Nat := if s.contains 39 && !s.contains 34 then 34 else 39

/-- A character in the `repr` of a `str`, `unicode_repr` of CPython -/
def strChar (P : Py) (q c : Nat) : PyStr :=
  if c = q ∨ c = 92 then [92, c]
  else if c = 9 then [92, 116]
  else if c = 10 then [92, 110]
  else if c = 13 then [92, 114]
  else if c < 32 ∨ c = 127 then [92, 120] ++ hexN 2 c
  else if c < 127 then [c]
  else if P.printable c then [c]
  else if c < 256 then [92, 120] ++ hexN 2 c
  else if c < 65536 then [92, 117] ++ hexN 4 c
  else [92, 85] ++ hexN 8 c

/-- A byte in the `repr` of `bytes`, `PyBytes_Repr` of CPython -/
def byteChar (q c : Nat) : PyStr :=
  if c = q ∨ c = 92 then [92, c]
  else if c = 9 then [92, 116]
  else if c = 10 then [92, 110]
  else if c = 13 then [92, 114]
  else if c < 32 ∨ c ≥ 127 then [92, 120] ++ hexN 2 c
  else [c]

def reprStr (P : Py) (s : PyStr) : PyStr := [quoteFor s] ++ s.flatMap (strChar P (quoteFor s)) ++ [quoteFor s]

def reprBytes (b : Bytes) : PyStr :=
  let s := b.map UInt8.toNat
  [98, quoteFor s] ++ s.flatMap (byteChar (quoteFor s)) ++ [quoteFor s]

/-- `float.__repr__` -/
def reprFloat (P : Py) (x : UInt64) : PyStr :=
  let a := x.toNat % 2 ^ 63
  if a > 0x7FF0000000000000 then pyStr "nan"
  else
    let t := if a = 0x7FF0000000000000 then pyStr "inf" else P.show_ (UInt64.ofNat a)
    if x.toNat ≥ 2 ^ 63 then 45 :: t else t

def reprInt (i : Int) : PyStr := if i < 0 then 45 :: dec i.natAbs else dec i.natAbs

/-- `str(uuid)` -/
def uuidText (n : Nat) : PyStr :=
  let h := hexN 32 n
  h.take 8 ++ [45] ++ (h.drop 8).take 4 ++ [45] ++ (h.drop 12).take 4 ++ [45] ++ (h.drop 16).take 4 ++ [45] ++ h.drop 20

/-- `', '.join(…)` -/
def commas : List PyStr → PyStr
  | [] => []
  | [t] => t
  | t :: ts => t ++ [44, 32] ++ commas ts

/-- All texts, or the first exception -/
def texts {α : Type} : List (Except Err α) → Except Err (List α)
  | [] => .ok []
  | t :: ts =>
    match t with
    | .error e => .error e
    | .ok t =>
      match texts ts with
      | .error e => .error e
      | .ok ts => .ok (t :: ts)

/-- Between brackets -/
def within (a b : PyStr) (ts : List (Except Err PyStr)) : Except Err PyStr :=
  match texts ts with
  | .error e => .error e
  | .ok ts => .ok (a ++ commas ts ++ b)

/-- `'%s=%r' % (key, value)` -/
def keyword (k : PyStr) : Except Err PyStr → Except Err PyStr
  | .error e => .error e
  | .ok t => .ok (k ++ [61] ++ t)

/-- `__repr__`: without slots the items of `__dict__`, cc 1039-1044; with slots what `getattr` finds for the names in `__slots__`, cc 1064-1069. `as`: the attributes and their `repr`. -/
def reprInst (c : Cls) (as : List (PyStr × Except Err PyStr)) : Except Err PyStr :=
  within (c.name ++ [40]) [41]
    (if c.slots then c.members.map fun m =>
        match as.lookup m with
        | some t => keyword m t
        | none => .error .attribute
      else as.map fun a => keyword a.1 a.2)

mutual
/-- `repr(x)`. The `repr` of an empty set is `set()`, of a tuple with one element `(x,)`, of a member of an enum `<Cls.MEMBER: 1>`. -/
def repr (P : Py) : V → Except Err PyStr
  | .none => .ok (pyStr "None")
  | .bool b => .ok (if b then pyStr "True" else pyStr "False")
  | .int i => .ok (reprInt i)
  | .float x => .ok (reprFloat P x)
  | .str s => .ok (reprStr P s)
  | .bytes b => .ok (reprBytes b)
  | .uuid n => .ok (pyStr "UUID(" ++ reprStr P (uuidText n) ++ [41])
  | .list xs => within [91] [93] (reprs P xs)
  | .tuple [] => .ok [40, 41]
  | .tuple [x] => within [40] [44, 41] (reprs P [x])
  | .tuple xs => within [40] [41] (reprs P xs)
  | .set [] => .ok (pyStr "set()")
  | .set xs => within [123] [125] (reprs P xs)
  | .frozenset [] => .ok (pyStr "frozenset()")
  | .frozenset xs => within (pyStr "frozenset({") [125, 41] (reprs P xs)
  | .dict kvs => within [123] [125] (reprPairs P kvs)
  | .frozenDict kvs => within [123] [125] (reprPairs P kvs)
  | .enum c m i => .ok ([60] ++ c ++ [46] ++ m ++ [58, 32] ++ reprInt i ++ [62])
  | .inst c as => reprInst c (reprAttrs P as)

def reprs (P : Py) : List V → List (Except Err PyStr)
  | [] => []
  | x :: xs => repr P x :: reprs P xs

def reprPairs (P : Py) : List (V × V) → List (Except Err PyStr)
  | [] => []
  | kv :: kvs =>
    (match repr P kv.1, repr P kv.2 with
      | .ok k, .ok v => .ok (k ++ [58, 32] ++ v)
      | .error e, _ => .error e
      | .ok _, .error e => .error e) :: reprPairs P kvs

def reprAttrs (P : Py) : List (PyStr × V) → List (PyStr × Except Err PyStr)
  | [] => []
  | a :: as => (a.1, repr P a.2) :: reprAttrs P as
end

/-! ### `eval` -/

/-- Expressions -/
inductive Expr where
  | const (v : V)
  | neg (e : Expr)
  | list (es : List Expr)
  | tuple (es : List Expr)
  | set (es : List Expr)
  | dict (kvs : List (Expr × Expr))
  | name (n : PyStr)
  | call (f : PyStr) (args : List (Option PyStr × Expr))

def skip (s : PyStr) : PyStr := s.dropWhile (· == 32)

def isDigit (c : Nat) : Bool := 48 ≤ c && c ≤ 57

/-- The first character of a name -/
def isStart (c : Nat) : Bool := (65 ≤ c && c ≤ 90) || (97 ≤ c && c ≤ 122) || c == 95

def isIdent (c : Nat) : Bool := isStart c || isDigit c

/-- A number at the beginning of a text, and what follows. `e`: the last character was an `e`. -/
def numTok : Bool → PyStr → PyStr × PyStr
  | _, [] => ([], [])
  | e, c :: s =>
    if isDigit c || c == 46 || c == 101 || (e && (c == 43 || c == 45)) then
      let r := numTok (c == 101) s
      (c :: r.1, r.2)
    else ([], c :: s)

/-- The value of decimal digits -/
def decVal (s : PyStr) : Nat := s.foldl (fun a c => a * 10 + (c - 48)) 0

/-- A number: an integer has no zeros before it. -/
def number (P : Py) (s : PyStr) : Option (Expr × PyStr) :=
  let r := numTok false s
  if r.1.all isDigit then
    if r.1.length = 1 ∨ r.1.head? ≠ some 48 then some (.const (.int (decVal r.1)), r.2) else none
  else (P.read r.1).map fun x => (.const (.float x), r.2)

/-- A string up to the quote `q`: its characters, backslashes included, and what follows it -/
def scan (q : Nat) : PyStr → Option (PyStr × PyStr)
  | [] => none
  | c :: rest =>
    if c = 10 then none
    else if c = q then some ([], rest)
    else if c = 92 then
      match rest with
      | [] => none
      | e :: rest => (scan q rest).map fun r => (92 :: e :: r.1, r.2)
    else (scan q rest).map fun r => (c :: r.1, r.2)

/-- After the quote `q`: not a string in three quotes -/
def short (q : Nat) (s : PyStr) : Option (PyStr × PyStr) := if [q, q] <+: s then none else scan q s

/-- The rest of a string literal -/
def strLit (P : Py) (q : Nat) (s : PyStr) : Option (Expr × PyStr) := do
  let r ← short q s
  let t ← Source.unescape false P.names r.1.length r.1
  some (.const (.str t), r.2)

/-- The rest of a bytes literal: only ASCII characters are allowed in it. -/
def bytesLit (P : Py) (q : Nat) (s : PyStr) : Option (Expr × PyStr) := do
  let r ← short q s
  if r.1.all (· < 128) then
    let t ← Source.unescape true P.names r.1.length r.1
    some (.const (.bytes (t.map UInt8.ofNat)), r.2)
  else none

/-- The constants that are words -/
def constant (w : PyStr) : Option V :=
  if w = pyStr "None" then some .none
  else if w = pyStr "True" then some (.bool true)
  else if w = pyStr "False" then some (.bool false)
  else none

/-- What brackets `(…)` stand for: one expression without a comma is itself. -/
def paren : List Expr → Bool → Expr
  | [e], false => e
  | es, _ => .tuple es

mutual
/-- An expression at the beginning of a text, and what follows. The first number is more than the length of the text, the second the number of brackets that may still be opened: the tokenizer of CPython
has 200 (`MAXLEVEL`). -/
def expr (P : Py) : Nat → Nat → PyStr → Option (Expr × PyStr)
  | 0, _, _ => none
  | n + 1, l, s =>
    match skip s with
    | [] => none
    | c :: t =>
      if c = 45 then (expr P n l t).map fun r => (.neg r.1, r.2)
      else if c = 91 then if l = 0 then none else (items P n (l - 1) 93 t).map fun r => (.list r.1, r.2.2)
      else if c = 40 then if l = 0 then none else (items P n (l - 1) 41 t).map fun r => (paren r.1 r.2.1, r.2.2)
      else if c = 123 then if l = 0 then none else braces P n (l - 1) t
      else if c = 39 ∨ c = 34 then strLit P c t
      else if isDigit c then number P (c :: t)
      else if isStart c then
        let w := (c :: t).takeWhile isIdent
        let r := (c :: t).dropWhile isIdent
        if w = [98] ∧ r.head? = some 39 then bytesLit P 39 r.tail
        else if w = [98] ∧ r.head? = some 34 then bytesLit P 34 r.tail
        else
          match constant w with
          | some v => some (.const v, r)
          | none =>
            if w ∈ Spec.Names.reserved then none
            else
              match skip r with
              | 40 :: r => if l = 0 then none else (args P n (l - 1) r).map fun r => (.call w r.1, r.2)
              | _ => some (.name w, r)
      else none

/-- Expressions up to a closing bracket, and whether there was a comma -/
def items (P : Py) : Nat → Nat → Nat → PyStr → Option (List Expr × Bool × PyStr)
  | 0, _, _, _ => none
  | n + 1, l, close, s =>
    if (skip s).head? = some close then some ([], false, (skip s).tail)
    else
      match expr P n l s with
      | none => none
      | some (e, r) =>
        match skip r with
        | [] => none
        | c :: r =>
          if c = 44 then (items P n l close r).map fun x => (e :: x.1, true, x.2.2)
          else if c = close then some ([e], false, r)
          else none

/-- What is in braces: a set or a dict -/
def braces (P : Py) : Nat → Nat → PyStr → Option (Expr × PyStr)
  | 0, _, _ => none
  | n + 1, l, s =>
    if (skip s).head? = some 125 then some (.dict [], (skip s).tail)
    else
      match expr P n l s with
      | none => none
      | some (e, r) =>
        match skip r with
        | [] => none
        | c :: r =>
          if c = 58 then
            match expr P n l r with
            | none => none
            | some (v, r) =>
              match skip r with
              | [] => none
              | c :: r =>
                if c = 44 then (pairs P n l r).map fun x => (.dict ((e, v) :: x.1), x.2)
                else if c = 125 then some (.dict [(e, v)], r)
                else none
          else if c = 44 then (items P n l 125 r).map fun x => (.set (e :: x.1), x.2.2)
          else if c = 125 then some (.set [e], r)
          else none

/-- The items of a dict -/
def pairs (P : Py) : Nat → Nat → PyStr → Option (List (Expr × Expr) × PyStr)
  | 0, _, _ => none
  | n + 1, l, s =>
    if (skip s).head? = some 125 then some ([], (skip s).tail)
    else
      match expr P n l s with
      | none => none
      | some (e, r) =>
        match skip r with
        | [] => none
        | c :: r =>
          if c = 58 then
            match expr P n l r with
            | none => none
            | some (v, r) =>
              match skip r with
              | [] => none
              | c :: r =>
                if c = 44 then (pairs P n l r).map fun x => ((e, v) :: x.1, x.2)
                else if c = 125 then some ([(e, v)], r)
                else none
          else none

/-- The arguments of a call -/
def args (P : Py) : Nat → Nat → PyStr → Option (List (Option PyStr × Expr) × PyStr)
  | 0, _, _ => none
  | n + 1, l, s =>
    let s := skip s
    if s.head? = some 41 then some ([], s.tail)
    else
      let w := s.takeWhile isIdent
      let r := skip (s.dropWhile isIdent)
      let kw := (s.head?.any isStart) && r.head? == some 61 && r.tail.head? != some 61
      if kw && decide (w ∈ Spec.Names.reserved) then none
      else
        match expr P n l (if kw then r.tail else s) with
        | none => none
        | some (e, r) =>
          match skip r with
          | [] => none
          | c :: r =>
            if c = 44 then (args P n l r).map fun x => ((if kw then some w else none, e) :: x.1, x.2)
            else if c = 41 then some ([(if kw then some w else none, e)], r)
            else none
end

/-- What a name in a program stands for: a generated class, or a function of Python -/
inductive Glob where
  | cls (c : Cls)
  | uuid
  | set
  | frozenset
  deriving DecidableEq

abbrev Env := PyStr → Option Glob

mutual
/-- Has the value a hash? Of instances only those of immutable classes, cc 984-994. -/
def hashable : V → Bool
  | .list _ => false
  | .set _ => false
  | .dict _ => false
  | .tuple xs => hashables xs
  | .inst c as => c.immutable && hashableAttrs as
  | _ => true

def hashables : List V → Bool
  | [] => true
  | x :: xs => hashable x && hashables xs

def hashableAttrs : List (PyStr × V) → Bool
  | [] => true
  | a :: as => hashable a.2 && hashableAttrs as
end

/-- A set of the values, the first of equal ones -/
def mkSet (P : Py) : List V → List V → Except Err (List V)
  | acc, [] => .ok acc
  | acc, x :: xs =>
    if !hashable x then .error .type
    else mkSet P (if acc.any fun y => P.eq y x then acc else acc ++ [x]) xs

/-- `d[k] = v` -/
def dictSet (P : Py) (k v : V) : List (V × V) → List (V × V)
  | [] => [(k, v)]
  | e :: es => if P.eq e.1 k then (e.1, v) :: es else e :: dictSet P k v es

def mkDict (P : Py) : List (V × V) → List (V × V) → Except Err (List (V × V))
  | acc, [] => .ok acc
  | acc, kv :: kvs =>
    if !hashable kv.1 then .error .type
    else mkDict P (dictSet P kv.1 kv.2 acc) kvs

/-- `UUID(text)`: 32 hexadecimal digits, without regard to dashes; other forms do not occur. -/
def mkUuid (s : PyStr) : Except Err V :=
  let t := s.filter (· ≠ 45)
  match Source.hexDigits 32 0 t with
  | some (n, []) => .ok (.uuid n)
  | _ => .error .value

/-- `-x`; the sign of a float is its highest bit. -/
def negate : V → Except Err V
  | .int i => .ok (.int (-i))
  | .bool b => .ok (.int (if b then -1 else 0))
  | .float x => .ok (.float (x + 0x8000000000000000))
  | _ => .error .type

/-- `None` as an argument -/
def toArg : V → Option V
  | .none => none
  | v => some v

def ofArg : Option V → V
  | none => .none
  | some v => v

/-- The keyword arguments; positional ones are not used for generated classes. -/
def kwOnly : List (Option PyStr × V) → Except Err (List (PyStr × Option V))
  | [] => .ok []
  | (none, _) :: _ => .error .type
  | (some k, v) :: as =>
    match kwOnly as with
    | .error e => .error e
    | .ok r => .ok ((k, toArg v) :: r)

/-- A call -/
def apply (g : Glob) (as : List (Option PyStr × V)) : Except Err V :=
  match g with
  | .uuid =>
    match as with
    | [(none, .str s)] => mkUuid s
    | _ => .error .type
  | .set =>
    match as with
    | [] => .ok (.set [])
    | [(none, .set xs)] => .ok (.set xs)
    | _ => .error .type
  | .frozenset =>
    match as with
    | [] => .ok (.frozenset [])
    | [(none, .set xs)] => .ok (.frozenset xs)
    | _ => .error .type
  | .cls c =>
    match kwOnly as with
    | .error e => .error e
    | .ok kw =>
      match Attrs.construct c kw with
      | .error e => .error (.of e)
      | .ok o => .ok (.inst o.cls (o.attrs.reverse.map fun a => (a.1, ofArg a.2)))

mutual
/-- The value of an expression. The value of a name that is not called is of no use here: a `TypeError`. -/
def value (P : Py) (env : Env) : Expr → Except Err V
  | .const v => .ok v
  | .neg e =>
    match value P env e with
    | .error x => .error x
    | .ok v => negate v
  | .list es =>
    match values P env es with
    | .error x => .error x
    | .ok vs => .ok (.list vs)
  | .tuple es =>
    match values P env es with
    | .error x => .error x
    | .ok vs => .ok (.tuple vs)
  | .set es =>
    match values P env es with
    | .error x => .error x
    | .ok vs =>
      match mkSet P [] vs with
      | .error x => .error x
      | .ok vs => .ok (.set vs)
  | .dict kvs =>
    match valuePairs P env kvs with
    | .error x => .error x
    | .ok vs =>
      match mkDict P [] vs with
      | .error x => .error x
      | .ok vs => .ok (.dict vs)
  | .name n =>
    match env n with
    | none => .error .name
    | some _ => .error .type
  | .call f as =>
    match env f with
    | none => .error .name
    | some g =>
      match valueArgs P env as with
      | .error x => .error x
      | .ok vs => apply g vs

def values (P : Py) (env : Env) : List Expr → Except Err (List V)
  | [] => .ok []
  | e :: es =>
    match value P env e with
    | .error x => .error x
    | .ok v =>
      match values P env es with
      | .error x => .error x
      | .ok vs => .ok (v :: vs)

def valuePairs (P : Py) (env : Env) : List (Expr × Expr) → Except Err (List (V × V))
  | [] => .ok []
  | kv :: kvs =>
    match value P env kv.1 with
    | .error x => .error x
    | .ok k =>
      match value P env kv.2 with
      | .error x => .error x
      | .ok v =>
        match valuePairs P env kvs with
        | .error x => .error x
        | .ok vs => .ok ((k, v) :: vs)

def valueArgs (P : Py) (env : Env) : List (Option PyStr × Expr) → Except Err (List (Option PyStr × V))
  | [] => .ok []
  | a :: as =>
    match value P env a.2 with
    | .error x => .error x
    | .ok v =>
      match valueArgs P env as with
      | .error x => .error x
      | .ok vs => .ok ((a.1, v) :: vs)
end

/-- A character that a program cannot have: NUL, and the surrogates, which have no UTF-8 -/
def badChar (c : Nat) : Bool := c == 0 || (0xD800 ≤ c && c ≤ 0xDFFF)

/-- `eval(text)`; `lim` brackets may be open. -/
def eval (P : Py) (lim : Nat) (env : Env) (s : PyStr) : Except Err V :=
  if s.any badChar then .error .unicode
  else
    match expr P (s.length + 1) lim s with
    | none => .error .syntax
    | some (e, r) => if skip r = [] then value P env e else .error .syntax

end Thrift.Repr
