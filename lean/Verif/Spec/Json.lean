import Verif.Spec.Rfc8259
/-
The documents that `TJSONProtocol` exchanges: which JSON value stands for a Thrift value, and how JSON
values are written without blanks.
-/

namespace Thrift.Spec.Json

/-! ### JSON values and their text -/

/-- A JSON value of the kinds the protocol uses. A number, a string and a name are given by their text,
strings and names without the quotation marks but with the escapes. -/
inductive J where
  | num (text : Bytes)
  | str (text : Bytes)
  | arr (items : List J)
  | obj (members : List (Bytes × J))

/-- A text in quotation marks. -/
def quoted (text : Bytes) : Bytes := 34 :: (text ++ [34])

mutual
/-- The text of a JSON value. -/
def render : J → Bytes
  | .num text => text
  | .str text => quoted text
  | .arr [] => [91, 93]
  | .arr (x :: xs) => 91 :: (render x ++ (renderItems xs ++ [93]))
  | .obj [] => [123, 125]
  | .obj ((k, x) :: xs) => 123 :: (quoted k ++ (58 :: render x ++ (renderMembers xs ++ [125])))
/-- The items after the first, each with a comma before it. -/
def renderItems : List J → Bytes
  | [] => []
  | x :: xs => 44 :: (render x ++ renderItems xs)
/-- The members after the first, each with a comma before it. -/
def renderMembers : List (Bytes × J) → Bytes
  | [] => []
  | (k, x) :: xs => 44 :: (quoted k ++ (58 :: render x ++ renderMembers xs))
end

mutual
/-- The length of every number, string and name inside satisfies `p`. -/
def Texts (p : Nat → Prop) : J → Prop
  | .num text => p text.length
  | .str text => p text.length
  | .arr xs => TextsItems p xs
  | .obj xs => TextsMembers p xs
def TextsItems (p : Nat → Prop) : List J → Prop
  | [] => True
  | x :: xs => Texts p x ∧ TextsItems p xs
def TextsMembers (p : Nat → Prop) : List (Bytes × J) → Prop
  | [] => True
  | (k, x) :: xs => p k.length ∧ Texts p x ∧ TextsMembers p xs
end

/-! ### Scalars -/

/-- The bytes of an ASCII text. -/
def ascii (s : String) : Bytes := s.toList.map fun c => UInt8.ofNat c.toNat

/-- An integer in decimal notation. -/
def decimal (i : Int) : Bytes := ascii (toString i)

/-- A character inside a string: quotation mark, backslash and five control characters have escapes of
two characters, everything else is written in UTF-8. -/
def escapedChar (c : Nat) : Bytes :=
  match [(0x22, 0x22), (0x5C, 0x5C), (0x08, 0x62), (0x0C, 0x66), (0x0A, 0x6E), (0x0D, 0x72), (0x09, 0x74)].find?
      (fun x : Nat × UInt8 => x.1 == c) with
  | some x => [0x5C, x.2]
  | none => utf8 [c]

/-- The characters of a text inside a string. -/
def escaped (s : PyStr) : Bytes := s.flatMap escapedChar

/-- The bits of a byte, most significant first. -/
def bits (x : UInt8) : List Nat := [7, 6, 5, 4, 3, 2, 1, 0].map fun k => x.toNat / 2 ^ k % 2

/-- The number with these bits, most significant first. -/
def ofBits (l : List Nat) : Nat := l.foldl (fun n b => 2 * n + b) 0

/-- RFC 4648, table 1. -/
def alphabet : List UInt8 := ascii "ABCDEFGHIJKLMNOPQRSTUVWXYZabcdefghijklmnopqrstuvwxyz0123456789+/"

/-- Groups of six bits as characters; a last group is filled with zeros. -/
def sextets : List Nat → Bytes
  | a :: b :: c :: d :: e :: f :: l => alphabet.getD (ofBits [a, b, c, d, e, f]) 0 :: sextets l
  | [] => []
  | l => [alphabet.getD (ofBits ((l ++ [0, 0, 0, 0, 0]).take 6)) 0]

/-- RFC 4648, section 4: base64. The text is padded with `=` to a multiple of four characters. -/
def base64 (b : Bytes) : Bytes :=
  let text := sextets (b.flatMap bits)
  text ++ List.replicate ((4 - text.length % 4) % 4) 61

/-- Hexadecimal notation of bytes. -/
def hex (b : Bytes) : Bytes :=
  b.flatMap fun x => [(ascii "0123456789abcdef").getD (x.toNat / 16) 0, (ascii "0123456789abcdef").getD (x.toNat % 16) 0]

/-- RFC 9562, section 4: the text of a UUID, 8-4-4-4-12 digits. -/
def uuidText (u : Bytes) : Bytes :=
  hex (u.take 4) ++ 45 :: (hex ((u.drop 4).take 2) ++ 45 :: (hex ((u.drop 6).take 2) ++
    45 :: (hex ((u.drop 8).take 2) ++ 45 :: hex (u.drop 10))))

/-- The name of a type. -/
def typeName : Ty → Bytes
  | .bool => ascii "tf"
  | .byte => ascii "i8"
  | .i16 => ascii "i16"
  | .i32 => ascii "i32"
  | .i64 => ascii "i64"
  | .double => ascii "dbl"
  | .string => ascii "str"
  | .binary => ascii "str"
  | .uuid => ascii "uid"
  | .list _ => ascii "lst"
  | .set _ => ascii "set"
  | .map _ _ => ascii "map"
  | .struct _ => ascii "rec"

/-! ### Thrift values -/

/-- The name of a member that stands for a map key: its text as a number or string. `fmt` formats
doubles. -/
def keyText (fmt : UInt64 → Bytes) : Val → Bytes
  | .bool b => if b then ascii "1" else ascii "0"
  | .int i => decimal i
  | .double x => fmt x
  | .str s => escaped s
  | .bin b => base64 b
  | .uuid u => uuidText u
  | _ => []

mutual
/-- The JSON value that stands for a value of a declared type. A list is an array of the name of the
element type, the size and the elements; a map is an array of the names of the types, the size and an
object with the pairs; a struct is an object that maps field ids to objects that map the name of the type to
the value. -/
def tree (fmt : UInt64 → Bytes) (sch : Schema) : Ty → Val → J
  | _, .bool b => .num (if b then ascii "1" else ascii "0")
  | _, .int i => .num (decimal i)
  | _, .double x => .num (fmt x)
  | _, .str s => .str (escaped s)
  | _, .bin b => .str (base64 b)
  | _, .uuid u => .str (uuidText u)
  | .list e, .list vs => .arr (.str (typeName e) :: .num (decimal vs.length) :: trees fmt sch e vs)
  | .set e, .set vs => .arr (.str (typeName e) :: .num (decimal vs.length) :: trees fmt sch e vs)
  | .map k v, .map kvs =>
    .arr [.str (typeName k), .str (typeName v), .num (decimal kvs.length), .obj (treep fmt sch v kvs)]
  | .struct sid, .struct as => .obj (treef fmt sch (sch sid) as)
  | _, _ => .str []
def trees (fmt : UInt64 → Bytes) (sch : Schema) : Ty → List Val → List J
  | _, [] => []
  | e, v :: vs => tree fmt sch e v :: trees fmt sch e vs
def treep (fmt : UInt64 → Bytes) (sch : Schema) : Ty → List (Val × Val) → List (Bytes × J)
  | _, [] => []
  | v, (a, b) :: kvs => (keyText fmt a, tree fmt sch v b) :: treep fmt sch v kvs
def treef (fmt : UInt64 → Bytes) (sch : Schema) : List Field → List (Option Val) → List (Bytes × J)
  | f :: fs, some v :: as => (decimal f.fid, .obj [(typeName f.ty, tree fmt sch f.ty v)]) :: treef fmt sch fs as
  | _ :: fs, none :: as => treef fmt sch fs as
  | _, _ => []
end

/-- The document of a value. -/
def value (fmt : UInt64 → Bytes) (sch : Schema) (t : Ty) (v : Val) : Bytes := render (tree fmt sch t v)

/-- Types whose values are JSON numbers. -/
def isNumber : Ty → Bool
  | .bool | .byte | .i16 | .i32 | .i64 | .double => true
  | _ => false

/-- A message: an array of the version of the protocol, the name, the type, the sequence id and a struct. -/
def message (name : PyStr) (type seqid : Int) (body : J) : J :=
  .arr [.num (ascii "1"), .str (escaped name), .num (decimal type), .num (decimal seqid), body]

/-- A double that is neither infinite nor a NaN. -/
def Finite (x : UInt64) : Prop := exponent x ≠ 2047

instance (x : UInt64) : Decidable (Finite x) := by unfold Finite; exact inferInstance

/-- What is assumed of `'{0:.17g}'.format` and `float`: a finite double is written as a number, and read back
as the same double. -/
structure Faithful (fmt : UInt64 → Bytes) (parse : PyStr → Option UInt64) : Prop where
  number : ∀ x, Finite x → Rfc8259.Number (fmt x)
  parse : ∀ x, Finite x → parse ((fmt x).map (·.toNat)) = some x

/-- What Python does with the other doubles: `'{0:.17g}'.format` writes them as words, and `float` rejects
the empty text and a lone sign. -/
structure Words (fmt : UInt64 → Bytes) (parse : PyStr → Option UInt64) : Prop where
  word : ∀ x, ¬ Finite x → fmt x = ascii "inf" ∨ fmt x = ascii "-inf" ∨ fmt x = ascii "nan"
  empty : parse [] = none
  minus : parse [0x2D] = none

mutual
/-- Every double inside satisfies `p`. -/
def Doubles (p : UInt64 → Prop) : Val → Prop
  | .double x => p x
  | .list vs => Doubless p vs
  | .set vs => Doubless p vs
  | .map kvs => Doublesp p kvs
  | .struct as => Doublesf p as
  | _ => True
def Doubless (p : UInt64 → Prop) : List Val → Prop
  | [] => True
  | v :: vs => Doubles p v ∧ Doubless p vs
def Doublesp (p : UInt64 → Prop) : List (Val × Val) → Prop
  | [] => True
  | (a, b) :: kvs => Doubles p a ∧ Doubles p b ∧ Doublesp p kvs
def Doublesf (p : UInt64 → Prop) : List (Option Val) → Prop
  | [] => True
  | some v :: as => Doubles p v ∧ Doublesf p as
  | none :: as => Doublesf p as
end

mutual
/-- Every text inside satisfies `p`. -/
def Strings (p : PyStr → Prop) : Val → Prop
  | .str s => p s
  | .list vs => Stringss p vs
  | .set vs => Stringss p vs
  | .map kvs => Stringsp p kvs
  | .struct as => Stringsf p as
  | _ => True
def Stringss (p : PyStr → Prop) : List Val → Prop
  | [] => True
  | v :: vs => Strings p v ∧ Stringss p vs
def Stringsp (p : PyStr → Prop) : List (Val × Val) → Prop
  | [] => True
  | (a, b) :: kvs => Strings p a ∧ Strings p b ∧ Stringsp p kvs
def Stringsf (p : PyStr → Prop) : List (Option Val) → Prop
  | [] => True
  | some v :: as => Strings p v ∧ Stringsf p as
  | none :: as => Stringsf p as
end

/-- A text without control characters other than those with an escape of two characters. -/
def Clean (s : PyStr) : Prop := ∀ c ∈ s, 0x20 ≤ c ∨ c ∈ [0x08, 0x09, 0x0A, 0x0C, 0x0D]

end Thrift.Spec.Json
