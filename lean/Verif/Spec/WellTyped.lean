import Verif.Model.Types
/-
Independent specification: which Python values a declared type admits, how schemas must look,
and what a reader with another version of the schema is expected to see.
-/

namespace Thrift.Spec

/-- A signed integer of `bits` bits. -/
def InRange (bits : Nat) (i : Int) : Prop :=
  -(2 : Int) ^ (bits - 1) ≤ i ∧ i < (2 : Int) ^ (bits - 1)

instance (bits : Nat) (i : Int) : Decidable (InRange bits i) := by
  unfold InRange; exact inferInstance

/-- A Unicode scalar value (RFC 3629): a code point that is not a surrogate. -/
def Scalar (c : Nat) : Prop := c < 0xD800 ∨ (0xE000 ≤ c ∧ c < 0x110000)

instance (c : Nat) : Decidable (Scalar c) := by unfold Scalar; exact inferInstance

/-- Number of bytes UTF-8 needs for a code point. -/
def utf8Width (c : Nat) : Nat :=
  if c < 0x80 then 1 else if c < 0x800 then 2 else if c < 0x10000 then 3 else 4

/-- Number of bytes UTF-8 needs for a text. -/
def utf8Len (s : PyStr) : Nat := (s.map utf8Width).sum

/-- A text that fits in a Thrift `string`. -/
def TextOK (s : PyStr) : Prop := (∀ c ∈ s, Scalar c) ∧ utf8Len s < 2 ^ 31

instance (s : PyStr) : Decidable (TextOK s) := by unfold TextOK; exact inferInstance

/-- The fields of an IEEE 754 double: the exponent and the fraction. -/
def exponent (x : UInt64) : Nat := x.toNat / 2 ^ 52 % 2 ^ 11
def fraction (x : UInt64) : Nat := x.toNat % 2 ^ 52

/-- Equality of doubles: a NaN (exponent all ones, fraction not zero) is equal to nothing, the two
zeros (exponent and fraction zero) are equal, other doubles are equal if they are the same. -/
def doubleEq (x y : UInt64) : Bool :=
  if (exponent x = 2047 ∧ fraction x ≠ 0) ∨ (exponent y = 2047 ∧ fraction y ≠ 0) then false
  else if exponent x = 0 ∧ fraction x = 0 ∧ exponent y = 0 ∧ fraction y = 0 then true
  else decide (x = y)

/-- Python's `==` between two keys (or set elements) of the same hashable type. -/
def pyEq : Val → Val → Bool
  | .double x, .double y => doubleEq x y
  | .bool a, .bool b => decide (a = b)
  | .int a, .int b => decide (a = b)
  | .str a, .str b => decide (a = b)
  | .bin a, .bin b => decide (a = b)
  | .uuid a, .uuid b => decide (a = b)
  | _, _ => false

/-- No two elements are equal in the sense of Python's `==`. -/
def Distinct (vs : List Val) : Prop := vs.Pairwise fun a b => pyEq b a = false

instance (vs : List Val) : Decidable (Distinct vs) := by unfold Distinct; exact inferInstance

mutual
/-- `v` is a value that can be written as the declared type `t`: integers in range, texts of scalar
values, sets and maps with hashable elements/keys, lengths below 2^31, 16-byte UUIDs, and in structs
every `required` field set. (Repeated elements and keys are not excluded here, see `NoDuplicates`.) -/
def WT (sch : Schema) : Ty → Val → Prop
  | .bool, .bool _ => True
  | .byte, .int i => InRange 8 i
  | .i16, .int i => InRange 16 i
  | .i32, .int i => InRange 32 i
  | .i64, .int i => InRange 64 i
  | .double, .double _ => True
  | .string, .str s => TextOK s
  | .binary, .bin b => b.length < 2 ^ 31
  | .uuid, .uuid u => u.length = 16
  | .list e, .list vs => vs.length < 2 ^ 31 ∧ WTs sch e vs
  | .set e, .set vs =>
    vs.length < 2 ^ 31 ∧ e.hashable = true ∧ WTs sch e vs
  | .map k v, .map kvs =>
    kvs.length < 2 ^ 31 ∧ k.hashable = true ∧ WTp sch k v kvs
  | .struct sid, .struct as => WTf sch (sch sid) as
  | _, _ => False
def WTs (sch : Schema) : Ty → List Val → Prop
  | _, [] => True
  | e, v :: vs => WT sch e v ∧ WTs sch e vs
def WTp (sch : Schema) : Ty → Ty → List (Val × Val) → Prop
  | _, _, [] => True
  | k, v, (a, b) :: kvs => WT sch k a ∧ WT sch v b ∧ WTp sch k v kvs
def WTf (sch : Schema) : List Field → List (Option Val) → Prop
  | [], [] => True
  | f :: fs, some v :: as => WT sch f.ty v ∧ WTf sch fs as
  | f :: fs, none :: as => f.required = false ∧ WTf sch fs as
  | _, _ => False
end

mutual
/-- Sets and maps have pairwise different elements/keys, as every Python `set` and `dict` has. -/
def NoDuplicates : Val → Prop
  | .list vs => NoDuplicatess vs
  | .set vs => Distinct vs ∧ NoDuplicatess vs
  | .map kvs => Distinct (kvs.map (·.1)) ∧ NoDuplicatesp kvs
  | .struct as => NoDuplicatesf as
  | _ => True
def NoDuplicatess : List Val → Prop
  | [] => True
  | v :: vs => NoDuplicates v ∧ NoDuplicatess vs
def NoDuplicatesp : List (Val × Val) → Prop
  | [] => True
  | (a, b) :: kvs => NoDuplicates a ∧ NoDuplicates b ∧ NoDuplicatesp kvs
def NoDuplicatesf : List (Option Val) → Prop
  | [] => True
  | some v :: as => NoDuplicates v ∧ NoDuplicatesf as
  | none :: as => NoDuplicatesf as
end

mutual
/-- No attribute is `None` where the constructor would assign a default. -/
def NoHiddenDefault (sch : Schema) : Ty → Val → Prop
  | .list e, .list vs => NoHiddenDefaults sch e vs
  | .set e, .set vs => NoHiddenDefaults sch e vs
  | .map k v, .map kvs => NoHiddenDefaultp sch k v kvs
  | .struct sid, .struct as => NoHiddenDefaultf sch (sch sid) as
  | _, _ => True
def NoHiddenDefaults (sch : Schema) : Ty → List Val → Prop
  | _, [] => True
  | e, v :: vs => NoHiddenDefault sch e v ∧ NoHiddenDefaults sch e vs
def NoHiddenDefaultp (sch : Schema) : Ty → Ty → List (Val × Val) → Prop
  | _, _, [] => True
  | k, v, (a, b) :: kvs =>
    NoHiddenDefault sch k a ∧ NoHiddenDefault sch v b ∧ NoHiddenDefaultp sch k v kvs
def NoHiddenDefaultf (sch : Schema) : List Field → List (Option Val) → Prop
  | f :: fs, some v :: as => NoHiddenDefault sch f.ty v ∧ NoHiddenDefaultf sch fs as
  | f :: fs, none :: as => f.dflt = none ∧ NoHiddenDefaultf sch fs as
  | _, _ => True
end

/-- What the IDL compiler guarantees about the fields of a struct: sorted by id without
duplicates, ids are 16-bit. -/
def FieldsOK (fs : List Field) : Prop :=
  fs.Pairwise (fun f g => f.fid < g.fid) ∧ ∀ f ∈ fs, InRange 16 f.fid

/-- A schema for the code of `mode`. The dynamic code additionally needs non-negative field ids
(with a negative id the compiler emits an empty `thrift_spec`). -/
def SchemaOK (mode : Mode) (sch : Schema) : Prop :=
  ∀ sid, FieldsOK (sch sid) ∧ (mode = .dyn → ∀ f ∈ sch sid, 0 ≤ f.fid)

/-- Two versions of a schema: fields may be added, removed or given another wire type; a field that
keeps its id and its wire type keeps its declared type. -/
def Compatible (sch₁ sch₂ : Schema) : Prop :=
  ∀ sid, ∀ f ∈ sch₁ sid, ∀ g ∈ sch₂ sid,
    f.fid = g.fid → f.ty.ttype = g.ty.ttype → f.ty = g.ty

mutual
/-- Nesting of structs: 0 for a scalar, 1 for a struct of scalars. -/
def structDepth : Val → Nat
  | .list vs => structDepths vs
  | .set vs => structDepths vs
  | .map kvs => structDepthp kvs
  | .struct as => 1 + structDepthf as
  | _ => 0
def structDepths : List Val → Nat
  | [] => 0
  | v :: vs => max (structDepth v) (structDepths vs)
def structDepthp : List (Val × Val) → Nat
  | [] => 0
  | (a, b) :: kvs => max (max (structDepth a) (structDepth b)) (structDepthp kvs)
def structDepthf : List (Option Val) → Nat
  | [] => 0
  | some v :: as => max (structDepth v) (structDepthf as)
  | none :: as => structDepthf as
end

mutual
/-- Nesting of structs and containers: 1 for a scalar, 2 for a list of scalars. -/
def nesting : Val → Nat
  | .list vs => 1 + nestings vs
  | .set vs => 1 + nestings vs
  | .map kvs => 1 + nestingp kvs
  | .struct as => 1 + nestingf as
  | _ => 1
def nestings : List Val → Nat
  | [] => 0
  | v :: vs => max (nesting v) (nestings vs)
def nestingp : List (Val × Val) → Nat
  | [] => 0
  | (a, b) :: kvs => max (max (nesting a) (nesting b)) (nestingp kvs)
def nestingf : List (Option Val) → Nat
  | [] => 0
  | some v :: as => max (nesting v) (nestingf as)
  | none :: as => nestingf as
end

mutual
/-- Number of nodes and fields, used to bound loops. -/
def size : Val → Nat
  | .list vs => 1 + sizes vs
  | .set vs => 1 + sizes vs
  | .map kvs => 1 + sizep kvs
  | .struct as => 2 + sizef as
  | _ => 1
def sizes : List Val → Nat
  | [] => 0
  | v :: vs => 1 + size v + sizes vs
def sizep : List (Val × Val) → Nat
  | [] => 0
  | (a, b) :: kvs => 1 + size a + size b + sizep kvs
def sizef : List (Option Val) → Nat
  | [] => 0
  | some v :: as => 1 + size v + sizef as
  | none :: as => 1 + sizef as
end

mutual
/-- Every string-like value inside satisfies `p` (given its UTF-8 form / its bytes) and every
container size satisfies `q`. -/
def Sizes (p : Nat → Prop) (q : Nat → Prop) : Val → Prop
  | .str s => p (utf8Len s)
  | .bin b => p b.length
  | .list vs => q vs.length ∧ Sizess p q vs
  | .set vs => q vs.length ∧ Sizess p q vs
  | .map kvs => q kvs.length ∧ Sizesp p q kvs
  | .struct as => Sizesf p q as
  | _ => True
def Sizess (p : Nat → Prop) (q : Nat → Prop) : List Val → Prop
  | [] => True
  | v :: vs => Sizes p q v ∧ Sizess p q vs
def Sizesp (p : Nat → Prop) (q : Nat → Prop) : List (Val × Val) → Prop
  | [] => True
  | (a, b) :: kvs => Sizes p q a ∧ Sizes p q b ∧ Sizesp p q kvs
def Sizesf (p : Nat → Prop) (q : Nat → Prop) : List (Option Val) → Prop
  | [] => True
  | some v :: as => Sizes p q v ∧ Sizesf p q as
  | none :: as => Sizesf p q as
end

/-- A length is within an optional limit. -/
def Within (limit : Option Int) (n : Nat) : Prop := ∀ l, limit = some l → (n : Int) ≤ l

/-- Every string length is within the string limit and every container size within the container
limit. -/
def WithinLimits (stringLimit containerLimit : Option Int) (v : Val) : Prop :=
  Sizes (Within stringLimit) (Within containerLimit) v

mutual
/-- Every `binary` value inside is the UTF-8 form of some text (given by `utf8`). -/
def BinariesAreText (utf8 : Bytes → Prop) : Val → Prop
  | .bin b => utf8 b
  | .list vs => BinariesAreTexts utf8 vs
  | .set vs => BinariesAreTexts utf8 vs
  | .map kvs => BinariesAreTextp utf8 kvs
  | .struct as => BinariesAreTextf utf8 as
  | _ => True
def BinariesAreTexts (utf8 : Bytes → Prop) : List Val → Prop
  | [] => True
  | v :: vs => BinariesAreText utf8 v ∧ BinariesAreTexts utf8 vs
def BinariesAreTextp (utf8 : Bytes → Prop) : List (Val × Val) → Prop
  | [] => True
  | (a, b) :: kvs => BinariesAreText utf8 a ∧ BinariesAreText utf8 b ∧ BinariesAreTextp utf8 kvs
def BinariesAreTextf (utf8 : Bytes → Prop) : List (Option Val) → Prop
  | [] => True
  | some v :: as => BinariesAreText utf8 v ∧ BinariesAreTextf utf8 as
  | none :: as => BinariesAreTextf utf8 as
end

/-- The field a reader finds for an id. -/
def fieldWithId (fs : List Field) (fid : Int) : Option Field := fs.find? (·.fid == fid)

/-- Does a reader with fields `gs` know this id with this wire type? -/
def Known (gs : List Field) (fid ttype : Int) : Bool :=
  gs.any fun g => g.fid == fid && g.ty.ttype == ttype

mutual
/-- Every field the reader (schema `sch₂`) does not know satisfies `p`. -/
def Unknowns (p : Val → Prop) (sch₁ sch₂ : Schema) : Ty → Val → Prop
  | .list e, .list vs => Unknownss p sch₁ sch₂ e vs
  | .set e, .set vs => Unknownss p sch₁ sch₂ e vs
  | .map k v, .map kvs => Unknownsp p sch₁ sch₂ k v kvs
  | .struct sid, .struct as => Unknownsf p sch₁ sch₂ (sch₂ sid) (sch₁ sid) as
  | _, _ => True
def Unknownss (p : Val → Prop) (sch₁ sch₂ : Schema) : Ty → List Val → Prop
  | _, [] => True
  | e, v :: vs => Unknowns p sch₁ sch₂ e v ∧ Unknownss p sch₁ sch₂ e vs
def Unknownsp (p : Val → Prop) (sch₁ sch₂ : Schema) : Ty → Ty → List (Val × Val) → Prop
  | _, _, [] => True
  | k, v, (a, b) :: kvs =>
    Unknowns p sch₁ sch₂ k a ∧ Unknowns p sch₁ sch₂ v b ∧ Unknownsp p sch₁ sch₂ k v kvs
def Unknownsf (p : Val → Prop) (sch₁ sch₂ : Schema) (gs : List Field) :
    List Field → List (Option Val) → Prop
  | f :: fs, some v :: as =>
    (if Known gs f.fid f.ty.ttype then Unknowns p sch₁ sch₂ f.ty v else p v) ∧
      Unknownsf p sch₁ sch₂ gs fs as
  | _ :: fs, none :: as => Unknownsf p sch₁ sch₂ gs fs as
  | _, _ => True
end

/-- The attribute a reader ends up with for its field `g`, if the fields `sent` (id, wire type,
value) arrived: the value sent under that id and wire type, otherwise the default. -/
def attrOf (sent : List (Int × Int × Val)) (g : Field) : Option Val :=
  match sent.find? (fun x => x.1 == g.fid && x.2.1 == g.ty.ttype) with
  | some x => some x.2.2
  | none => g.dflt

/-- The elements that are not equal to an earlier one nor to one of `seen`. -/
def firsts (seen : List Val) : List Val → List Val
  | [] => []
  | v :: vs => if seen.any (pyEq v) then firsts seen vs else v :: firsts (seen ++ [v]) vs

/-- The value of key `k` after the pairs `kvs`, if it was `v` before: the last one given to an equal
key. -/
def latest (k v : Val) : List (Val × Val) → Val
  | [] => v
  | (k', v') :: kvs => latest k (if pyEq k k' then v' else v) kvs

/-- The keys that are not equal to an earlier one nor to one of `seen`, each with the last value given
to it. -/
def merged (seen : List Val) : List (Val × Val) → List (Val × Val)
  | [] => []
  | (k, v) :: kvs =>
    if seen.any (pyEq k) then merged seen kvs else (k, latest k v kvs) :: merged (seen ++ [k]) kvs

mutual
/-- What a reader with schema `sch₂` is expected to see of a value written with `sch₁`. If a set or a map
repeats an element or a key, the first one stays; the last value of a key wins. -/
def project (sch₁ sch₂ : Schema) : Ty → Val → Val
  | .list e, .list vs => .list (projects sch₁ sch₂ e vs)
  | .set e, .set vs => .set (firsts [] (projects sch₁ sch₂ e vs))
  | .map k v, .map kvs => .map (merged [] (projectp sch₁ sch₂ k v kvs))
  | .struct sid, .struct as =>
    .struct ((sch₂ sid).map (attrOf (sentFields sch₁ sch₂ (sch₁ sid) as)))
  | _, v => v
def projects (sch₁ sch₂ : Schema) : Ty → List Val → List Val
  | _, [] => []
  | e, v :: vs => project sch₁ sch₂ e v :: projects sch₁ sch₂ e vs
def projectp (sch₁ sch₂ : Schema) : Ty → Ty → List (Val × Val) → List (Val × Val)
  | _, _, [] => []
  | k, v, (a, b) :: kvs =>
    (project sch₁ sch₂ k a, project sch₁ sch₂ v b) :: projectp sch₁ sch₂ k v kvs
/-- The fields that are sent: those that are not `None`. -/
def sentFields (sch₁ sch₂ : Schema) : List Field → List (Option Val) → List (Int × Int × Val)
  | f :: fs, some v :: as =>
    (f.fid, f.ty.ttype, project sch₁ sch₂ f.ty v) :: sentFields sch₁ sch₂ fs as
  | _ :: fs, none :: as => sentFields sch₁ sch₂ fs as
  | _, _ => []
end

end Thrift.Spec
