import Verif.Spec.Rpc
/-
What a peer with another version of a program is expected to see of a value, and of what a handler did.
-/

namespace Thrift.Spec
open Rpc

/-- Field `f` of a struct with fields `fs` and attributes `as` is set, to `v`. -/
def SetTo (fs : List Field) (as : List (Option Val)) (f : Field) (v : Val) : Prop :=
  ∃ i : Nat, fs[i]? = some f ∧ as[i]? = some (some v)

/-- `u` is what a reader with schema `Y` sees of a value `v` that was written with schema `X`: the same, except that the fields of structs are those of the reader: they have the values that
were sent for the same id and type, or else their defaults. -/
inductive Reads (X Y : Schema) : Ty → Val → Val → Prop
  | value (t : Ty) (v : Val) : t.hashable = true → Reads X Y t v v
  | set (e : Ty) (vs : List Val) : Reads X Y (.set e) (.set vs) (.set vs)
  | list (e : Ty) (vs us : List Val) : us.length = vs.length → (∀ (i : Nat) v u, vs[i]? = some v → us[i]? = some u → Reads X Y e v u) →
    Reads X Y (.list e) (.list vs) (.list us)
  | map (k t : Ty) (kvs kus : List (Val × Val)) : kus.map (·.1) = kvs.map (·.1) →
    (∀ (i : Nat) k v k' u, kvs[i]? = some (k, v) → kus[i]? = some (k', u) → Reads X Y t v u) → Reads X Y (.map k t) (.map kvs) (.map kus)
  | struct (sid : Nat) (as bs : List (Option Val)) : bs.length = (Y sid).length →
    (∀ (i : Nat) g f v, (Y sid)[i]? = some g → SetTo (X sid) as f v → f.fid = g.fid → f.ty = g.ty → ∃ u, bs[i]? = some (some u)) →
    (∀ (i : Nat) g f v u, (Y sid)[i]? = some g → SetTo (X sid) as f v → f.fid = g.fid → f.ty = g.ty → bs[i]? = some (some u) → Reads X Y g.ty v u) →
    (∀ (i : Nat) g, (Y sid)[i]? = some g → (∀ f v, SetTo (X sid) as f v → ¬ (f.fid = g.fid ∧ f.ty = g.ty)) → bs[i]? = some g.dflt) →
    Reads X Y (.struct sid) (.struct as) (.struct bs)

/-- Two versions of a function, `c` of the client with schema `X`, `s` of the server with schema `Y`. -/
structure Versions (X Y : Schema) (c s : Fn) : Prop where
  name : c.name = s.name
  args : c.argsId = s.argsId
  result : c.resultId = s.resultId
  returns : c.returns = s.returns
  oneway : c.oneway = s.oneway
  /-- A result or an exception keeps its type. -/
  types : ∀ f ∈ Y s.resultId, ∀ g ∈ X s.resultId, f.fid = g.fid → f.ty = g.ty
  /-- An exception that both know is sent with an id that the client knows. -/
  ids : ∀ sid f, sid ∈ c.throws → DeclaredAs Y s sid f → ∃ g ∈ X s.resultId, g.fid = f.fid
  /-- The result is one for both. -/
  success : c.returns = true → ∃ f ∈ Y s.resultId, f.fid = 0

/-- What the caller of a two-way function is told about what the handler of a peer with another version did. -/
inductive ToldAcross (X Y : Schema) (c s : Fn) : Outcome → Result → Prop
  | value (f : Field) (v u : Val) : s.returns = true → f ∈ Y s.resultId → f.fid = 0 → Reads Y X f.ty v u → ToldAcross X Y c s (.returned (some v)) (.returned (some u))
  | void (v : Option Val) : s.returns = false → ToldAcross X Y c s (.returned v) (.returned none)
  | missing : s.returns = true → ToldAcross X Y c s (.returned none) (.application (missingResult c.name))
  /-- an exception that both know -/
  | known (sid : Nat) (as bs : List (Option Val)) : sid ∈ s.throws → sid ∈ c.throws → Reads Y X (.struct sid) (.struct as) (.struct bs) →
    ToldAcross X Y c s (.declared sid as) (.declared sid bs)
  /-- an exception that the client does not know, from a function with a result: the result is missing -/
  | unknown (sid : Nat) (as : List (Option Val)) : sid ∈ s.throws → sid ∉ c.throws → s.returns = true →
    ToldAcross X Y c s (.declared sid as) (.application (missingResult c.name))
  /-- an exception that the client does not know, from a function without a result: **the call seems to have succeeded** -/
  | swallowed (sid : Nat) (as : List (Option Val)) : sid ∈ s.throws → sid ∉ c.throws → s.returns = false → ToldAcross X Y c s (.declared sid as) (.returned none)
  | undeclared (sid : Nat) (as : List (Option Val)) : sid ∉ s.throws → ToldAcross X Y c s (.declared sid as) (.application internalError)
  | application (x : AppExc) : ToldAcross X Y c s (.application x) (.application ⟨some (x.type.getD 0), x.message⟩)
  | other (n : Nat) : ToldAcross X Y c s (.other n) (.application internalError)

end Thrift.Spec
