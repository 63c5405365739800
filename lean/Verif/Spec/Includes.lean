import Verif.Model.Includes
/-
What `include` is to mean: a name without a dot is a declaration of the file itself, `base.name` is the declaration of `name` in the included file `base.thrift`, and typedefs stand for what
they were declared as, in their own file.
-/

namespace Thrift.Spec.Includes
open Thrift.Includes Rpc
open Audit (Written Base)

/-- `f` includes `g`. -/
def Includes (fs : Files) (f g : Path) : Prop := ∃ F, fs.lookup f = some F ∧ g ∈ F.includes

/-- `g` is `f`, or it is included by `f`, directly or not. -/
inductive Reaches (fs : Files) : Path → Path → Prop
  | refl (f : Path) : Reaches fs f f
  | step (f g h : Path) : Includes fs f g → Reaches fs g h → Reaches fs f h

/-- A file that includes itself, directly or not -/
def Circular (fs : Files) (f : Path) : Prop := ∃ g, Includes fs f g ∧ Reaches fs g f

/-- The file declares the type. -/
def Declares (fs : Files) (id : Id) (b : Body) : Prop := ∃ F, fs.lookup id.file = some F ∧ .type id.name b ∈ F.decls

/-- The name in the file means the declaration. -/
inductive Names (fs : Files) : Path → PyStr → Id → Prop
  | own (f : Path) (n : PyStr) (b : Body) : Declares fs ⟨f, n⟩ b → Names fs f n ⟨f, n⟩
  | included (f i : Path) (n : PyStr) (b : Body) : Includes fs f i → Declares fs ⟨i, n⟩ b → Names fs f (programName i ++ pyStr "." ++ n) ⟨i, n⟩

/-- What a type in a file stands for -/
inductive Denotes (fs : Files) : Path → Written → Mean → Prop
  | base (f : Path) (b : Base) : Denotes fs f (.base b) (.base b)
  | list (f : Path) (e : Written) (m : Mean) : Denotes fs f e m → Denotes fs f (.list e) (.list m)
  | set (f : Path) (e : Written) (m : Mean) : Denotes fs f e m → Denotes fs f (.set e) (.set m)
  | map (f : Path) (a b : Written) (m n : Mean) : Denotes fs f a m → Denotes fs f b n → Denotes fs f (.map a b) (.map m n)
  | enum (f : Path) (n : PyStr) (id : Id) : Names fs f n id → Declares fs id .enum → Denotes fs f (.named n) (.enum id)
  | struct (f : Path) (n : PyStr) (id : Id) (ws : List Written) : Names fs f n id → Declares fs id (.struct ws) → Denotes fs f (.named n) (.struct id)
  | typedef (f : Path) (n : PyStr) (id : Id) (w : Written) (m : Mean) :
    Names fs f n id → Declares fs id (.typedef w) → Denotes fs id.file w m → Denotes fs f (.named n) m

/-- No file includes two files of the same base name. -/
def Clear (fs : Files) : Prop := ∀ f i j, Includes fs f i → Includes fs f j → programName i = programName j → i = j

/-! ### Services -/

def DeclaresService (fs : Files) (id : Id) (ext : Option PyStr) (fns : List FnDecl) : Prop := ∃ F, fs.lookup id.file = some F ∧ .service id.name ext fns ∈ F.decls

/-- The name in the file means the service. -/
inductive NamesService (fs : Files) : Path → PyStr → Id → Prop
  | own (f : Path) (n : PyStr) (e : Option PyStr) (fns : List FnDecl) : DeclaresService fs ⟨f, n⟩ e fns → NamesService fs f n ⟨f, n⟩
  | included (f i : Path) (n : PyStr) (e : Option PyStr) (fns : List FnDecl) :
    Includes fs f i → DeclaresService fs ⟨i, n⟩ e fns → NamesService fs f (programName i ++ pyStr "." ++ n) ⟨i, n⟩

/-- The service offers the function that is declared by the service `d`: itself, or one that it extends, directly or not. -/
inductive Offers (fs : Files) : Id → Id → PyStr → Prop
  | own (id : Id) (e : Option PyStr) (fns : List FnDecl) (f : FnDecl) : DeclaresService fs id e fns → f ∈ fns → Offers fs id id f.1
  | inherits (id base d : Id) (e : PyStr) (fns : List FnDecl) (f : PyStr) :
    DeclaresService fs id (some e) fns → NamesService fs id.file e base → Offers fs base d f → Offers fs id d f

/-! ### Python -/

/-- The files that are generated for a program, without `.py` -/
def leaves (p : TProgram) : List PyStr := [pyStr "ttypes", pyStr "constants"] ++ p.own.services.map (·.1)

/-- The programs have modules of their own: no two have the same namespace, no namespace continues a generated file, and no service is called `ttypes` or `constants`. -/
structure Apart (ps : List TProgram) : Prop where
  modules : ∀ p ∈ ps, ∀ q ∈ ps, p.module = q.module → p.file = q.file
  nested : ∀ p ∈ ps, ∀ q ∈ ps, ∀ l ∈ leaves p, ¬ (p.module ++ [l]) <+: q.module
  services : ∀ p ∈ ps, ∀ s ∈ p.own.services, s.1 ≠ pyStr "ttypes" ∧ s.1 ≠ pyStr "constants"

/-- The names that a service module has for itself -/
def serviceNames (functions : List PyStr) : List PyStr :=
  ["all_structs", "Iface", "Client", "Processor", "TTransport", "TProcessor"].map pyStr ++ functions.flatMap fun f => [f ++ pyStr "_args", f ++ pyStr "_result"]

/-- The names that generated modules import from the library -/
def imported : List PyStr := ["sys", "logging", "UUID", "fix_spec", "TProtocolException", "TApplicationException", "TException", "TFrozenDict", "TMessageType", "TType"].map pyStr

/-- `from … import *` leaves out names like this one. -/
def Underscore (n : PyStr) : Prop := n.head? = some 95

instance (n : PyStr) : Decidable (Underscore n) := inferInstanceAs (Decidable (_ = _))

/-- The first part of the module name of a program: what `import` binds -/
def headOf (p : TProgram) : PyStr := p.module.headD []

/-- The modules that were imported: the module itself, and what imported modules import -/
structure Imported (w : World) (m : List PyStr) (loaded : List (List PyStr)) : Prop where
  self : m ∈ loaded
  closed : ∀ x ∈ loaded, ∀ y, w.get x = some y → ∀ z ∈ y.imports, z ∈ loaded

/-- The declaration of a namespace that counts: the last for the language -/
def LastFor (ns : List (PyStr × PyStr)) (lang x : PyStr) : Prop := ∃ a b, ns = a ++ (lang, x) :: b ∧ ∀ y ∈ b, y.1 ≠ lang

/-- The namespace of a file in a language: its own, else that for all languages, else none -/
def NamespaceOf (ns : List (PyStr × PyStr)) (lang x : PyStr) : Prop :=
  LastFor ns lang x ∨ lang ∉ ns.map (·.1) ∧ (LastFor ns (pyStr "*") x ∨ pyStr "*" ∉ ns.map (·.1) ∧ x = [])

/-- In every language for which one of the two declares a namespace, they are in the same. -/
def SameNamespaces (a b : List (PyStr × PyStr)) : Prop := ∀ lang ∈ a.map (·.1) ++ b.map (·.1), ∃ x, NamespaceOf a lang x ∧ NamespaceOf b lang x

/-- The name of a declaration -/
def declared : Decl → PyStr
  | .type n _ => n
  | .service n _ _ => n

/-- The file declares a name twice, or one that a file which it includes also declares, although nothing tells the two files apart in any language. -/
def Clash (fs : Files) (f : Path) : Prop :=
  ∃ F, fs.lookup f = some F ∧ (¬ (F.decls.map declared).Nodup ∨
    ∃ i ∈ F.includes, ∃ G, fs.lookup i = some G ∧ SameNamespaces G.namespaces F.namespaces ∧ ∃ n, n ∈ F.decls.map declared ∧ n ∈ G.decls.map declared)

end Thrift.Spec.Includes
