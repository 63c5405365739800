import Verif.Model.Defaults
/-
Specification for default values of struct members.
-/

namespace Thrift.Spec.Defaults
open Thrift.Defaults

mutual
/-- The object at `r` shows the literal: a struct shows, for every member, the value given for it, or else the member's default, or
else `None`. -/
inductive Shows (structs : List Struct) (h : Heap) : Ref → Lit → Prop
  | atom {r : Ref} {a : Atom} : h[r]? = some (.atom a) → Shows structs h r (.atom a)
  | set {r : Ref} {imm : Bool} {as : List Atom} : h[r]? = some (.set imm as) → Shows structs h r (.set imm as)
  | list {r : Ref} {imm : Bool} {rs : List Ref} {ls : List Lit} : h[r]? = some (.list imm rs) → ShowsAll structs h rs ls →
      Shows structs h r (.list imm ls)
  | map {r : Ref} {imm : Bool} {ks : List Atom} {rs : List Ref} {ls : List Lit} : h[r]? = some (.map imm (ks.zip rs)) →
      ShowsAll structs h rs ls → Shows structs h r (.map imm ks ls)
  | struct {r : Ref} {c : Nat} {ns : List PyStr} {ls : List Lit} {s : Struct} {rs : List Ref} : structs[c]? = some s →
      h[r]? = some (.inst c ((s.members.map Member.param).zip rs)) →
      ShowsAll structs h rs (s.members.map fun m => ((ns.zip ls).lookup m.param).getD m.lit) →
      Shows structs h r (.struct c ns ls)

/-- One after the other -/
inductive ShowsAll (structs : List Struct) (h : Heap) : List Ref → List Lit → Prop
  | nil : ShowsAll structs h [] []
  | cons {r : Ref} {l : Lit} {rs : List Ref} {ls : List Lit} : Shows structs h r l → ShowsAll structs h rs ls →
      ShowsAll structs h (r :: rs) (l :: ls)
end

/-- `__init__` of the class works: no member of a compound type has a default, or the specs of the module are there and no key is negative. -/
def Constructible (s : Struct) (done : Bool) : Prop :=
  ∀ m ∈ s.members, (m.compound && m.dflt.isSome) = true → done = true ∧ ∀ m' ∈ s.members, 0 ≤ m'.key

mutual
/-- The literal can be evaluated: every struct in it, at any depth, is of a class that is there and works, and is given only values for
parameters it has. `env` has the classes that are there, and whether they have their `thrift_spec`. -/
inductive Usable (env : List (Struct × Bool)) : Lit → Prop
  | atom (a : Atom) : Usable env (.atom a)
  | set (imm : Bool) (as : List Atom) : Usable env (.set imm as)
  | list {imm : Bool} {ls : List Lit} : UsableAll env ls → Usable env (.list imm ls)
  | map {imm : Bool} {ks : List Atom} {ls : List Lit} : UsableAll env ls → Usable env (.map imm ks ls)
  | struct {c : Nat} {ns : List PyStr} {ls : List Lit} {s : Struct} {done : Bool} : env[c]? = some (s, done) → Constructible s done →
      (∀ p ∈ ns.zip ls, p.1 ∈ s.members.map Member.param) → UsableAll env ls → Usable env (.struct c ns ls)

inductive UsableAll (env : List (Struct × Bool)) : List Lit → Prop
  | nil : UsableAll env []
  | cons {l : Lit} {ls : List Lit} : Usable env l → UsableAll env ls → UsableAll env (l :: ls)
end

/-- The module can be imported when the classes `before` have been: every default can be evaluated when its class is defined, at which
time the earlier classes of the module have no `thrift_spec` yet. -/
def Importable (before : List Struct) (m : List Struct) : Prop :=
  ∀ (a : List Struct) (s : Struct) (b : List Struct), m = a ++ s :: b →
    (s.members.map Member.param).Nodup ∧
    UsableAll (before.map (·, true) ++ a.map (·, false)) (s.members.map Member.lit)

/-- All modules can be imported, in this order. -/
def AllImportable (ms : List (List Struct)) : Prop :=
  ∀ (a : List (List Struct)) (m : List Struct) (b : List (List Struct)), ms = a ++ m :: b → Importable a.flatten m

/-- What the compiler guarantees: keys are distinct (`t_struct::append`). -/
def Distinct (ms : List (List Struct)) : Prop := ∀ m ∈ ms, ∀ s ∈ m, (s.members.map Member.key).Nodup

mutual
/-- Everything in the literal is immutable, at any depth. -/
inductive Frozen (structs : List Struct) : Lit → Prop
  | atom (a : Atom) : Frozen structs (.atom a)
  | set (as : List Atom) : Frozen structs (.set true as)
  | list {ls : List Lit} : FrozenAll structs ls → Frozen structs (.list true ls)
  | map {ks : List Atom} {ls : List Lit} : FrozenAll structs ls → Frozen structs (.map true ks ls)
  | struct {c : Nat} {ns : List PyStr} {ls : List Lit} {s : Struct} : structs[c]? = some s → s.immutable = true →
      FrozenAll structs (s.members.map fun m => ((ns.zip ls).lookup m.param).getD m.lit) → Frozen structs (.struct c ns ls)

inductive FrozenAll (structs : List Struct) : List Lit → Prop
  | nil : FrozenAll structs []
  | cons {l : Lit} {ls : List Lit} : Frozen structs l → FrozenAll structs ls → FrozenAll structs (l :: ls)
end

/-- The operation changes no object below `n`, that is, none of those that existed when the heap had this size. -/
def Spares (n : Nat) : Op → Prop
  | .new .. => True
  | .read .. => True
  | .setList r _ => n ≤ r
  | .setSet r _ => n ≤ r
  | .setMap r _ => n ≤ r
  | .setAttr r _ _ => n ≤ r

/-- The object the attribute refers to -/
def attr (h : Heap) (x : Ref) (name : PyStr) : Option Ref :=
  match h[x]? with
  | some (.inst _ as) => as.lookup name
  | _ => none

end Thrift.Spec.Defaults
