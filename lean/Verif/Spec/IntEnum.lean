import Verif.Model.IntEnum
/-
Values of the declared types, where enums are classes.
-/

namespace Thrift.Spec.IntEnum
open Thrift.IntEnum

mutual
/-- A value of its type: enums are members of their class. -/
def WT (S : Schema) : Ty → V → Prop
  | .base, .base _ => True
  | .enum e, .member e' i => e' = e ∧ i ∈ S.enums e
  | .alias e, .member e' i => e' = e ∧ i ∈ S.enums e
  | .list t, .list xs => WTs S t xs
  | .map k v, .map ps => WTp S k v ps
  | .struct s, .struct s' fs => s' = s ∧ WTf S (S.structs s).fields fs
  | _, _ => False

def WTs (S : Schema) (t : Ty) : List V → Prop
  | [] => True
  | x :: xs => WT S t x ∧ WTs S t xs

def WTp (S : Schema) (k v : Ty) : List (V × V) → Prop
  | [] => True
  | (x, y) :: ps => WT S k x ∧ WT S v y ∧ WTp S k v ps

/-- Members may be `None`. -/
def WTf (S : Schema) : List Ty → List V → Prop
  | [], [] => True
  | t :: ts, v :: vs => (v = .none ∨ WT S t v) ∧ WTf S ts vs
  | _, _ => False
end

mutual
/-- There are values of enums only in members of mutable structs, whose types are not typedefs. -/
def Plain (S : Schema) : Ty → V → Prop
  | .enum _, _ => False
  | .alias _, _ => False
  | .list t, .list xs => PlainAll S t xs
  | .map k v, .map ps => PlainPairs S k v ps
  | .struct s, .struct _ fs => PlainFields S (S.structs s).immutable (S.structs s).fields fs
  | _, _ => True

def PlainAll (S : Schema) (t : Ty) : List V → Prop
  | [] => True
  | x :: xs => Plain S t x ∧ PlainAll S t xs

def PlainPairs (S : Schema) (k v : Ty) : List (V × V) → Prop
  | [] => True
  | (x, y) :: ps => Plain S k x ∧ Plain S v y ∧ PlainPairs S k v ps

def PlainFields (S : Schema) (immutable : Bool) : List Ty → List V → Prop
  | t :: ts, v :: vs =>
    (v = .none ∨ ((∃ e, t = .enum e) ∧ immutable = false) ∨ Plain S t v) ∧ PlainFields S immutable ts vs
  | _, _ => True
end

mutual
/-- Transmitted data of the type, in which enums may have any number; `ok e i` holds for all of them. -/
def Numbers (S : Schema) (ok : Name → Int → Prop) : Ty → Wire → Prop
  | .base, .base _ => True
  | .enum e, .int i => ok e i
  | .alias e, .int i => ok e i
  | .list t, .list xs => NumbersAll S ok t xs
  | .map k v, .map ps => NumbersPairs S ok k v ps
  | .struct s, .struct fs => NumbersFields S ok (S.structs s).fields fs
  | _, _ => False

def NumbersAll (S : Schema) (ok : Name → Int → Prop) (t : Ty) : List Wire → Prop
  | [] => True
  | x :: xs => Numbers S ok t x ∧ NumbersAll S ok t xs

def NumbersPairs (S : Schema) (ok : Name → Int → Prop) (k v : Ty) : List (Wire × Wire) → Prop
  | [] => True
  | (x, y) :: ps => Numbers S ok k x ∧ Numbers S ok v y ∧ NumbersPairs S ok k v ps

def NumbersFields (S : Schema) (ok : Name → Int → Prop) : List Ty → List (Option Wire) → Prop
  | _ :: ts, none :: ws => NumbersFields S ok ts ws
  | t :: ts, some w :: ws => Numbers S ok t w ∧ NumbersFields S ok ts ws
  | [], [] => True
  | _, _ => False
end

end Thrift.Spec.IntEnum
