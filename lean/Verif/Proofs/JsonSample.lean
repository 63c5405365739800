import Verif.Proofs.JsonGrammar
import Verif.Spec.Sample
/-
A way to write doubles that is faithful, and a value, used in the examples beside the theorems about
`TJSONProtocol`.
-/

namespace Thrift.Json.Sample
open Spec Spec.Json

/-- The bits of a finite double as a number; the others as Python writes them. -/
def fmt (x : UInt64) : Bytes :=
  if Finite x then intDigits x.toNat
  else if x = 0x7FF0000000000000 then ascii "inf"
  else if x = 0xFFF0000000000000 then ascii "-inf"
  else ascii "nan"

def parse (s : PyStr) : Option UInt64 :=
  if s = toPy (ascii "inf") then some 0x7FF0000000000000
  else if s = toPy (ascii "-inf") then some 0xFFF0000000000000
  else if s = toPy (ascii "nan") then some 0x7FF8000000000000
  else (pyInt s).map fun i : Int => UInt64.ofNat i.toNat

def py : Floats := { fmt17 := fmt, fmt := fmt, parse := parse }

theorem pyInt_special : pyInt (toPy (ascii "inf")) = none ∧ pyInt (toPy (ascii "-inf")) = none ∧
    pyInt (toPy (ascii "nan")) = none := by decide +kernel

theorem py_faithful : Faithful py.fmt17 py.parse := by
  refine ⟨fun x hx => ?_, fun x hx => ?_⟩
  · change Rfc8259.Number (fmt x)
    unfold fmt
    rw [if_pos hx]
    exact number_intDigits _
  · change parse (toPy (fmt x)) = some x
    unfold fmt
    rw [if_pos hx]
    have h := pyInt_intDigits (x.toNat : Int)
    obtain ⟨h1, h2, h3⟩ := pyInt_special
    unfold parse
    rw [if_neg (fun e => by rw [e, h1] at h; cases h), if_neg (fun e => by rw [e, h2] at h; cases h),
      if_neg (fun e => by rw [e, h3] at h; cases h), h]
    simp

/-- `struct 0`: texts and byte strings by doubles, and a set of UUIDs with itself as an optional field. -/
def sch : Schema
  | 0 => [
    { fid := -4, ty := .struct 0 },
    { fid := 1, ty := .map .double (.list .string) },
    { fid := 2, ty := .map .i64 .binary },
    { fid := 3, ty := .set .uuid },
    { fid := 5, ty := .double },
    { fid := 6, ty := .map .string .bool }]
  | _ => []

/-- The older version knows fields 2 and 5. -/
def older : Schema
  | 0 => [
    { fid := 2, ty := .map .i64 .binary },
    { fid := 5, ty := .double }]
  | _ => []

def inner : Val := .struct [none, none, none, none, some (.double 0), some (.map [(.str [0x22, 0x5C], .bool true)])]

def value : Val := .struct [
  some inner,
  some (.map [(.double 0x3FF8000000000000, .list [.str [0x68, 0xE9, 0x22, 0x1F600, 0x0A], .str []]),
    (.double 0x8000000000000000, .list [])]),
  some (.map [(.int (-5), .bin [0x00, 0xFF, 0x10, 0x20]), (.int 77, .bin [])]),
  some (.set [.uuid [0, 17, 34, 51, 68, 85, 102, 119, 136, 153, 170, 187, 204, 221, 238, 255]]),
  some (.double 0x3FF0000000000000), none]

def valueOlder : Val := .struct [
  some (.map [(.int (-5), .bin [0x00, 0xFF, 0x10, 0x20]), (.int 77, .bin [])]), some (.double 0x3FF0000000000000)]

theorem sch_ok : SchemaOK .gen sch := by
  intro sid
  match sid with
  | 0 => exact ⟨by unfold FieldsOK; decide, fun h => by cases h⟩
  | _ + 1 => simp [sch, FieldsOK]

theorem older_ok : SchemaOK .gen older := by
  intro sid
  match sid with
  | 0 => exact ⟨by unfold FieldsOK; decide, fun h => by cases h⟩
  | _ + 1 => simp [older, FieldsOK]

theorem value_wt : WT sch (.struct 0) value := by
  simp only [value, inner, sch, WT, WTs, WTf, WTp]; decide

theorem value_noDup : NoDuplicates value := by
  simp only [value, inner, NoDuplicates, NoDuplicatess, NoDuplicatesf, NoDuplicatesp]; decide

theorem value_noHidden : NoHiddenDefault sch (.struct 0) value := by
  simp [value, inner, sch, NoHiddenDefault, NoHiddenDefaults, NoHiddenDefaultf, NoHiddenDefaultp]

theorem value_finite : Doubles Finite value := by
  simp only [value, inner, Doubles, Doubless, Doublesf, Doublesp]; decide

theorem value_clean : Strings Clean value := by
  simp only [value, inner, Strings, Stringss, Stringsf, Stringsp, Clean]; decide

theorem value_depth : structDepth value = 2 := by decide
theorem value_nesting : nesting value ≤ 64 := by decide
theorem value_size : size value ≤ 200 := by decide

instance (limit : Option Int) (n : Nat) : Decidable (Within limit n) :=
  match limit with
  | none => .isTrue fun _ h => by cases h
  | some l => if h : (n : Int) ≤ l then .isTrue fun _ e => by injection e with e; omega
    else .isFalse fun h' => h (h' l rfl)

mutual
def decTexts (p : Nat → Prop) [DecidablePred p] : (x : J) → Decidable (Texts p x)
  | .num _ => by unfold Texts; exact inferInstance
  | .str _ => by unfold Texts; exact inferInstance
  | .arr xs => by unfold Texts; exact decItems p xs
  | .obj xs => by unfold Texts; exact decMembers p xs
def decItems (p : Nat → Prop) [DecidablePred p] : (xs : List J) → Decidable (TextsItems p xs)
  | [] => .isTrue trivial
  | x :: xs => @instDecidableAnd _ _ (decTexts p x) (decItems p xs)
def decMembers (p : Nat → Prop) [DecidablePred p] : (xs : List (Bytes × J)) → Decidable (TextsMembers p xs)
  | [] => .isTrue trivial
  | (_, x) :: xs => @instDecidableAnd _ _ inferInstance (@instDecidableAnd _ _ (decTexts p x) (decMembers p xs))
end

instance (p : Nat → Prop) [DecidablePred p] (x : J) : Decidable (Texts p x) := decTexts p x

theorem value_texts : Texts (fun n => Within (some 36) n ∧ n < 200) (tree py.fmt17 sch (.struct 0) value) := by
  decide +kernel

theorem message_texts : Texts (fun n => Within (some 36) n ∧ n < 200)
    (message [0x70, 0x69, 0x6E, 0x67] 1 (-3) (tree py.fmt17 sch (.struct 0) value)) := by
  unfold message
  simp only [Texts, TextsItems]
  exact ⟨by decide +kernel, by decide +kernel, by decide +kernel, by decide +kernel, value_texts, trivial⟩

theorem compatible : Compatible sch older := by
  intro sid
  match sid with
  | 0 => decide
  | _ + 1 => simp [sch]

theorem unknowns : Unknowns (fun u => nesting u ≤ 64) sch older (.struct 0) value := by
  simp [value, inner, sch, older, Unknowns, Unknownsf, Unknownsp, Known,
    Ty.ttype, nesting, nestings, nestingp, nestingf]

theorem project_eq : project sch older (.struct 0) value = valueOlder := by
  simp [value, inner, sch, older, project, projects, projectp, sentFields, attrOf, Ty.ttype, TType.DOUBLE,
    TType.MAP, TType.SET, TType.STRUCT, valueOlder]
  rfl

end Thrift.Json.Sample
