import Verif.Spec.BinaryFormat
/-
A schema, an older version of it and a value, used in the examples beside the theorems.
-/

namespace Thrift.Spec.Sample
open Thrift Thrift.Spec

/-- struct 0: a recursive tree node; struct 1: unused fields of every scalar kind. -/
def sch : Schema
  | 0 => [
    { fid := 1, ty := .i32, required := true },
    { fid := 2, ty := .bool },
    { fid := 3, ty := .string, dflt := some (.str [0x78]) },
    { fid := 20, ty := .list (.struct 0) },
    { fid := 21, ty := .map .string .binary },
    { fid := 300, ty := .set .i64 }]
  | _ => []

/-- The older version knows fields 1 and 20 and has field 2 with another wire type. -/
def older : Schema
  | 0 => [
    { fid := 1, ty := .i32 },
    { fid := 2, ty := .double, dflt := some (.double 0) },
    { fid := 20, ty := .list (.struct 0) }]
  | _ => []

def leaf : Val := .struct [some (.int (-7)), some (.bool true), some (.str []), none, none, none]

def value : Val := .struct [some (.int 5), some (.bool false), some (.str [0x68, 0xE9, 0xAC]),
  some (.list [leaf, leaf]), some (.map [(.str [0x6B], .bin [0x61, 0x62, 0x63, 0x64, 0x65])]),
  some (.set [.int 0, .int (-9223372036854775808)])]

def leafOlder : Val := .struct [some (.int (-7)), some (.double 0), none]
def valueOlder : Val := .struct [some (.int 5), some (.double 0), some (.list [leafOlder, leafOlder])]

theorem sch_ok (mode : Mode) : SchemaOK mode sch := by
  intro sid
  match sid with
  | 0 => exact ⟨by unfold FieldsOK; decide, fun _ => by decide⟩
  | _ + 1 => simp [sch, FieldsOK]

theorem older_ok (mode : Mode) : SchemaOK mode older := by
  intro sid
  match sid with
  | 0 => exact ⟨by unfold FieldsOK; decide, fun _ => by decide⟩
  | _ + 1 => simp [older, FieldsOK]

theorem value_wt : WT sch (.struct 0) value := by
  simp only [value, leaf, sch, WT, WTs, WTf, WTp]; decide

theorem value_noDup : NoDuplicates value := by
  simp only [value, leaf, NoDuplicates, NoDuplicatess, NoDuplicatesf, NoDuplicatesp]; decide

theorem value_noHidden : NoHiddenDefault sch (.struct 0) value := by
  simp [value, leaf, sch, NoHiddenDefault, NoHiddenDefaults, NoHiddenDefaultf, NoHiddenDefaultp]

theorem value_depth : structDepth value = 2 := by decide
theorem value_nesting : nesting value = 4 := by decide

theorem value_limits : WithinLimits (some 5) (some 2) value := by
  simp [value, leaf, WithinLimits, Sizes, Sizess, Sizesf, Sizesp, Within, utf8Len, utf8Width]

theorem value_not_limits : ¬ WithinLimits (some 4) (some 2) value := by
  simp [value, leaf, WithinLimits, Sizes, Sizess, Sizesf, Sizesp, Within, utf8Len, utf8Width]

theorem value_text : BinariesAreText IsUtf8 value := by
  simp only [value, leaf, BinariesAreText, BinariesAreTexts, BinariesAreTextf, BinariesAreTextp,
    and_true, true_and]
  exact ⟨[0x61, 0x62, 0x63, 0x64, 0x65], by decide, by decide⟩

theorem compatible : Compatible sch older := by
  intro sid
  match sid with
  | 0 => decide
  | _ + 1 => simp [sch]

theorem unknowns : Unknowns (fun u => nesting u ≤ 64 ∧ BinariesAreText IsUtf8 u) sch older
    (.struct 0) value := by
  have h : IsUtf8 [0x61, 0x62, 0x63, 0x64, 0x65] :=
    ⟨[0x61, 0x62, 0x63, 0x64, 0x65], by decide, by decide⟩
  simp [value, leaf, sch, older, Unknowns, Unknownss, Unknownsf, Known,
    Ty.ttype, nesting, nestings, nestingp, h,
    BinariesAreText, BinariesAreTexts, BinariesAreTextp]

theorem project_eq : project sch older (.struct 0) value = valueOlder := by
  simp [value, leaf, sch, older, project, projects, sentFields, attrOf, Ty.ttype, TType.I32,
    TType.BOOL, TType.DOUBLE, TType.LIST, TType.STRING, TType.MAP, TType.SET, valueOlder, leafOlder]

theorem value_length : (Spec.Binary.value sch (.struct 0) value).length = 117 := by
  decide

end Thrift.Spec.Sample
