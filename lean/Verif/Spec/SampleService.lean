import Verif.Spec.Rpc
/-
A service used in the examples beside the theorems:

  exception Missing { 1: string why }
  service Store {
    string get(1: i32 key, 2: string hint) throws (1: Missing m)
    void clear()
    oneway void log(1: i32 key, 2: string hint)
  }
-/

namespace Thrift.Spec.SampleService
open Thrift Thrift.Spec Thrift.Rpc

def sch : Schema
  | 1 => [{ fid := 1, ty := .i32 }, { fid := 2, ty := .string }]
  | 2 => [{ fid := 0, ty := .string }, { fid := 1, ty := .struct 3 }]
  | 3 => [{ fid := 1, ty := .string }]
  | _ => []

def get : Fn := { name := pyStr "get", argsId := 1, resultId := 2, returns := true, throws := [3] }
def clear : Fn := { name := pyStr "clear", argsId := 4, resultId := 5 }
def log : Fn := { name := pyStr "log", argsId := 1, oneway := true }
def fns : List Fn := [get, clear, log]

/-- Counts the calls; `get` answers 7 and raises otherwise. -/
def handler : Handler Nat := fun fn args n =>
  if fn.name = pyStr "get" then
    match args with
    | some (.int 7) :: _ => (.returned (some (.str (pyStr "seven"))), n + 1)
    | _ => (.declared 3 [some (.str (pyStr "no such key"))], n + 1)
  else (.returned none, n + 1)

theorem sch_ok (mode : Mode) : SchemaOK mode sch := by
  intro sid
  match sid with
  | 1 | 2 | 3 => exact ⟨by unfold FieldsOK; decide, fun _ => by decide⟩
  | 0 => simp [sch, FieldsOK]
  | n + 4 => simp [sch, FieldsOK]

theorem get_ok : ResultOK sch get where
  shape := ⟨[{ fid := 1, ty := .struct 3 }], rfl, .inl ⟨rfl, .string, rfl⟩⟩
  optional := by simp [get, sch]
  ids := by simp [get]
  sorted := by simp [get, sch]

theorem clear_ok : ResultOK sch clear where
  shape := ⟨[], rfl, .inr ⟨rfl, rfl⟩⟩
  optional := by simp [clear, sch]
  ids := by simp [clear, sch]
  sorted := by simp [clear, sch]

theorem serves : Serves fns (pyStr "get") get ∧ Serves fns (pyStr "clear") clear ∧
    Serves fns (pyStr "log") log :=
  ⟨⟨rfl, [], [clear, log], rfl, by decide⟩, ⟨rfl, [get], [log], rfl, by decide⟩,
    ⟨rfl, [get, clear], [], rfl, by decide⟩⟩

def args : List (Option Val) := [some (.int 7), some (.str [233])]

theorem args_sendable (mode : Mode) : Sendable (some 20) (some 20) mode sch 1 (.struct args) 100 where
  typed := by simp only [args, sch, WT, WTf]; decide
  hidden := by simp [args, sch, NoHiddenDefault, NoHiddenDefaultf]
  duplicates := by simp [args, NoDuplicates, NoDuplicatesf]
  limits := by simp [args, WithinLimits, Sizes, Sizesf, Within, utf8Len, utf8Width]
  depth := fun _ => by simp [args, structDepth, structDepthf]
  fuel := by simp [args, size, sizef]

/-- The struct of the answer to `get(7)`. -/
def seven : Val := .struct (onlyField (sch get.resultId) 0 (.str (pyStr "seven")))

theorem seven_sendable (mode : Mode) : Sendable (some 20) (some 20) mode sch 2 seven 100 where
  typed := by
    show WTf sch (sch 2) [some (.str (pyStr "seven")), none]
    simp only [sch, WTf, WT]
    decide
  hidden := by simp [seven, onlyField, get, sch, NoHiddenDefault, NoHiddenDefaultf]
  duplicates := by simp [seven, onlyField, get, sch, NoDuplicates, NoDuplicatesf]
  limits := by simp [seven, onlyField, get, sch, WithinLimits, Sizes, Sizesf, Within, utf8Len, utf8Width, pyStr]
  depth := fun _ => by simp [seven, onlyField, get, sch, structDepth, structDepthf]
  fuel := by simp [seven, onlyField, get, sch, size, sizef]

/-- The answer to other keys. -/
def missing : List (Option Val) := [some (.str (pyStr "no such key"))]

theorem declared : DeclaredAs sch get 3 { fid := 1, ty := .struct 3 } :=
  ⟨[{ fid := 0, ty := .string }], [], rfl, by decide, rfl, by simp⟩

theorem header_ok (type : Nat) (ht : IsMessageType type) : HeaderOK (some 20) get.name type 0 where
  text := by unfold get; decide
  limit := by intro l h; cases h; decide
  kind := ht
  range := by decide

end Thrift.Spec.SampleService
