import Verif.Proofs.FastWrite
import Verif.Props.Depth
/-
C48: the C extension writes what the Python protocols write.
-/

namespace Thrift.Fast
open Spec

/-- What a caller of a generated `write` sees of a Python protocol with a fresh transport: the bytes
written, or the exception. -/
def bytesWritten {σ : Type} (r : Except Exc Unit × σ × Bytes) : Except Exc Bytes :=
  match r with
  | (.ok (), _, out) => .ok out
  | (.error e, _, _) => .error e

theorem required_of_wt (sch : Schema) : (as : List (Option Val)) → (fs : List Field) →
    WTf sch fs as → requiredSet fs as = true := by
  intro as
  induction as with
  | nil => intro fs h; cases fs <;> simp only [WTf] at h <;> rfl
  | cons a as ih =>
    intro fs h
    cases fs with
    | nil => cases a <;> simp only [WTf] at h
    | cons f fs =>
      cases a with
      | none =>
        simp only [WTf] at h
        unfold requiredSet
        simp [h.1, ih fs h.2]
      | some v =>
        simp only [WTf] at h
        unfold requiredSet
        simp [ih fs h.2]

theorem accelerated_eq {σ : Type} [HasDepth σ] (ops : Wr σ) (init : σ) (sch : Schema) (sid : Nat)
    (v : Val) (hv : WT sch (.struct sid) v) :
    acceleratedWrite ops init sch sid v = encode ops init sch sid v := by
  cases v <;> simp only [WT] at hv
  unfold acceleratedWrite
  dsimp only
  rw [if_pos (required_of_wt sch _ _ hv)]

/-- C48, the bytes: for every schema without negative field ids and every well-typed struct, the
accelerated `write` returns the bytes of the documented format, for any nesting of at most 64 structs;
beyond that it raises `DEPTH_LIMIT`. -/
theorem fast_wire_format (sch : Schema) (sid : Nat) (v : Val) (hs : SchemaOK .dyn sch)
    (hv : WT sch (.struct sid) v) :
    acceleratedWrite binaryWr {} sch sid v
      = (if structDepth v ≤ 64 then .ok (Spec.Binary.value sch (.struct sid) v)
        else .error TProtocolException.DEPTH_LIMIT) ∧
    acceleratedWrite compactWr {} sch sid v
      = (if structDepth v ≤ 64 then .ok (Spec.Compact.value sch (.struct sid) v)
        else .error TProtocolException.DEPTH_LIMIT) := by
  have hb := toks_bounds sch (fun sid => (hs sid).1) v _ hv (within_none v)
  constructor
  · rw [accelerated_eq _ _ _ _ _ hv]
    have h := encode_ok sch (binaryWrLaws (sl := none) (cl := none)) hs v (.struct sid) {} () hv
      (Binary.lang_Ok hb) trivial (by decide)
    rw [encode_of_enc sch h rfl, Binary.enc_value _ _ sch v _ () hv]
  · rw [accelerated_eq _ _ _ _ _ hv]
    have hg := Compact.good_value none none sch v (.struct sid)
      ({ pos := .clear, lastFid := 0, structs := [], containers := [] } : Compact.Q) hv
      (.inr (.inr ⟨rfl, sid, rfl⟩))
    have h := encode_ok sch (compactWrLaws (sl := none) (cl := none)) hs v (.struct sid) {}
      ({ pos := .clear, lastFid := 0, structs := [], containers := [] } : Compact.Q) hv
      (hg.ok hb) ⟨rfl, rfl⟩ (by decide)
    rw [encode_of_enc sch h rfl, hg.enc]

/-- C48: the accelerated `write` and the generated Python code with the Python protocol have the same
outcome: the same bytes, or the same exception. -/
theorem fast_encoder_partial (sch : Schema) (sid : Nat) (v : Val) (hs : SchemaOK .dyn sch)
    (hv : WT sch (.struct sid) v) :
    acceleratedWrite binaryWr {} sch sid v
      = bytesWritten (writeVal Binary.wr sch .gen (.struct sid) v {} []) ∧
    acceleratedWrite compactWr {} sch sid v
      = bytesWritten (writeVal Compact.wr sch .gen (.struct sid) v {} []) := by
  have hg : SchemaOK .gen sch := fun sid => ⟨(hs sid).1, fun h => nomatch h⟩
  obtain ⟨f1, f2⟩ := fast_wire_format sch sid v hs hv
  obtain ⟨r1, r2⟩ := depth_write_refused sch (.struct sid) v [] hg hv
  rw [f1, f2]
  by_cases hd : structDepth v ≤ 64
  · rw [if_pos hd, if_pos hd]
    constructor
    · rw [Binary.binary_wire_format .gen sch _ v {} [] hg hv (fun _ => by
        show (0 : Int) + _ ≤ 64
        omega)]
      rfl
    · obtain ⟨s', e, -⟩ := Compact.compact_wire_format .gen sch (.struct sid) v {} [] hg hv
        (.inr (.inr ⟨rfl, sid, rfl⟩)) (fun _ => by
          show (0 : Int) + _ ≤ 64
          omega)
      rw [e]
      rfl
  · rw [if_neg hd, if_neg hd]
    constructor
    · obtain ⟨s', out', e⟩ := r1 {} (by decide) (by
        show 64 < (0 : Int) + _
        omega)
      rw [e]
      rfl
    · obtain ⟨s', out', e⟩ := r2 {} (.inr (.inr ⟨rfl, sid, rfl⟩)) (by decide) (by
        show 64 < (0 : Int) + _
        omega)
      rw [e]
      rfl

example : SchemaOK .dyn Sample.sch ∧ WT Sample.sch (.struct 0) Sample.value :=
  ⟨Sample.sch_ok .dyn, Sample.value_wt⟩

/-- The two encoders run, independently of the theorem: bool fields, a long header, a nested struct, an
empty map. -/
example :
    acceleratedWrite compactWr {} (fun _ => [{ fid := 1, ty := .bool }, { fid := 30, ty := .list .bool },
      { fid := 31, ty := .struct 0 }, { fid := 32, ty := .map .i32 .i32 }]) 0
      (.struct [some (.bool false), some (.list [.bool true, .bool false]),
        some (.struct [some (.bool true), none, none, none]), some (.map [])])
    = .ok [0x12, 0x09, 0x3C, 0x21, 0x01, 0x02, 0x1C, 0x11, 0x00, 0x1B, 0x00, 0x00] := by
  decide +kernel

/-! ## Where the two disagree -/

/-- A struct whose only field has no id in the IDL: the compiler assigns -1. -/
def implicitSch : Schema := fun _ => [{ fid := -1, ty := .i32 }]

/-- Not C48: with a negative field id the compiler emits an empty `thrift_spec`, and the accelerated
writer drops the fields without an error, where the Python code writes them. -/
theorem fast_drops_implicit_ids :
    (∀ sid, FieldsOK (implicitSch sid)) ∧ WT implicitSch (.struct 0) (.struct [some (.int 5)]) ∧
    acceleratedWrite binaryWr {} implicitSch 0 (.struct [some (.int 5)]) = .ok [0] ∧
    bytesWritten (writeVal Binary.wr implicitSch .gen (.struct 0) (.struct [some (.int 5)]) {} [])
      = .ok [8, 0xFF, 0xFF, 0, 0, 0, 5, 0] ∧
    acceleratedWrite compactWr {} implicitSch 0 (.struct [some (.int 5)]) = .ok [0] ∧
    bytesWritten (writeVal Compact.wr implicitSch .gen (.struct 0) (.struct [some (.int 5)]) {} [])
      = .ok [5, 1, 10, 0] := by
  refine ⟨fun sid => ?_, ?_, by decide +kernel, by decide +kernel, by decide +kernel, by decide +kernel⟩
  · unfold implicitSch FieldsOK
    decide
  · simp only [implicitSch, WT, WTf]
    decide

/-- Struct 0 contains a struct 1 with a required field. -/
def nestedSch : Schema
  | 0 => [{ fid := 1, ty := .struct 1 }]
  | _ => [{ fid := 1, ty := .i32, required := true }]

/-- Outside of C48 (the value is not well-typed): the accelerated writer validates only the outermost
struct, so a nested struct goes out without its required field, where the Python code raises. -/
theorem fast_nested_required :
    acceleratedWrite binaryWr {} nestedSch 0 (.struct [some (.struct [none])])
      = .ok [12, 0, 1, 0, 0] ∧
    bytesWritten (writeVal Binary.wr nestedSch .gen (.struct 0) (.struct [some (.struct [none])]) {} [])
      = .error TProtocolException.UNKNOWN ∧
    acceleratedWrite binaryWr {} nestedSch 1 (.struct [none]) = .error TProtocolException.UNKNOWN := by
  refine ⟨by decide +kernel, by decide +kernel, by decide +kernel⟩

end Thrift.Fast
