import Verif.Proofs.Refuse
import Verif.Props.Fast
/-
C71: what the format cannot represent is refused.
-/

namespace Thrift
open Spec

/-- C71, `TBinaryProtocol`: if a value of any type is written without an exception, then everything in
it fits: no integer is truncated, no length wraps, no text is damaged, and by generated code no required
field is missing. -/
theorem binary_refuses (sch : Schema) (mode : Mode) (t : Ty) (v : Val) (s s' : Binary.St) (out out' : Bytes)
    (hs : SchemaOK mode sch) (h : writeVal Binary.wr sch mode t v s out = (.ok (), s', out')) :
    Fits true (mode == .gen) sch t v :=
  writeVal_needs (Binary.refuses true) (writerSees_of_ok hs) v t s out () s' out' h

/-- C71, `TCompactProtocol`, without the lengths. -/
theorem compact_refuses_partial (sch : Schema) (mode : Mode) (t : Ty) (v : Val) (s s' : Compact.St)
    (out out' : Bytes) (hs : SchemaOK mode sch)
    (h : writeVal Compact.wr sch mode t v s out = (.ok (), s', out')) :
    Fits false (mode == .gen) sch t v :=
  writeVal_needs Compact.refuses (writerSees_of_ok hs) v t s out () s' out' h

/-- The lengths of `TCompactProtocol`: every binary value is written, however long. -/
theorem compact_length_unchecked (b : Bytes) (out : Bytes) :
    ∃ out', writeVal Compact.wr (fun _ => []) .gen .binary (.bin b) { state := .VALUE_WRITE } out
      = (.ok (), { state := .VALUE_WRITE }, out') := by
  simp only [writeVal, Compact.wr, Compact.writer, Compact.writeBinaryRaw, Compact.writeSize, Compact.writeVarint]
  have h : decide (0 ≤ (b.length : Int)) = true := by simp
  rw [h]
  exact ⟨out ++ Compact.varintBytes b.length ++ b, rfl⟩

/-- C71, the C extension: the same, but only the outermost struct is checked for required fields. -/
theorem fast_refuses_partial (sch : Schema) (sid : Nat) (v : Val) (hs : SchemaOK .dyn sch) :
    (∀ out, Fast.acceleratedWrite Fast.binaryWr {} sch sid v = .ok out →
      Fits true false sch (.struct sid) v ∧ ∀ as, v = .struct as → requiredSet (sch sid) as = true) ∧
    (∀ out, Fast.acceleratedWrite Fast.compactWr {} sch sid v = .ok out →
      Fits true false sch (.struct sid) v ∧ ∀ as, v = .struct as → requiredSet (sch sid) as = true) := by
  have key : ∀ {σ : Type} [HasDepth σ] (ops : Fast.Wr σ) (init : σ) (out : Bytes), Fast.Encodes ops →
      Fast.acceleratedWrite ops init sch sid v = .ok out →
      Fits true false sch (.struct sid) v ∧ ∀ as, v = .struct as → requiredSet (sch sid) as = true := by
    intro σ _ ops init out H h
    unfold Fast.acceleratedWrite at h
    cases v <;> dsimp only at h <;> try cases h
    case struct as =>
    by_cases hr : requiredSet (sch sid) as = true
    · rw [if_pos hr] at h
      refine ⟨?_, fun bs e => by cases e; exact hr⟩
      unfold Fast.encode at h
      generalize hm : Fast.encodeValue ops sch (.struct sid) (.struct as) init [] = r at h
      obtain ⟨r, s1, o1⟩ := r
      cases r with
      | ok u => exact Fast.encode_needs H (Fast.writerSees_dyn hs) _ _ init [] u s1 o1 hm
      | error e => cases h
    · rw [if_neg hr] at h; cases h
  refine ⟨fun out => key Fast.binaryWr {} out ?_, fun out => key Fast.compactWr {} out ?_⟩
  · intro tt fid truth enc p _ he
    exact .right fun _ => .right fun _ => he
  · intro tt fid truth enc p hb he
    show Needs (if tt = TType.BOOL then _ else _) p
    rw [if_neg hb]
    exact .right fun _ => he

/-- The hypotheses are met: the sample struct is written by all of them. -/
example : (∃ s' out', writeVal Binary.wr Sample.sch .gen (.struct 0) Sample.value {} [] = (.ok (), s', out')) ∧
    (∃ out, Fast.acceleratedWrite Fast.compactWr {} Sample.sch 0 Sample.value = .ok out) := by
  constructor
  · exact ⟨_, _, Binary.binary_wire_format .gen Sample.sch _ Sample.value {} [] (Sample.sch_ok .gen)
      Sample.value_wt (fun _ => by decide)⟩
  · refine ⟨_, (Fast.fast_wire_format Sample.sch 0 Sample.value (Sample.sch_ok .dyn) Sample.value_wt).2.trans
      (if_pos (by decide))⟩

/-- What is refused: an i16 that is too large in a list in a struct, and a surrogate in a text. -/
example : ¬ Fits false false (fun _ => [{ fid := 1, ty := .list .i16 }]) (.struct 0)
      (.struct [some (.list [.int 1, .int 32768])]) ∧
    ¬ Fits false false (fun _ => []) .string (.str [0x61, 0xD800]) := by
  constructor <;> simp [Fits, FitsFields, FitsAll, InRange, Scalar]

/-- C71, `TJSONProtocol`. (JSON has no bound for lengths.) -/
theorem json_refuses (py : Json.Floats) (sch : Schema) (mode : Mode) (t : Ty) (v : Val) (s s' : Json.St)
    (out out' : Bytes) (hs : SchemaOK mode sch)
    (h : writeVal (Json.wr py) sch mode t v s out = (.ok (), s', out')) :
    Fits false (mode == .gen) sch t v :=
  writeVal_needs (Json.refuses py) (writerSees_of_ok hs) v t s out () s' out' h

end Thrift
