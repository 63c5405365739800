import Verif.Props.Binary
import Verif.Props.Compact
/-
C20: fields that are not set, and required fields.
-/

namespace Thrift
open Spec

/-! ## Writing -/

theorem requiredSet_false : (fs : List Field) → (as : List (Option Val)) → (i : Nat) → (f : Field) →
    fs[i]? = some f → f.required = true → as[i]? = some none → requiredSet fs as = false
  | [], _, _, _, h, _, _ => by simp at h
  | _ :: _, [], _, _, _, _, h => by simp at h
  | g :: fs, a :: as, 0, f, h, hr, ha => by
    simp only [List.getElem?_cons_zero, Option.some.injEq] at h ha
    subst h ha
    simp [requiredSet, hr]
  | g :: fs, a :: as, i + 1, f, h, hr, ha => by
    simp only [List.getElem?_cons_succ] at h ha
    simp [requiredSet, requiredSet_false fs as i f h hr ha]

/-- C20: if a required field is `None`, the generated `write` raises `TProtocolException`; nothing is
written and the protocol object, whichever it is, is not touched. -/
theorem required_unset_refused {σ : Type} [HasDepth σ] (ops : WrOps σ) (sch : Schema) (sid : Nat)
    (as : List (Option Val)) (i : Nat) (f : Field) (hf : (sch sid)[i]? = some f)
    (hr : f.required = true) (hi : as[i]? = some none) (s : σ) (out : Bytes) :
    writeVal ops sch .gen (.struct sid) (.struct as) s out = (.error TProtocolException.UNKNOWN, s, out) := by
  simp only [writeVal]
  rw [requiredSet_false _ _ i f hf hr hi]
  rfl

/-- A struct with one required field that is not set. -/
example : writeVal Binary.wr (fun _ => [{ fid := 1, ty := .i32 }, { fid := 2, ty := .i32, required := true }]) .gen
    (.struct 0) (.struct [some (.int 7), none]) ⟨0⟩ [9] = (.error TProtocolException.UNKNOWN, ⟨0⟩, [9]) :=
  required_unset_refused _ _ 0 _ 1 _ rfl rfl rfl _ _

theorem writeFields_drop {σ : Type} [HasDepth σ] (ops : WrOps σ) (sch : Schema) (mode : Mode) (f : Field) :
    (pre : List Field) → (post : List Field) → (pa : List (Option Val)) → (qa : List (Option Val)) →
    pa.length = pre.length →
    writeFields ops sch mode (pre ++ f :: post) (pa ++ none :: qa) = writeFields ops sch mode (pre ++ post) (pa ++ qa)
  | [], _, [], _, _ => by simp only [List.nil_append, writeFields]
  | [], _, _ :: _, _, h => by simp at h
  | _ :: _, _, [], _, h => by simp at h
  | g :: pre, post, none :: pa, qa, h => by
    simp only [List.cons_append, writeFields]
    exact writeFields_drop ops sch mode f pre post pa qa (by simpa using h)
  | g :: pre, post, some v :: pa, qa, h => by
    simp only [List.cons_append, writeFields]
    rw [writeFields_drop ops sch mode f pre post pa qa (by simpa using h)]

theorem requiredSet_drop (f : Field) (hf : f.required = false) :
    (pre : List Field) → (post : List Field) → (pa : List (Option Val)) → (qa : List (Option Val)) →
    pa.length = pre.length →
    requiredSet (pre ++ f :: post) (pa ++ none :: qa) = requiredSet (pre ++ post) (pa ++ qa)
  | [], _, [], _, _ => by simp [requiredSet, hf]
  | [], _, _ :: _, _, h => by simp at h
  | _ :: _, _, [], _, h => by simp at h
  | g :: pre, post, a :: pa, qa, h => by
    simp only [List.cons_append, requiredSet]
    rw [requiredSet_drop f hf pre post pa qa (by simpa using h)]

/-- C20: a struct with an optional field that is `None` is written exactly as a struct of a class
without that field, by every protocol, in every state, normally or with an exception. -/
theorem unset_not_written {σ : Type} [HasDepth σ] (ops : WrOps σ) (sch : Schema) (mode : Mode) (sid sid' : Nat)
    (pre post : List Field) (f : Field) (pa qa : List (Option Val))
    (h1 : sch sid = pre ++ f :: post) (h2 : sch sid' = pre ++ post) (hp : pa.length = pre.length)
    (hf : f.required = false) (hid : mode = .dyn → ∀ g ∈ sch sid, 0 ≤ g.fid) :
    writeVal ops sch mode (.struct sid) (.struct (pa ++ none :: qa)) =
      writeVal ops sch mode (.struct sid') (.struct (pa ++ qa)) := by
  have hw := writeFields_drop ops sch mode f pre post pa qa hp
  have hr := requiredSet_drop f hf pre post pa qa hp
  cases mode with
  | gen => simp only [writeVal, h1, h2, hw, hr]
  | dyn =>
    have hs : ∀ fs : List Field, (∀ g ∈ fs, 0 ≤ g.fid) → writerSees .dyn fs = true := by
      intro fs h
      cases fs with
      | nil => rfl
      | cons g _ => simp [writerSees, h g]
    have hid := hid rfl
    have hid' : ∀ g ∈ sch sid', 0 ≤ g.fid := by
      intro g hg
      apply hid
      rw [h1]
      rw [h2] at hg
      simp only [List.mem_append, List.mem_cons] at hg ⊢
      rcases hg with h | h
      · exact .inl h
      · exact .inr (.inr h)
    simp only [writeVal, hs _ hid, hs _ hid', if_true]
    rw [h1, h2, hw]

example : (fun i => if i = 0 then [⟨1, .i32, false, none⟩, ⟨2, .string, false, some (.str [65])⟩, ⟨3, .bool, false, none⟩]
    else [⟨1, .i32, false, none⟩, ⟨3, .bool, false, none⟩] : Schema) 0 =
      [⟨1, .i32, false, none⟩] ++ ⟨2, .string, false, some (.str [65])⟩ :: [⟨3, .bool, false, none⟩] := rfl

/-! ## Reading back -/

/-- `bs` are the attributes `as` with every `None` replaced by the declared default; set attributes
without a hidden default inside are the same. -/
def FilledIn (sch : Schema) (fs : List Field) (as bs : List (Option Val)) : Prop :=
  bs.length = fs.length ∧ ∀ (i : Nat) (f : Field), fs[i]? = some f →
    (as[i]? = some none → bs[i]? = some f.dflt) ∧
    ∀ v, as[i]? = some (some v) → NoHiddenDefault sch f.ty v → NoDuplicates v → bs[i]? = some (some v)

theorem wtf_get {sch : Schema} : (fs : List Field) → (as : List (Option Val)) → WTf sch fs as →
    (i : Nat) → (f : Field) → (v : Val) → fs[i]? = some f → as[i]? = some (some v) → WT sch f.ty v
  | [], _, _, _, _, _, h, _ => by simp at h
  | _ :: _, [], _, _, _, _, _, h => by simp at h
  | g :: fs, none :: as, hw, i, f, v, hf, ha => by
    cases i with
    | zero => simp at ha
    | succ i => exact wtf_get fs as (by simp only [WTf] at hw; exact hw.2) i f v hf ha
  | g :: fs, some w :: as, hw, i, f, v, hf, ha => by
    simp only [WTf] at hw
    cases i with
    | zero =>
      simp only [List.getElem?_cons_zero, Option.some.injEq] at hf ha
      subst hf ha
      exact hw.1
    | succ i => exact wtf_get fs as hw.2 i f v hf ha

theorem sent_get {sch₁ sch₂ : Schema} : (fs : List Field) → (as : List (Option Val)) →
    fs.Pairwise (fun f g => f.fid < g.fid) → (i : Nat) → (f : Field) → fs[i]? = some f →
    (as[i]? = some none → ∀ x ∈ sentFields sch₁ sch₂ fs as, x.1 ≠ f.fid) ∧
    (∀ v, as[i]? = some (some v) → (sentFields sch₁ sch₂ fs as).find?
      (fun x => x.1 == f.fid && x.2.1 == f.ty.ttype) = some (f.fid, f.ty.ttype, project sch₁ sch₂ f.ty v))
  | [], _, _, _, _, h => by simp at h
  | g :: fs, as, hp, i, f, hf => by
    have hp' := List.pairwise_cons.1 hp
    cases i with
    | zero =>
      simp only [List.getElem?_cons_zero, Option.some.injEq] at hf
      subst hf
      cases as with
      | nil => simp
      | cons a as =>
        refine ⟨fun h x hx => ?_, fun v h => ?_⟩
        · simp only [List.getElem?_cons_zero, Option.some.injEq] at h
          subst h
          simp only [sentFields] at hx
          obtain ⟨k, hk, e⟩ := sentFields_fid hx
          have := hp'.1 k hk
          omega
        · simp only [List.getElem?_cons_zero, Option.some.injEq] at h
          subst h
          simp [sentFields]
    | succ i =>
      simp only [List.getElem?_cons_succ] at hf
      have hlt := hp'.1 f (List.mem_of_getElem? hf)
      match as with
      | [] => simp
      | none :: as =>
        simp only [List.getElem?_cons_succ, sentFields]
        exact sent_get fs as hp'.2 i f hf
      | some w :: as =>
        have ih := sent_get (sch₁ := sch₁) (sch₂ := sch₂) fs as hp'.2 i f hf
        simp only [List.getElem?_cons_succ, sentFields]
        refine ⟨fun h x hx => ?_, fun v h => ?_⟩
        · simp only [List.mem_cons] at hx
          rcases hx with rfl | hx
          · simp only; omega
          · exact ih.1 h x hx
        · rw [List.find?_cons_of_neg]
          · exact ih.2 v h
          · simp only [Bool.and_eq_true, beq_iff_eq, not_and]
            omega

theorem filledIn_project {sch : Schema} {sid : Nat} {as : List (Option Val)}
    (hs : ∀ sid, FieldsOK (sch sid)) (hv : WT sch (.struct sid) (.struct as)) :
    ∃ bs, project sch sch (.struct sid) (.struct as) = .struct bs ∧ FilledIn sch (sch sid) as bs := by
  refine ⟨(sch sid).map (attrOf (sentFields sch sch (sch sid) as)), by simp only [project], by simp,
    fun i f hf => ?_⟩
  have h := sent_get (sch₁ := sch) (sch₂ := sch) (sch sid) as (hs sid).1 i f hf
  simp only [WT] at hv
  refine ⟨fun ha => ?_, fun v ha hn hq => ?_⟩
  · rw [List.getElem?_map, hf, Option.map_some, attrOf_none (h.1 ha)]
  · rw [List.getElem?_map, hf, Option.map_some]
    unfold attrOf
    rw [h.2 v ha, project_self sch hs v f.ty (wtf_get _ _ hv i f v hf ha) hn hq]

/-- C20, binary: what is written of a struct reads back with each `None` attribute replaced by its
declared default. -/
theorem binary_unset_reads_default (cfg : Binary.Cfg) (mode : Mode) (sch : Schema) (sid : Nat)
    (as : List (Option Val)) (s : Binary.St) (fuel : Nat) (rest out : Bytes)
    (hs : SchemaOK mode sch) (hv : WT sch (.struct sid) (.struct as))
    (hl : WithinLimits cfg.stringLimit cfg.containerLimit (.struct as))
    (hd : mode = .gen → s.depth + structDepth (.struct as) ≤ 64) (hf : size (.struct as) ≤ fuel) :
    ∃ bytes bs, FilledIn sch (sch sid) as bs ∧
      writeVal Binary.wr sch mode (.struct sid) (.struct as) s out = (.ok (), s, out ++ bytes) ∧
      exec (readVal (Binary.rd cfg) sch mode fuel (.struct sid)) s (bytes ++ rest)
        = some ((.ok (.struct bs), s), rest) := by
  obtain ⟨bs, hb, hfi⟩ := filledIn_project (fun sid => (hs sid).1) hv
  refine ⟨_, bs, hfi, Binary.binary_wire_format mode sch _ _ s out hs hv hd, ?_⟩
  rw [← hb]
  exact (Binary.read_gen cfg mode sch sch _ _ s fuel hs hs (compatible_self hs) hv hl hd
    (Unknowns_self _ sch _ _) hf).1 rest

/-- C20, compact. -/
theorem compact_unset_reads_default (cfg : Compact.Cfg) (mode : Mode) (sch : Schema) (sid : Nat)
    (as : List (Option Val)) (sw sr : Compact.St) (fuel : Nat) (rest out : Bytes)
    (hs : SchemaOK mode sch) (hv : WT sch (.struct sid) (.struct as))
    (hl : WithinLimits cfg.stringLimit cfg.containerLimit (.struct as))
    (hcw : Compact.CanWrite (.struct sid) sw) (hcr : Compact.CanRead (.struct sid) sr)
    (hdw : mode = .gen → sw.depth + structDepth (.struct as) ≤ 64)
    (hdr : mode = .gen → sr.depth + structDepth (.struct as) ≤ 64) (hf : size (.struct as) ≤ fuel) :
    ∃ bytes bs sw' sr', FilledIn sch (sch sid) as bs ∧ Compact.SameObject sw sw' ∧ Compact.SameObject sr sr' ∧
      writeVal Compact.wr sch mode (.struct sid) (.struct as) sw out = (.ok (), sw', out ++ bytes) ∧
      exec (readVal (Compact.rd cfg) sch mode fuel (.struct sid)) sr (bytes ++ rest)
        = some ((.ok (.struct bs), sr'), rest) := by
  obtain ⟨bs, hb, hfi⟩ := filledIn_project (fun sid => (hs sid).1) hv
  obtain ⟨sw', hw, h1⟩ := Compact.compact_wire_format mode sch _ _ sw out hs hv hcw hdw
  obtain ⟨sr', hr, h2⟩ := Compact.read_gen cfg mode sch sch _ _ sr fuel hs hs (compatible_self hs) hv hl hcr hdr
    (Unknowns_self _ sch _ _) hf
  refine ⟨_, bs, sw', sr', hfi, h1, h2, hw, ?_⟩
  rw [← hb]
  exact hr.1 rest

/-- A `None` attribute with a default that is not `None` comes back as the default. -/
example : let sch : Schema := fun _ => [⟨1, .i32, false, some (.int 5)⟩, ⟨2, .bool, true, none⟩]
    exec (readVal (Binary.rd {}) sch .gen 9 (.struct 0)) ⟨0⟩
      (writeVal Binary.wr sch .gen (.struct 0) (.struct [none, some (.bool true)]) ⟨0⟩ []).2.2 =
      some ((.ok (.struct [some (.int 5), some (.bool true)]), ⟨0⟩), []) := by rfl

/-! ## Reading does not look at `required` -/

/-- The schema in which every field is optional. -/
def allOptional (sch : Schema) : Schema := fun sid => (sch sid).map fun f => { f with required := false }

theorem thriftSpecFrom_optional (pos : Int) (i : Nat) (fs : List Field) :
    thriftSpecFrom pos i (fs.map fun f => { f with required := false }) = thriftSpecFrom pos i fs := by
  induction fs generalizing pos i with
  | nil => rfl
  | cons f fs ih => simp only [List.map_cons, thriftSpecFrom, ih]

theorem lookupField_optional (mode : Mode) (fs : List Field) (fid : Int) :
    lookupField mode (fs.map fun f => { f with required := false }) fid = lookupField mode fs fid := by
  cases mode with
  | gen => simp [lookupField, List.findIdx?_map, Function.comp_def]
  | dyn =>
    have : thriftSpec (fs.map fun f => { f with required := false }) = thriftSpec fs := by
      cases fs with
      | nil => rfl
      | cons f fs =>
        simp only [List.map_cons, thriftSpec, thriftSpecFrom]
        rw [thriftSpecFrom_optional]
    simp only [lookupField, this]

/-- C20: whatever the bytes and the protocol, a reader of a class with required fields does exactly
what a reader of the same class with optional fields does: `required` is not enforced when reading. -/
theorem read_ignores_required {σ : Type} [HasDepth σ] (ops : RdOps σ) (sch : Schema) (mode : Mode) (fuel : Nat)
    (t : Ty) : readVal ops sch mode fuel t = readVal ops (allOptional sch) mode fuel t := by
  induction fuel generalizing t with
  | zero => cases t <;> simp only [readVal]
  | succ n ih =>
    have hrv : readVal ops (allOptional sch) mode n = readVal ops sch mode n := (funext ih).symm
    cases t with
    | struct sid =>
      have hb : readStructBody ops mode (allOptional sch sid) (readVal ops sch mode n) (skip ops n skipDepth) =
          readStructBody ops mode (sch sid) (readVal ops sch mode n) (skip ops n skipDepth) := by
        funext attrs
        simp only [readStructBody, allOptional, lookupField_optional, List.getElem?_map]
        congr 1
        funext x
        cases lookupField mode (sch sid) x.2 with
        | none => rfl
        | some i =>
          simp only
          cases (sch sid)[i]? <;> rfl
      have hi : initAttrs (allOptional sch sid) = initAttrs (sch sid) := by
        simp [initAttrs, allOptional, Function.comp_def]
      simp only [readVal, readStructCore, hrv, hb, hi]
    | _ => simp only [readVal, hrv]

end Thrift
