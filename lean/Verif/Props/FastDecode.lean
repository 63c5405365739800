import Verif.Proofs.FastLaws
import Verif.Proofs.FastAgree
import Verif.Proofs.FastCompact
import Verif.Props.Fast
import Verif.Props.Compact
/-
C49: the decoder of the C extension and the Python code.
-/

namespace Thrift.Fast
open Spec

/-- What the caller of `read` sees: the value or the exception, and what is left in the transport. -/
def seen {σ α : Type} (r : Option ((Except Exc α × σ) × Bytes)) : Option (Except Exc α × Bytes) :=
  r.map fun x => (x.1.1, x.2)

/-! ## On what a writer produces -/

/-- The decoder on the documented bytes of a value, written with any compatible schema: it returns what
the reader knows of the value and consumes exactly those bytes. The recursion counter of the extension
also runs while unknown fields are skipped, which is the bound on them. -/
theorem fast_decodes (env : Env) (he : env.Decodes) (sch₁ sch₂ : Schema) (sid : Nat) (v : Val) (fuel : Nat)
    (sl cl : Option Int) (strict : Bool)
    (h1 : ∀ sid, FieldsOK (sch₁ sid)) (h2 : SchemaOK .dyn sch₂) (hc : Compatible sch₁ sch₂)
    (hv : WT sch₁ (.struct sid) v) (hl : WithinLimits sl cl v) (hd : structDepth v ≤ 64)
    (hu : Unknowns (fun u => structDepth v + nesting u ≤ 64) sch₁ sch₂ (.struct sid) v)
    (hf : size v ≤ fuel) (rest : Bytes) :
    seen (exec (decodeValue env (binaryRd env { stringLimit := sl, containerLimit := cl, strictRead := strict })
        sch₂ fuel (.struct sid)) {} (Spec.Binary.value sch₁ (.struct sid) v ++ rest))
      = some (.ok (project sch₁ sch₂ (.struct sid) v), rest) ∧
    seen (exec (decodeValue env (compactRd { stringLimit := sl, containerLimit := cl })
        sch₂ fuel (.struct sid)) {} (Spec.Compact.value sch₁ (.struct sid) v ++ rest))
      = some (.ok (project sch₁ sch₂ (.struct sid) v), rest) := by
  have hb := toks_bounds sch₁ h1 v _ hv hl
  have hu' : Unknowns (Skips (structDepth v)) sch₁ sch₂ (.struct sid) v := by
    have e : (Skips (structDepth v) : Val → Prop) = fun u => structDepth v + nesting u ≤ 64 := by
      funext u
      apply propext
      unfold Skips
      omega
    rw [e]
    exact hu
  constructor
  · obtain ⟨s', e, -, -⟩ := decode_ok sch₁ sch₂ (structDepth v)
      (binaryRdLaws (env := env) (cfg := { stringLimit := sl, containerLimit := cl, strictRead := strict }))
      he (by omega) h1 h2 hc v (.struct sid) fuel {} () hv (Binary.lang_Ok hb) trivial hf
      (by show (0 : Int) + _ ≤ _; omega) hu'
    rw [Binary.enc_value _ _ sch₁ v _ () hv] at e
    rw [e rest]
    rfl
  · have hg := Compact.good_value sl cl sch₁ v (.struct sid)
      ({ pos := .clear, lastFid := 0, structs := [], containers := [] } : Compact.Q) hv
      (.inr (.inr ⟨rfl, sid, rfl⟩))
    obtain ⟨s', e, -, -⟩ := decode_ok sch₁ sch₂ (structDepth v)
      (compactRdLaws (cfg := { stringLimit := sl, containerLimit := cl }))
      he (by omega) h1 h2 hc v (.struct sid) fuel {}
      ({ pos := .clear, lastFid := 0, structs := [], containers := [] } : Compact.Q) hv
      (hg.ok hb) ⟨⟨rfl, rfl⟩, rfl⟩ hf (by show (0 : Int) + _ ≤ _; omega) hu'
    rw [hg.enc] at e
    rw [e rest]
    rfl

/-- C49 on everything a writer produces: the extension and the Python code return the same value and
leave the same bytes in the transport. The writer may have another, compatible schema; both sides must
be able to skip what they do not know. -/
theorem fast_decoder_encoded (env : Env) (he : env.Decodes) (sch₁ sch₂ : Schema) (sid : Nat) (v : Val)
    (fuel : Nat) (sl cl : Option Int) (strict : Bool)
    (h1 : ∀ sid, FieldsOK (sch₁ sid)) (h2 : SchemaOK .dyn sch₂) (hc : Compatible sch₁ sch₂)
    (hv : WT sch₁ (.struct sid) v) (hl : WithinLimits sl cl v) (hd : structDepth v ≤ 64)
    (hu : Unknowns (fun u => structDepth v + nesting u ≤ 64) sch₁ sch₂ (.struct sid) v)
    (hp : Unknowns (fun u => nesting u ≤ 64 ∧ BinariesAreText IsUtf8 u) sch₁ sch₂ (.struct sid) v)
    (hf : size v ≤ fuel) (rest : Bytes) :
    seen (exec (decodeValue env (binaryRd env { stringLimit := sl, containerLimit := cl, strictRead := strict })
        sch₂ fuel (.struct sid)) {} (Spec.Binary.value sch₁ (.struct sid) v ++ rest))
      = seen (exec (readVal (Binary.rd { stringLimit := sl, containerLimit := cl, strictRead := strict })
        sch₂ .gen fuel (.struct sid)) {} (Spec.Binary.value sch₁ (.struct sid) v ++ rest)) ∧
    seen (exec (decodeValue env (compactRd { stringLimit := sl, containerLimit := cl })
        sch₂ fuel (.struct sid)) {} (Spec.Compact.value sch₁ (.struct sid) v ++ rest))
      = seen (exec (readVal (Compact.rd { stringLimit := sl, containerLimit := cl })
        sch₂ .gen fuel (.struct sid)) {} (Spec.Compact.value sch₁ (.struct sid) v ++ rest)) := by
  have g1 : SchemaOK .gen sch₁ := fun sid => ⟨h1 sid, fun h => nomatch h⟩
  have g2 : SchemaOK .gen sch₂ := fun sid => ⟨(h2 sid).1, fun h => nomatch h⟩
  obtain ⟨e1, e2⟩ := fast_decodes env he sch₁ sch₂ sid v fuel sl cl strict h1 h2 hc hv hl hd hu hf rest
  have d0 : (0 : Int) + structDepth v ≤ 64 := by omega
  constructor
  · rw [e1, (Binary.read_gen { stringLimit := sl, containerLimit := cl, strictRead := strict } .gen sch₁ sch₂
      (.struct sid) v {} fuel g1 g2 hc hv hl (fun _ => d0) hp hf).1 rest]
    rfl
  · obtain ⟨s', h, -⟩ := Compact.read_gen { stringLimit := sl, containerLimit := cl } .gen sch₁ sch₂
      (.struct sid) v {} fuel g1 g2 hc hv hl (.inr (.inr ⟨rfl, sid, rfl⟩)) (fun _ => d0) hp hf
    rw [e2, h.1 rest]
    rfl

theorem sample_skips : Unknowns (fun u => structDepth Sample.value + nesting u ≤ 64) Sample.sch Sample.older
    (.struct 0) Sample.value := by
  rw [Sample.value_depth]
  simp [Sample.value, Sample.leaf, Sample.sch, Sample.older, Unknowns, Unknownss, Unknownsf, Known,
    Ty.ttype, nesting, nestings, nestingp]

/-- A reader with the older schema meets the hypotheses. -/
example : (∀ sid, FieldsOK (Sample.sch sid)) ∧ SchemaOK .dyn Sample.older ∧
    Compatible Sample.sch Sample.older ∧ WT Sample.sch (.struct 0) Sample.value ∧
    WithinLimits (some 5) (some 2) Sample.value ∧
    Unknowns (fun u => structDepth Sample.value + nesting u ≤ 64) Sample.sch Sample.older (.struct 0)
      Sample.value ∧
    Unknowns (fun u => nesting u ≤ 64 ∧ BinariesAreText IsUtf8 u) Sample.sch Sample.older (.struct 0)
      Sample.value ∧
    project Sample.sch Sample.older (.struct 0) Sample.value ≠ Sample.value :=
  ⟨fun sid => (Sample.sch_ok .dyn sid).1, Sample.older_ok .dyn, Sample.compatible, Sample.value_wt,
    Sample.value_limits, sample_skips, Sample.unknowns, by rw [Sample.project_eq]; intro h; cases h⟩

/-! ## On arbitrary bytes -/

/-- C49 is false: of the binary protocol because of a bool byte that is neither 0 nor 1, a string that is
not UTF-8, a list with another element type, a skipped string that is too long, and (below) a skipped
list nested 64 levels inside a struct. `fs` and `sl` are the fields of the struct and the string limit. -/
def sameBinary (env : Env) (fs : List Field) (sl : Option Int) (bytes : Bytes) : Prop :=
  Same (seen (exec (readVal (Binary.rd { stringLimit := sl }) (fun _ => fs) .gen 200 (.struct 0)) {} bytes))
    (seen (exec (decodeValue env (binaryRd env { stringLimit := sl }) (fun _ => fs) 200 (.struct 0)) {} bytes))

/-- 64 lists inside one another. -/
def deepList : Nat → Bytes
  | 0 => [8, 0, 0, 0, 0]
  | n + 1 => [15, 0, 0, 0, 1] ++ deepList n

theorem fast_decoder_differs (env : Env) :
    ¬ sameBinary env [{ fid := 1, ty := .bool }] none [2, 0, 1, 2, 0] ∧
    ¬ sameBinary env [{ fid := 1, ty := .string }] none [11, 0, 1, 0, 0, 0, 1, 0xFF, 0] ∧
    ¬ sameBinary env [{ fid := 1, ty := .list .i32 }] none [15, 0, 1, 11, 0, 0, 0, 1, 0, 0, 0, 5, 0] ∧
    ¬ sameBinary env [{ fid := 1, ty := .i32 }] (some 1) [11, 0, 2, 0, 0, 0, 2, 65, 66, 0] := by
  refine ⟨?_, ?_, ?_, ?_⟩
  · intro h
    have : Val.struct [some (.bool true)] = Val.struct [some (.bool false)] := h
    cases this
  · exact id
  · exact id
  · exact id

/-- An environment whose decoder drops what it cannot decode. -/
def dropEnv : Env where
  replace b := match utf8Decode b with
    | .ok s => s
    | .error _ => []
  beyond := []

theorem dropEnv_decodes : dropEnv.Decodes := by
  intro b s h
  show (match utf8Decode b with | .ok s => s | .error _ => []) = s
  rw [h]

def returned : Option (Except Exc Val × Bytes) → Bool
  | some (.ok _, _) => true
  | _ => false

theorem fast_decoder_differs_depth : ¬ sameBinary dropEnv [{ fid := 1, ty := .i32 }] none
    ([15, 0, 2] ++ deepList 63 ++ [0]) := by
  have h1 : returned (seen (exec (readVal (Binary.rd { stringLimit := none }) (fun _ => [{ fid := 1, ty := .i32 }])
    .gen 200 (.struct 0)) {} ([15, 0, 2] ++ deepList 63 ++ [0]))) = true := by decide +kernel
  have h2 : returned (seen (exec (decodeValue dropEnv (binaryRd dropEnv { stringLimit := none })
    (fun _ => [{ fid := 1, ty := .i32 }]) 200 (.struct 0)) {} ([15, 0, 2] ++ deepList 63 ++ [0]))) = false := by
    decide +kernel
  unfold sameBinary
  generalize seen (exec (readVal (Binary.rd { stringLimit := none }) (fun _ => [{ fid := 1, ty := .i32 }])
    .gen 200 (.struct 0)) {} ([15, 0, 2] ++ deepList 63 ++ [0])) = p at h1 ⊢
  generalize seen (exec (decodeValue dropEnv (binaryRd dropEnv { stringLimit := none })
    (fun _ => [{ fid := 1, ty := .i32 }]) 200 (.struct 0)) {} ([15, 0, 2] ++ deepList 63 ++ [0])) = x at h2 ⊢
  rcases p with _ | ⟨_ | _, _⟩
  · cases h1
  · cases h1
  · rcases x with _ | ⟨_ | _, _⟩
    · exact id
    · exact id
    · cases h2

/-- C49 for the binary protocol and every byte stream, every struct and all limits: the extension and the
Python code agree up to bool bytes other than 0 and 1, and fail together up to the exceptions listed in
`NearlySame`. The schema has no set of bools and no map with bool keys (with them the containers may
differ in size), and no negative field id (the extension does not see such fields). Missing from the full
claim: what `fast_decoder_differs` shows to be false. The compact protocol: `fast_compact_agrees_partial`. -/
theorem fast_decoder_agrees_partial (env : Env) (he : env.Decodes) (cfg : Binary.Cfg) (sch : Schema)
    (hs : SchemaOK .dyn sch) (hb : ∀ sid, ∀ f ∈ sch sid, NoBoolKeys f.ty) (sid : Nat) (bytes : Bytes)
    (fuel fuel' : Nat) :
    NearlySame (seen (exec (readVal (Binary.rd cfg) sch .gen fuel (.struct sid)) {} bytes))
      (seen (exec (decodeValue env (binaryRd env cfg) sch fuel' (.struct sid)) {} bytes)) := by
  have h := decode_agree env cfg he sch hs hb fuel' fuel 0 (.struct sid) {} {} bytes (by omega) trivial ⟨rfl, rfl⟩
  generalize exec (readVal (Binary.rd cfg) sch .gen fuel (.struct sid)) {} bytes = p at h
  generalize exec (decodeValue env (binaryRd env cfg) sch fuel' (.struct sid)) {} bytes = x at h
  rcases p with _ | ⟨⟨e | a, s⟩, r⟩
  · rcases x with _ | ⟨⟨e' | b, s'⟩, r'⟩ <;> trivial
  all_goals
    rcases x with _ | ⟨⟨e' | b, s'⟩, r'⟩
    · trivial
  · trivial
  · rcases h with h | ⟨h, -⟩
    · exact h
    · exact absurd rfl (h sid)
  · exact h
  · exact ⟨h.1.1, h.2.2⟩

/-- The compact protocol: an i32 of five bytes with more than 32 bits. -/
theorem fast_compact_differs (env : Env) :
    ¬ Same (seen (exec (readVal (Compact.rd {}) (fun _ => [{ fid := 1, ty := .i32 }]) .gen 9 (.struct 0)) {}
        [0x15, 0xFE, 0xFF, 0xFF, 0xFF, 0x7F, 0]))
      (seen (exec (decodeValue env (compactRd {}) (fun _ => [{ fid := 1, ty := .i32 }]) 9 (.struct 0)) {}
        [0x15, 0xFE, 0xFF, 0xFF, 0xFF, 0x7F, 0])) := by
  intro h
  have : Val.struct [some (.int 17179869183)] = Val.struct [some (.int 2147483647)] := h
  cases this

/-- C49 for the compact protocol and every byte stream, every struct and all limits. Either there is a number on the wire that does not fit its type: a `TCompactProtocol` that checks
this, and does nothing else differently, stops there with `OverflowError`. Or the extension and the Python code read equal values and leave the same bytes, and fail together up to the
exceptions listed in `NearlyEqual`. The schema has no negative field id. Missing from the full claim: what `fast_compact_differs` and `fast_compact_fails_alone` show to be false. -/
theorem fast_compact_agrees_partial (env : Env) (he : env.Decodes) (cfg : Compact.Cfg) (sch : Schema) (hs : SchemaOK .dyn sch) (sid : Nat) (bytes : Bytes) (fuel fuel' : Nat) :
    (∃ rest, seen (exec (readVal (Strict.rd cfg) sch .gen fuel (.struct sid)) {} bytes) = some (.error .overflowError, rest)) ∨
    NearlyEqual (seen (exec (readVal (Compact.rd cfg) sch .gen fuel (.struct sid)) {} bytes))
      (seen (exec (decodeValue env (compactRd cfg) sch fuel' (.struct sid)) {} bytes)) := by
  have h := CompactAgree.decode_agr env he cfg sch hs fuel' fuel ⟨0, [], [], [], 0, 0⟩ .CLEAR (.struct sid) {} {} bytes (by decide) rfl
    (.inl ⟨⟨rfl, rfl, rfl, rfl, rfl, rfl, rfl, rfl⟩, .inr (.inr ⟨rfl, rfl⟩)⟩)
  rcases Thrift.Strict.readVal_refines cfg sch fuel (.struct sid) {} bytes with hr | ⟨s, r, hr⟩
  · rw [hr] at h ⊢
    generalize exec (readVal (Compact.rd cfg) sch .gen fuel (.struct sid)) {} bytes = p at h
    generalize exec (decodeValue env (compactRd cfg) sch fuel' (.struct sid)) {} bytes = x at h
    rcases p with _ | ⟨⟨e | a, s⟩, r⟩
    · right
      rcases x with _ | ⟨⟨e' | b, s'⟩, r'⟩ <;> trivial
    all_goals
      rcases x with _ | ⟨⟨e' | b, s'⟩, r'⟩
      · exact .inr trivial
    · exact .inr trivial
    · rcases h with h | h | rfl
      · exact .inr (.inl h)
      · exact .inr (.inr h)
      · exact .inl ⟨r, rfl⟩
    · exact .inr h
    · exact .inr ⟨h.1.1, h.2⟩
  · left
    rw [hr]
    exact ⟨r, rfl⟩

/-- What is seen, if it is of a type whose equality is decided -/
def summary : Option (Except Exc Val × Bytes) → Option (Except Exc (List (Option Int)) × Bytes)
  | some (.ok (.struct vs), r) => some (.ok (vs.map fun v => match v with | some (.int i) => some i | _ => none), r)
  | some (.ok _, r) => some (.ok [], r)
  | some (.error e, r) => some (.error e, r)
  | none => none

/-- An i32 whose sixth byte says nothing, and a list of another type: Python reads them, the extension does not. -/
theorem fast_compact_fails_alone (env : Env) :
    summary (seen (exec (readVal (Compact.rd {}) (fun _ => [{ fid := 1, ty := .i32 }]) .gen 9 (.struct 0)) {} [0x15, 0x82, 0x80, 0x80, 0x80, 0x80, 0x00, 0])) = some (.ok [some 1], []) ∧
    summary (seen (exec (decodeValue env (compactRd {}) (fun _ => [{ fid := 1, ty := .i32 }]) 9 (.struct 0)) {} [0x15, 0x82, 0x80, 0x80, 0x80, 0x80, 0x00, 0])) = some (.error .overflowError, [0x00, 0]) ∧
    summary (seen (exec (readVal (Compact.rd {}) (fun _ => [{ fid := 1, ty := .list .i32 }]) .gen 9 (.struct 0)) {} [0x19, 0x16, 0x02, 0])) = some (.ok [none], []) ∧
    summary (seen (exec (decodeValue env (compactRd {}) (fun _ => [{ fid := 1, ty := .list .i32 }]) 9 (.struct 0)) {} [0x19, 0x16, 0x02, 0])) = some (.error .typeError, [0x02, 0]) :=
  ⟨rfl, rfl, rfl, rfl⟩

/-- Bytes no writer makes (an unknown list of maps, an i32 with a byte too many, the same field again): the strict reader has no objection, and both decoders return 1. -/
example (env : Env) :
    summary (seen (exec (readVal (Strict.rd {}) (fun _ => [{ fid := 1, ty := .i32 }]) .gen 9 (.struct 0)) {} [0x29, 0x1B, 0x01, 0x15, 0x02, 0x04, 0x05, 0x02, 0x06, 0x05, 0x02, 0x82, 0x00, 0, 7]))
      = some (.ok [some 1], [7]) ∧
    summary (seen (exec (decodeValue env (compactRd {}) (fun _ => [{ fid := 1, ty := .i32 }]) 9 (.struct 0)) {} [0x29, 0x1B, 0x01, 0x15, 0x02, 0x04, 0x05, 0x02, 0x06, 0x05, 0x02, 0x82, 0x00, 0, 7]))
      = some (.ok [some 1], [7]) := ⟨rfl, rfl⟩

/-- And the numbers of `fast_compact_differs` are out of range. -/
example : summary (seen (exec (readVal (Strict.rd {}) (fun _ => [{ fid := 1, ty := .i32 }]) .gen 9 (.struct 0)) {} [0x15, 0xFE, 0xFF, 0xFF, 0xFF, 0x7F, 0])) = some (.error .overflowError, [0]) := rfl

theorem sample_no_bool_keys : ∀ sid, ∀ f ∈ Sample.sch sid, NoBoolKeys f.ty := by
  intro sid f hf
  unfold Sample.sch at hf
  split at hf
  · have : ∀ g ∈ Sample.sch 0, NoBoolKeys g.ty := by
      simp [Sample.sch, NoBoolKeys]
    exact this f hf
  · cases hf

/-- The sample schema meets the hypotheses, and both decoders read bytes of it. -/
example : SchemaOK .dyn Sample.sch ∧ ∀ sid, ∀ f ∈ Sample.sch sid, NoBoolKeys f.ty :=
  ⟨Sample.sch_ok .dyn, sample_no_bool_keys⟩

end Thrift.Fast
