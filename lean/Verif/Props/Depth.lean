import Verif.Proofs.DeepWrite
import Verif.Props.Binary
import Verif.Props.Compact
/-
C15: nesting depth.
-/

namespace Thrift
open Spec

/-! ## The counter is balanced -/

/-- C15, reading, both protocols: over any transport, whatever it answers (data, exceptions, an early
end), for any schema and mode: when reading a value or skipping one ends, by returning or by raising,
the recursion counter has its old value; a value returned by generated code has at most as many nested
structs as the counter allowed. -/
theorem depth_read_balanced (bcfg : Binary.Cfg) (ccfg : Compact.Cfg) (sch : Schema) (mode : Mode)
    (fuel d : Nat) (ty : Ty) (tt : Int) {τ : Type} (step : Nat → τ → Option (Except Exc Bytes × τ))
    (t t' : τ) :
    (∀ (s s' : Binary.St) r, (readVal (Binary.rd bcfg) sch mode fuel ty s).run step t = some ((r, s'), t') →
      s'.depth = s.depth ∧ ∀ v, r = .ok v → mode = .gen → Shallow sch (64 - s.depth) ty v) ∧
    (∀ (s s' : Binary.St) r, (skip (Binary.rd bcfg) fuel d tt s).run step t = some ((r, s'), t') →
      s'.depth = s.depth) ∧
    (∀ (s s' : Compact.St) r, (readVal (Compact.rd ccfg) sch mode fuel ty s).run step t = some ((r, s'), t') →
      s'.depth = s.depth ∧ ∀ v, r = .ok v → mode = .gen → Shallow sch (64 - s.depth) ty v) ∧
    (∀ (s s' : Compact.St) r, (skip (Compact.rd ccfg) fuel d tt s).run step t = some ((r, s'), t') →
      s'.depth = s.depth) :=
  ⟨fun s _ _ h => Prog.Always.run (readVal_bal (Binary.balOps bcfg) sch mode fuel ty s) step h,
    fun s _ _ h => (Prog.Always.run (skip_bal (Binary.balOps bcfg) fuel d tt s) step h).1,
    fun s _ _ h => Prog.Always.run (readVal_bal (Compact.balOps ccfg) sch mode fuel ty s) step h,
    fun s _ _ h => (Prog.Always.run (skip_bal (Compact.balOps ccfg) fuel d tt s) step h).1⟩

/-- C15, writing, both protocols: any Python value for any declared type, well-typed or not. -/
theorem depth_write_balanced (sch : Schema) (mode : Mode) (t : Ty) (v : Val) (out : Bytes) :
    (∀ (s s' : Binary.St) r out', writeVal Binary.wr sch mode t v s out = (r, s', out') →
      s'.depth = s.depth) ∧
    (∀ (s s' : Compact.St) r out', writeVal Compact.wr sch mode t v s out = (r, s', out') →
      s'.depth = s.depth) := by
  constructor
  · intro s s' r out' h
    have := writeVal_bal sch mode Binary.balWOps v t s out
    rwa [h] at this
  · intro s s' r out' h
    have := writeVal_bal sch mode Compact.balWOps v t s out
    rwa [h] at this

/-- A writer that fails three structs down: the counter is back at its value. -/
example : ∃ out', writeVal Binary.wr (fun _ => [{ fid := 1, ty := .struct 0 }, { fid := 2, ty := .byte }]) .gen
    (.struct 0)
    (.struct [some (.struct [some (.struct [none, some (.int 1000)]), none]), none]) ⟨7⟩ []
    = (.error .structError, ⟨7⟩, out') := ⟨_, rfl⟩

/-! ## More than 64 levels are refused -/

/-- C15, writing: the generated writer of a value with more nested structs than the counter leaves
room for raises `DEPTH_LIMIT`. -/
theorem depth_write_refused (sch : Schema) (t : Ty) (v : Val) (out : Bytes) (hs : SchemaOK .gen sch)
    (hv : WT sch t v) :
    (∀ s : Binary.St, s.depth ≤ 64 → 64 < s.depth + structDepth v →
      ∃ s' out', writeVal Binary.wr sch .gen t v s out = (.error TProtocolException.DEPTH_LIMIT, s', out')) ∧
    (∀ s : Compact.St, Compact.CanWrite t s → s.depth ≤ 64 → 64 < s.depth + structDepth v →
      ∃ s' out', writeVal Compact.wr sch .gen t v s out = (.error TProtocolException.DEPTH_LIMIT, s', out')) := by
  constructor
  · intro s h1 h2
    have hok : (Binary.lang none none).Ok () (toks sch t v) :=
      Binary.lang_Ok (toks_bounds sch (fun sid => (hs sid).1) v t hv (within_none v))
    exact write_deep sch hs (Binary.writerLaws none none) v t s () hv hok trivial h1 h2 out
  · intro s hc h1 h2
    obtain ⟨q, hr, ha, -, -⟩ := Compact.start_write hc
    have hg := Compact.good_value none none sch v t q hv ha
    have hok := hg.ok (toks_bounds sch (fun sid => (hs sid).1) v t hv (within_none v))
    exact write_deep sch hs (Compact.writerLaws none none) v t s q hv hok hr h1 h2 out

/-- C15, reading: the generated reader of the bytes of such a value raises `DEPTH_LIMIT`, whatever
follows them. -/
theorem depth_read_refused (bcfg : Binary.Cfg) (ccfg : Compact.Cfg) (sch : Schema) (t : Ty) (v : Val)
    (fuel : Nat) (rest : Bytes) (hs : SchemaOK .gen sch) (hv : WT sch t v) (hf : size v ≤ fuel) :
    (∀ s : Binary.St, WithinLimits bcfg.stringLimit bcfg.containerLimit v → s.depth ≤ 64 →
      64 < s.depth + structDepth v →
      ∃ s' b', exec (readVal (Binary.rd bcfg) sch .gen fuel t) s (Spec.Binary.value sch t v ++ rest)
        = some ((.error TProtocolException.DEPTH_LIMIT, s'), b')) ∧
    (∀ s : Compact.St, WithinLimits ccfg.stringLimit ccfg.containerLimit v → Compact.CanRead t s →
      s.depth ≤ 64 → 64 < s.depth + structDepth v →
      ∃ s' b', exec (readVal (Compact.rd ccfg) sch .gen fuel t) s (Spec.Compact.value sch t v ++ rest)
        = some ((.error TProtocolException.DEPTH_LIMIT, s'), b')) := by
  constructor
  · intro s hl h1 h2
    have hok : (Binary.lang bcfg.stringLimit bcfg.containerLimit).Ok () (toks sch t v) :=
      Binary.lang_Ok (toks_bounds sch (fun sid => (hs sid).1) v t hv hl)
    have := read_deep sch hs (Binary.readerLaws bcfg) v t fuel s () hv hok trivial h1 h2 hf
    unfold RaisesOn at this
    rw [Binary.enc_value _ _ sch v t () hv] at this
    exact this rest
  · intro s hl hc h1 h2
    obtain ⟨q, hr, ha, -, -⟩ := Compact.start_read hc
    have hg := Compact.good_value ccfg.stringLimit ccfg.containerLimit sch v t q hv ha
    have hok := hg.ok (toks_bounds sch (fun sid => (hs sid).1) v t hv hl)
    have := read_deep sch hs (Compact.readerLaws ccfg) v t fuel s q hv hok hr h1 h2 hf
    unfold RaisesOn at this
    rw [hg.enc] at this
    exact this rest

/-- C15, skipping: `skip` with its default budget refuses the bytes of a value nested more than 64
levels (containers count as levels). -/
theorem depth_skip_refused (bcfg : Binary.Cfg) (ccfg : Compact.Cfg) (sch : Schema) (t : Ty) (v : Val)
    (fuel : Nat) (rest : Bytes) (hs : ∀ sid, FieldsOK (sch sid)) (hv : WT sch t v)
    (hb : BinariesAreText IsUtf8 v) (hd : 64 < nesting v) (hf : size v ≤ fuel) :
    (∀ s : Binary.St, WithinLimits bcfg.stringLimit bcfg.containerLimit v →
      ∃ s' b', exec (skip (Binary.rd bcfg) fuel skipDepth t.ttype) s (Spec.Binary.value sch t v ++ rest)
        = some ((.error TProtocolException.DEPTH_LIMIT, s'), b')) ∧
    (∀ s : Compact.St, WithinLimits ccfg.stringLimit ccfg.containerLimit v → Compact.CanRead t s →
      ∃ s' b', exec (skip (Compact.rd ccfg) fuel skipDepth t.ttype) s (Spec.Compact.value sch t v ++ rest)
        = some ((.error TProtocolException.DEPTH_LIMIT, s'), b')) := by
  constructor
  · intro s hl
    have hok : (Binary.lang bcfg.stringLimit bcfg.containerLimit).Ok () (toks sch t v) :=
      Binary.lang_Ok (toks_bounds sch hs v t hv hl)
    have := skip_deep sch (Binary.readerLaws bcfg) v t fuel skipDepth s () hv hok trivial hd hf hb
    unfold RaisesOn at this
    rw [Binary.enc_value _ _ sch v t () hv] at this
    exact this rest
  · intro s hl hc
    obtain ⟨q, hr, ha, -, -⟩ := Compact.start_read hc
    have hg := Compact.good_value ccfg.stringLimit ccfg.containerLimit sch v t q hv ha
    have hok := hg.ok (toks_bounds sch hs v t hv hl)
    have := skip_deep sch (Compact.readerLaws ccfg) v t fuel skipDepth s q hv hok hr hd hf hb
    unfold RaisesOn at this
    rw [hg.enc] at this
    exact this rest

/-! ## Examples, and what the dynamic mode does -/

/-- A linked list of structs. -/
def chainSch : Schema := fun _ => [{ fid := 1, ty := .struct 0 }]
/-- `n + 1` nested structs. -/
def chain : Nat → Val
  | 0 => .struct [none]
  | n + 1 => .struct [some (chain n)]

theorem chainSch_ok (mode : Mode) : SchemaOK mode chainSch := by
  intro sid
  refine ⟨?_, fun _ => ?_⟩
  · simp [FieldsOK, chainSch, InRange]
  · simp [chainSch]

theorem chain_wt (n : Nat) : WT chainSch (.struct 0) (chain n) := by
  induction n with
  | zero => simp [chain, chainSch, WT, WTf]
  | succ n ih => simp only [chain, chainSch, WT, WTf, and_true]; exact ih

theorem chain_depth (n : Nat) : structDepth (chain n) = n + 1 := by
  induction n with
  | zero => rfl
  | succ n ih => simp only [chain, structDepth, structDepthf, ih]; omega

theorem chain_nesting (n : Nat) : nesting (chain n) = n + 1 := by
  induction n with
  | zero => rfl
  | succ n ih => simp only [chain, nesting, nestingf, ih]; omega

theorem chain_text (n : Nat) : BinariesAreText IsUtf8 (chain n) := by
  induction n with
  | zero => simp [chain, BinariesAreText, BinariesAreTextf]
  | succ n ih => simp only [chain, BinariesAreText, BinariesAreTextf, and_true]; exact ih

theorem chain_noDup (n : Nat) : NoDuplicates (chain n) := by
  induction n with
  | zero => simp [chain, NoDuplicates, NoDuplicatesf]
  | succ n ih => simp only [chain, NoDuplicates, NoDuplicatesf, and_true]; exact ih

theorem chain_noHidden (n : Nat) : NoHiddenDefault chainSch (.struct 0) (chain n) := by
  induction n with
  | zero => simp [chain, chainSch, NoHiddenDefault, NoHiddenDefaultf]
  | succ n ih => simp only [chain, chainSch, NoHiddenDefault, NoHiddenDefaultf, and_true]; exact ih

example : SchemaOK .gen chainSch ∧ WT chainSch (.struct 0) (chain 64) ∧
    64 < (0 : Int) + structDepth (chain 64) ∧ 64 < nesting (chain 64) ∧
    WithinLimits none none (chain 64) ∧ BinariesAreText IsUtf8 (chain 64) :=
  ⟨chainSch_ok .gen, chain_wt 64, by rw [chain_depth]; omega, by rw [chain_nesting]; omega,
    within_none _, chain_text 64⟩

/-- The dynamic reader and writer (`TProtocolBase.readStruct`, `writeStruct`) do not count: they accept
any depth. -/
theorem dynamic_depth_unbounded (n : Nat) (s : Binary.St) (rest : Bytes) :
    structDepth (chain n) = n + 1 ∧
    writeVal Binary.wr chainSch .dyn (.struct 0) (chain n) s []
      = (.ok (), s, Spec.Binary.value chainSch (.struct 0) (chain n)) ∧
    exec (readVal (Binary.rd {}) chainSch .dyn (size (chain n)) (.struct 0)) s
      (Spec.Binary.value chainSch (.struct 0) (chain n) ++ rest) = some ((.ok (chain n), s), rest) :=
  ⟨chain_depth n,
    Binary.binary_wire_format .dyn chainSch _ _ s [] (chainSch_ok .dyn) (chain_wt n) (fun h => by cases h),
    Binary.binary_roundtrip {} .dyn chainSch _ _ s _ rest (chainSch_ok .dyn) (chain_wt n)
      (chain_noHidden n) (chain_noDup n) (within_none _) (fun h => by cases h) (Nat.le_refl _)⟩

end Thrift
