import Verif.Props.Calls
/-
Properties C51 (calls after a failed call) and C52 (`TSerialization`).
-/

namespace Thrift
open Spec Rpc

/-! ## C51 -/

section
variable {σ ω : Type} [HasDepth σ]

/-- The arguments cannot be serialized: `send_*` raises before it flushes. -/
def FailsToWrite (p : Proto σ) (sch : Schema) (mode : Mode) (fn : Fn) (as : List (Option Val)) (c : Client σ ω)
    (e : Exc) : Prop :=
  (message p fn.name (if fn.oneway then 4 else 1) c.seqid
    (writeVal p.wr sch mode (.struct fn.argsId) (.struct as)) c.prot c.buf).1 = .error e

/-- Property C51 as stated, for a protocol over a transport that hands over everything at `flush`: after
a call that failed like that, every call transmits and returns the same as without the failed call. -/
def CleanAfterFailure (p : Proto σ) (Idle : σ → Prop) : Prop :=
  ∀ (fl : Bytes → List Bytes → Except Exc Unit × List Bytes) (sch : Schema) (mode : Mode) (fn fn' : Fn)
    (as as' : List (Option Val)) (c : Client σ (List Bytes)) (e : Exc), Idle c.prot → c.buf = [] →
    FailsToWrite p sch mode fn as c e →
    (send p fl sch mode fn' as' (send p fl sch mode fn as c).2).1 = (send p fl sch mode fn' as' c).1 ∧
    (send p fl sch mode fn' as' (send p fl sch mode fn as c).2).2.sink = (send p fl sch mode fn' as' c).2.sink

theorem message_type (fn : Fn) : (if fn.oneway then TMessageType.ONEWAY else TMessageType.CALL) =
    (((if fn.oneway then 4 else 1 : Nat)) : Int) := by split <;> rfl

/-- C51, the part that holds: the failed call itself raises the exception of the writer and transmits
nothing. -/
theorem failed_call_partial (p : Proto σ) (fl : Bytes → ω → Except Exc Unit × ω) (sch : Schema) (mode : Mode)
    (fn : Fn) (as : List (Option Val)) (c : Client σ ω) (e : Exc) (h : FailsToWrite p sch mode fn as c e) :
    (send p fl sch mode fn as c).1 = .error e ∧ (send p fl sch mode fn as c).2.sink = c.sink ∧
      (send p fl sch mode fn as c).2.seqid = c.seqid := by
  unfold FailsToWrite at h
  have hc : ((if fn.oneway then 4 else 1 : Int)) = (if fn.oneway then TMessageType.ONEWAY else TMessageType.CALL) := by
    split <;> rfl
  rw [hc] at h
  unfold send
  simp only
  generalize message p fn.name _ _ _ c.prot c.buf = r at h ⊢
  obtain ⟨r, s, b⟩ := r
  simp only at h
  subst h
  exact ⟨rfl, rfl, rfl⟩

/-- C51, the other kind of failure: if the arguments were serialized and the transport raised, the next
call transmits one clean message. -/
theorem failed_flush_clean {p : Proto σ} {F : Format} {Idle : σ → Prop} (hp : Sends p F Idle)
    (fl : Bytes → ω → Except Exc Unit × ω) (mode : Mode) (sch : Schema) (fn fn' : Fn) (as as' : List (Option Val))
    (c : Client σ ω) (hi : Idle c.prot) (hb : c.buf = []) (hn : TextOK fn.name) (hn' : TextOK fn'.name)
    (hq : InRange 32 c.seqid) (hs : SchemaOK mode sch)
    (hv : WT sch (.struct fn.argsId) (.struct as)) (hd : mode = .gen → structDepth (.struct as) ≤ 64)
    (hv' : WT sch (.struct fn'.argsId) (.struct as')) (hd' : mode = .gen → structDepth (.struct as') ≤ 64) :
    ∃ msg msg', msg = F.header fn.name (if fn.oneway then 4 else 1) c.seqid ++
        F.value sch (.struct fn.argsId) (.struct as) ∧
      msg' = F.header fn'.name (if fn'.oneway then 4 else 1) c.seqid ++
        F.value sch (.struct fn'.argsId) (.struct as') ∧
      (send p fl sch mode fn as c).1 = (fl msg c.sink).1 ∧
      (send p fl sch mode fn as c).2.sink = (fl msg c.sink).2 ∧
      (send p fl sch mode fn' as' (send p fl sch mode fn as c).2).1 = (fl msg' (fl msg c.sink).2).1 ∧
      (send p fl sch mode fn' as' (send p fl sch mode fn as c).2).2.sink = (fl msg' (fl msg c.sink).2).2 := by
  refine ⟨_, _, rfl, rfl, ?_⟩
  obtain ⟨s', hi', e⟩ := send_transmits hp fl mode sch fn as c hi hn hq hs hv hd
  rw [hb, List.nil_append] at e
  rw [e]
  obtain ⟨s'', -, e'⟩ := send_transmits hp fl mode sch fn' as' { c with prot := s', buf := [], sink := _ } hi' hn' hq
    hs hv' hd'
  rw [e']
  exact ⟨rfl, rfl, rfl, rfl⟩

end

/-- C51 fails for the binary protocol: what was written before the failure is transmitted in front of the
next message. For every failed call and every good call after it: -/
theorem binary_failed_call_prefixes {ω : Type} (cfg : Binary.Cfg) (hcfg : cfg.strictWrite = true)
    (fl : Bytes → ω → Except Exc Unit × ω) (mode : Mode) (sch : Schema) (fn fn' : Fn) (as as' : List (Option Val))
    (c : Client Binary.St ω) (e : Exc) (hi : Binary.Idle c.prot)
    (hfail : FailsToWrite (Binary.proto cfg) sch mode fn as c e) (hn' : TextOK fn'.name)
    (hq : InRange 32 c.seqid) (hs : SchemaOK mode sch) (hv' : WT sch (.struct fn'.argsId) (.struct as'))
    (hd' : mode = .gen → structDepth (.struct as') ≤ 64) :
    ∃ left msg', msg' = Spec.Binary.messageStrict fn'.name (if fn'.oneway then 4 else 1) c.seqid ++
        Spec.Binary.value sch (.struct fn'.argsId) (.struct as') ∧
      left = (send (Binary.proto cfg) fl sch mode fn as c).2.buf ∧
      send (Binary.proto cfg) fl sch mode fn' as' (send (Binary.proto cfg) fl sch mode fn as c).2
        = ((fl (left ++ msg') c.sink).1, { c with buf := [], sink := (fl (left ++ msg') c.sink).2 }) := by
  have h1 := failed_call_partial (Binary.proto cfg) fl sch mode fn as c e hfail
  have hdep : (send (Binary.proto cfg) fl sch mode fn as c).2.prot = c.prot := by
    have hstr : ∀ x, BalW (Binary.writeString x) := Binary.balWOps.string
    have hint : ∀ x, BalW (Binary.writeI32 x) := Binary.balWOps.i32
    have hbal : BalW (message (Binary.proto cfg) fn.name (if fn.oneway then TMessageType.ONEWAY else TMessageType.CALL)
        c.seqid (writeVal Binary.wr sch mode (.struct fn.argsId) (.struct as))) := by
      refine BalW.bind ?_ fun _ => BalW.bind (writeVal_bal sch mode Binary.balWOps _ _) fun _ => BalW.pure _
      show BalW (Binary.writeMessageBegin cfg fn.name _ c.seqid)
      unfold Binary.writeMessageBegin
      rw [if_pos hcfg]
      exact BalW.bind (hint _) fun _ => BalW.bind (hstr _) fun _ => hint _
    have h2 := hbal c.prot c.buf
    unfold send
    simp only
    revert h2
    show HasDepth.depth (message (Binary.proto cfg) fn.name _ c.seqid
      (writeVal (Binary.proto cfg).wr sch mode (.struct fn.argsId) (.struct as)) c.prot c.buf).2.1 = _ → _
    cases message (Binary.proto cfg) fn.name (if fn.oneway then TMessageType.ONEWAY else TMessageType.CALL) c.seqid
      (writeVal (Binary.proto cfg).wr sch mode (.struct fn.argsId) (.struct as)) c.prot c.buf with
    | mk r sb =>
      obtain ⟨s, b⟩ := sb
      intro h2
      have hs : s = c.prot := by
        cases s
        cases hc : c.prot
        rw [hc] at h2
        exact congrArg _ h2
      subst hs
      cases r <;> rfl
  refine ⟨_, _, rfl, rfl, ?_⟩
  obtain ⟨s', hi', e'⟩ := send_transmits (Binary.writes cfg hcfg) fl mode sch fn' as'
    (send (Binary.proto cfg) fl sch mode fn as c).2 (by rw [hdep]; exact hi) hn' (by rw [h1.2.2]; exact hq) hs hv' hd'
  have hs' : s' = c.prot := by
    cases s'
    cases hc : c.prot
    rw [hc] at hi
    simp only [Binary.Idle] at hi hi'
    rw [hi, hi']
  rw [e', h1.2.1, h1.2.2, hs']
  rfl

/-- A concrete case: `get(2147483648, "")` fails with `struct.error`; then `clear()` is transmitted behind the
rest of it. -/
theorem binary_failed_call_leaks : ¬ CleanAfterFailure (Binary.proto {}) Binary.Idle := by
  intro h
  have := (h (fun b w => (.ok (), w ++ [b])) SampleService.sch .gen SampleService.get SampleService.clear
    [some (.int 2147483648), some (.str [])] [] { prot := {}, sink := [] } .structError rfl rfl (by
      unfold FailsToWrite; decide +kernel)).2
  revert this
  decide +kernel

/-- The compact protocol object stays in the state it had at the failure; unless that is the state between
messages, every following call raises `AssertionError` and nothing is ever transmitted again. -/
theorem compact_stuck {ω : Type} (cfg : Compact.Cfg) (fl : Bytes → ω → Except Exc Unit × ω) (sch : Schema)
    (mode : Mode) (fn : Fn) (as : List (Option Val)) (c : Client Compact.St ω) (h : c.prot.state ≠ .CLEAR) :
    send (Compact.proto cfg) fl sch mode fn as c = (.error .assertion, c) := by
  have hm : ∀ type body, message (Compact.proto cfg) fn.name type c.seqid body c.prot c.buf
      = (.error .assertion, c.prot, c.buf) := by
    intro type body
    unfold message
    refine W.bind_error ?_
    show Compact.writeMessageBegin fn.name type c.seqid c.prot c.buf = _
    unfold Compact.writeMessageBegin
    simp [W.bind_eq, W.get, W.assert, W.raise, h]
  unfold send
  simp only [hm]

/-- C51 fails for the compact protocol: `get(1, "\ud800")` raises `UnicodeEncodeError`; then `clear()` raises. -/
theorem compact_failed_call_sticks : ¬ CleanAfterFailure (Compact.proto {}) Compact.Idle := by
  intro h
  have := (h (fun b w => (.ok (), w ++ [b])) SampleService.sch .gen SampleService.get SampleService.clear
    [some (.int 1), some (.str [0xD800])] [] { prot := {}, sink := [] } .unicodeError ⟨rfl, rfl, rfl⟩ rfl (by
      unfold FailsToWrite; decide +kernel)).2
  revert this
  decide +kernel

/-! ## C52 -/

/-- C52, `TBinaryProtocolFactory()`: `deserialize(base, serialize(x))` is `x`. -/
theorem serialization_binary (cfg : Binary.Cfg) (mode : Mode) (sch : Schema) (sid : Nat) (v : Val) (fuel : Nat)
    (hs : SchemaOK mode sch) (hv : Sendable cfg.stringLimit cfg.containerLimit mode sch sid v fuel) :
    ∃ b, serialize (Binary.proto cfg) {} sch mode sid v = .ok b ∧
      deserialize (Binary.proto cfg) {} sch mode fuel sid b = some (.ok v) := by
  refine ⟨Spec.Binary.value sch (.struct sid) v, ?_, ?_⟩
  · unfold serialize
    have := Binary.binary_wire_format mode sch (.struct sid) v {} [] hs hv.typed
      (fun m => by have := hv.depth m; simp only; omega)
    rw [List.nil_append] at this
    simp only [show (Binary.proto cfg).wr = Binary.wr from rfl, this]
  · have := Binary.binary_roundtrip cfg mode sch (.struct sid) v {} fuel [] hs hv.typed hv.hidden hv.duplicates
      hv.limits (fun m => by have := hv.depth m; simp only; omega) hv.fuel
    rw [List.append_nil] at this
    unfold deserialize
    show (exec (readVal (Binary.rd cfg) sch mode fuel (.struct sid)) {} _).map _ = _
    rw [this]
    rfl

/-- C52, `TCompactProtocolFactory()`. -/
theorem serialization_compact (cfg : Compact.Cfg) (mode : Mode) (sch : Schema) (sid : Nat) (v : Val) (fuel : Nat)
    (hs : SchemaOK mode sch) (hv : Sendable cfg.stringLimit cfg.containerLimit mode sch sid v fuel) :
    ∃ b, serialize (Compact.proto cfg) {} sch mode sid v = .ok b ∧
      deserialize (Compact.proto cfg) {} sch mode fuel sid b = some (.ok v) := by
  refine ⟨Spec.Compact.value sch (.struct sid) v, ?_, ?_⟩
  · unfold serialize
    obtain ⟨s', this, -⟩ := Compact.compact_wire_format mode sch (.struct sid) v {} [] hs hv.typed
      (.inr (.inr ⟨rfl, sid, rfl⟩)) (fun m => by have := hv.depth m; simp only; omega)
    rw [List.nil_append] at this
    simp only [show (Compact.proto cfg).wr = Compact.wr from rfl, this]
  · obtain ⟨s', -, this⟩ := Compact.compact_roundtrip cfg mode sch (.struct sid) v {} fuel hs hv.typed hv.hidden
      hv.duplicates hv.limits (.inr (.inr ⟨rfl, sid, rfl⟩)) (fun m => by have := hv.depth m; simp only; omega) hv.fuel
    have := this []
    rw [List.append_nil] at this
    unfold deserialize
    show (exec (readVal (Compact.rd cfg) sch mode fuel (.struct sid)) {} _).map _ = _
    rw [this]
    rfl

example : Sendable none none .gen SampleService.sch 1 (.struct SampleService.args) 100 :=
  ⟨(SampleService.args_sendable .gen).typed, (SampleService.args_sendable .gen).hidden,
    (SampleService.args_sendable .gen).duplicates, by
      simp [SampleService.args, WithinLimits, Sizes, Sizesf, Within],
    (SampleService.args_sendable .gen).depth, (SampleService.args_sendable .gen).fuel⟩

end Thrift
