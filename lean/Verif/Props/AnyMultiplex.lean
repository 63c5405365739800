import Verif.Props.AnyProtocol
import Verif.Props.Multiplex
/-
C34 over any protocol, the JSON protocol included, and over any transport that delivers the messages.
-/

namespace Thrift
open Spec Rpc
open Spec.Decorator (Linear)

section
variable {σ τ χ ω κ ω' : Type} [HasDepth σ] [HasDepth τ] [HasDepth κ]

omit [HasDepth σ] [HasDepth τ] in
/-- A message that is routed to a processor: it runs on a copy of the object that knows the header already. -/
theorem multi_ran {ops : List (Registration σ τ χ ω)} {full name : PyStr} {proc : Processor σ τ χ ω} (hroute : Routed ops full name proc) {p : Proto σ}
    (hl : Linear p.mro) (hst : .stored ∉ p.mro) {type : Nat} (ht : type = 1 ∨ type = 4) {seqid : Int} {c : Call σ τ χ ω}
    {ν : Type} {net : Nat → ν → Option (Except Exc Bytes × ν)} {t x₁ : ν} {s₁ : σ}
    (e₁ : Ran net p.readMessageBegin c.inp t (full, (type : Int), seqid) s₁ x₁) : ∃ mro, ∀ r c' x,
      (proc { p with mro := mro, readMessageBegin := pure (name, (type : Int), seqid) } { c with inp := s₁ }).run net x₁ = some ((r, c'), x) →
      (multiProcess (registry ops) p c).run net t = some ((r, { c' with inp := p.share s₁ c'.inp }), x) := by
  obtain ⟨mro, _, hs⟩ := storedClass_ok hl hst (name, (type : Int), seqid)
  refine ⟨mro, fun r c' x e => ?_⟩
  have hd : dispatch (registry ops) p (full, (type : Int), seqid) = stored proc p (name, (type : Int), seqid) := by
    unfold dispatch
    rw [if_neg (by simp only [TMessageType.CALL, TMessageType.ONEWAY]; omega)]
    cases hroute with
    | service service name hsep hreg =>
      obtain ⟨pre, post, rfl, hlast⟩ := hreg
      have hfind := registry_services pre post service proc hlast
      simp only [splitFirst_some hsep]
      cases hf : (registry (pre ++ .service service proc :: post)).services.find? (·.1 == service) with
      | none => rw [hf] at hfind; cases hfind
      | some x =>
        obtain ⟨n, q⟩ := x
        rw [hf] at hfind
        simp only [Option.map_some, Option.some.injEq] at hfind
        subst hfind
        rfl
    | default name hsep hreg =>
      obtain ⟨pre, post, rfl, hlast⟩ := hreg
      simp only [splitFirst_none.mpr hsep, registry_default pre post _ hlast]
  unfold multiProcess
  rw [(ran_onIn e₁).bind, hd]
  unfold stored
  rw [hs]
  dsimp only
  rw [Prog.run_bind, e]
  rfl

omit [HasDepth σ] [HasDepth τ] in
theorem ran_pure {α : Type} (a : α) (s : σ) {ν : Type} (net : Nat → ν → Option (Except Exc Bytes × ν)) (x : ν) :
    Ran net (pure a : P σ α) s x a s x := rfl

/-- C34: a two-way call to a service of a multiplexer, whatever the protocol and however the transport cuts the request into pieces. -/
theorem any_multiplexed_reply (env : Env σ τ ω) (h : Handler χ) (cb : Option (PyStr → Int → Int → χ → Except Exc Unit × χ)) (fns : List Fn)
    (ops : List (Registration σ τ χ ω)) (full name : PyStr) (hroute : Routed ops full name (process env h cb fns)) {p : Proto σ} (hl : Linear p.mro)
    (hst : .stored ∉ p.mro) {F G : Format} {Idle : σ → Prop} {IdleOut : τ → Prop} {A : Acceptance} (hp : Hears p F Idle A) (hq : Sends env.q G IdleOut)
    (c : Call σ τ χ ω) (hi : Idle c.inp) (ho : IdleOut c.out) (hbuf : c.buf = []) (type : Nat) (htype : type = 1 ∨ type = 4) (seqid : Int) (fn : Fn)
    (hh : Heads A full type seqid) (hn : TextOK name) (hfn : Serves fns name fn)
    (htwo : fn.oneway = false) (hres : ResultOK env.sch fn) (X : Schema) (v : Val) (hv : Suits A env.mode X env.sch fn.argsId v env.fuel) (app₁ app₂ : χ)
    (hcb : Began cb name type seqid c.app app₁) (o : Outcome) (hrun : h fn (attrsOf (project X env.sch (.struct fn.argsId) v)) app₁ = (o, app₂))
    (type' : Nat) (sch' : Schema) (sid' : Nat) (w : Val) (hans : Answers env.sch fn o type' sch' sid' w) (hw : WT sch' (.struct sid') w)
    (hdep : structDepth w ≤ 64) (ν : Type) (net : Nat → ν → Option (Except Exc Bytes × ν)) (left : ν → Bytes) (hd : DeliversUntil net left) (t : ν) (more : Bytes)
    (hx : left t = F.header full type seqid ++ F.value X (.struct fn.argsId) v ++ more) :
    ∃ s' o' t', Idle s' ∧ IdleOut o' ∧ left t' = more ∧ (multiProcess (registry ops) p c).run net t =
      some (((env.flush (G.header name type' seqid ++ G.value sch' (.struct sid') w) c.sink).1,
          { inp := s', out := o', buf := [], app := app₂
            sink := (env.flush (G.header name type' seqid ++ G.value sch' (.struct sid') w) c.sink).2 }), t') := by
  obtain ⟨s₁, x₁, s₂, x₂, s₃, x₃, e₁, e₂, e₃, hi₃, hm, hsh⟩ := hp.message full type seqid env.mode X env.sch fn.argsId v env.fuel c.inp ν net left t more hh hv hi hd hx
  obtain ⟨mro, e⟩ := multi_ran hroute hl hst htype e₁
  obtain ⟨o', ho', e'⟩ := reply_ran env h cb fns (p := { p with mro := mro, readMessageBegin := pure (name, (type : Int), seqid) }) hq { c with inp := s₁ } ho hbuf name hn
    type seqid hh.range fn hfn htwo hv.receiver hres _ app₁ app₂ hcb o hrun type' sch' sid' w hans hw hdep
  exact ⟨_, o', x₃, hsh, ho', hm, e _ _ _ (e' _ _ _ _ _ _ _ _ _ (ran_pure _ s₁ net x₁) e₂ e₃)⟩

/-- C34: a oneway call -/
theorem any_multiplexed_silent (env : Env σ τ ω) (h : Handler χ) (cb : Option (PyStr → Int → Int → χ → Except Exc Unit × χ)) (fns : List Fn)
    (ops : List (Registration σ τ χ ω)) (full name : PyStr) (hroute : Routed ops full name (process env h cb fns)) {p : Proto σ} (hl : Linear p.mro)
    (hst : .stored ∉ p.mro) {F : Format} {Idle : σ → Prop} {A : Acceptance} (hp : Hears p F Idle A)
    (c : Call σ τ χ ω) (hi : Idle c.inp) (type : Nat) (htype : type = 1 ∨ type = 4) (seqid : Int) (fn : Fn)
    (hh : Heads A full type seqid) (hfn : Serves fns name fn) (hone : fn.oneway = true) (X : Schema) (v : Val)
    (hv : Suits A env.mode X env.sch fn.argsId v env.fuel) (app₁ app₂ : χ) (hcb : Began cb name type seqid c.app app₁) (o : Outcome)
    (hrun : h fn (attrsOf (project X env.sch (.struct fn.argsId) v)) app₁ = (o, app₂)) (h1 : ∀ t, o ≠ .transport t) (h2 : ∀ n, o ≠ .base n)
    (ν : Type) (net : Nat → ν → Option (Except Exc Bytes × ν)) (left : ν → Bytes) (hd : DeliversUntil net left) (t : ν) (more : Bytes)
    (hx : left t = F.header full type seqid ++ F.value X (.struct fn.argsId) v ++ more) :
    ∃ s' t', Idle s' ∧ left t' = more ∧ (multiProcess (registry ops) p c).run net t = some ((.ok (), { c with inp := s', app := app₂ }), t') := by
  obtain ⟨s₁, x₁, s₂, x₂, s₃, x₃, e₁, e₂, e₃, hi₃, hm, hsh⟩ := hp.message full type seqid env.mode X env.sch fn.argsId v env.fuel c.inp ν net left t more hh hv hi hd hx
  obtain ⟨mro, e⟩ := multi_ran hroute hl hst htype e₁
  have e' := silent_ran env h cb fns (p := { p with mro := mro, readMessageBegin := pure (name, (type : Int), seqid) }) { c with inp := s₁ } name
    type seqid fn hfn hone _ app₁ app₂ hcb o hrun h1 h2 (ran_pure _ s₁ net x₁) e₂ e₃
  exact ⟨_, x₃, hsh, hm, e _ _ _ e'⟩

/-- C34: a method that the service does not have: `UNKNOWN_METHOD`, with the name without the service -/
theorem any_multiplexed_unknown (env : Env σ τ ω) (h : Handler χ) (cb : Option (PyStr → Int → Int → χ → Except Exc Unit × χ)) (fns : List Fn)
    (ops : List (Registration σ τ χ ω)) (full name : PyStr) (hroute : Routed ops full name (process env h cb fns)) {p : Proto σ} (hl : Linear p.mro)
    (hst : .stored ∉ p.mro) {F G : Format} {Idle : σ → Prop} {IdleOut : τ → Prop} {A : Acceptance} (hp : Hears p F Idle A) (hq : Sends env.q G IdleOut)
    (c : Call σ τ χ ω) (hi : Idle c.inp) (ho : IdleOut c.out) (hbuf : c.buf = []) (type : Nat) (htype : type = 1 ∨ type = 4) (seqid : Int)
    (hh : Heads A full type seqid) (hn : TextOK name) (hfn : ∀ g ∈ fns, g.name ≠ name)
    (X : Schema) (sid : Nat) (v : Val) (hv : Skips A X sid v env.fuel) (app₁ : χ) (hcb : Began cb name type seqid c.app app₁) (hx : AppOK (unknownMethod name))
    (ν : Type) (net : Nat → ν → Option (Except Exc Bytes × ν)) (left : ν → Bytes) (hd : DeliversUntil net left) (t : ν) (more : Bytes)
    (ht : left t = F.header full type seqid ++ F.value X (.struct sid) v ++ more) :
    ∃ s' o' t', Idle s' ∧ IdleOut o' ∧ left t' = more ∧ (multiProcess (registry ops) p c).run net t =
      some (((env.flush (G.header name 3 seqid ++ G.app (unknownMethod name)) c.sink).1,
          { inp := s', out := o', buf := [], app := app₁
            sink := (env.flush (G.header name 3 seqid ++ G.app (unknownMethod name)) c.sink).2 }), t') := by
  obtain ⟨s₁, x₁, s₂, x₂, s₃, x₃, e₁, e₂, e₃, hi₃, hm, hsh⟩ := hp.skip full type seqid X sid v env.fuel c.inp ν net left t more hh hv hi hd ht
  obtain ⟨mro, e⟩ := multi_ran hroute hl hst htype e₁
  obtain ⟨o', ho', e'⟩ := unknown_ran env h cb fns (p := { p with mro := mro, readMessageBegin := pure (name, (type : Int), seqid) }) hq { c with inp := s₁ } ho hbuf name hn
    type seqid hh.range hfn app₁ hcb hx
  exact ⟨_, o', x₃, hsh, ho', hm, e _ _ _ (e' _ _ _ _ _ _ _ _ _ (ran_pure _ s₁ net x₁) e₂ e₃)⟩

omit [HasDepth τ] in
/-- C34: a message that is not routed: `process` raises; no processor runs, nothing is written. -/
theorem any_multiplexed_refused (ops : List (Registration σ τ χ ω)) (full : PyStr) (type : Nat) (hno : Unrouted ops full ∨ ¬ (type = 1 ∨ type = 4))
    {p : Proto σ} {F : Format} {Idle : σ → Prop} {A : Acceptance} (hp : Hears p F Idle A)
    (c : Call σ τ χ ω) (hi : Idle c.inp) (seqid : Int) (hh : Heads A full type seqid) (X : Schema) (sid : Nat) (v : Val) (fuel : Nat) (hv : Skips A X sid v fuel)
    (ν : Type) (net : Nat → ν → Option (Except Exc Bytes × ν)) (left : ν → Bytes) (hd : DeliversUntil net left) (t : ν) (more : Bytes)
    (ht : left t = F.header full type seqid ++ F.value X (.struct sid) v ++ more) :
    ∃ s' t', (multiProcess (registry ops) p c).run net t = some ((.error TProtocolException.NOT_IMPLEMENTED, { c with inp := s' }), t') := by
  obtain ⟨s₁, x₁, s₂, x₂, s₃, x₃, e₁, -⟩ := hp.skip full type seqid X sid v fuel c.inp ν net left t more hh hv hi hd ht
  refine ⟨s₁, x₁, ?_⟩
  have hdis : dispatch (registry ops) p (full, (type : Int), seqid) = P.raise TProtocolException.NOT_IMPLEMENTED := by
    unfold dispatch
    by_cases htype : type = 1 ∨ type = 4
    · rw [if_neg (by simp only [TMessageType.CALL, TMessageType.ONEWAY]; omega)]
      rcases hno with hno | hno
      · cases hno with
        | service service name hsep hreg => simp only [splitFirst_some hsep, registry_unknown ops service hreg]
        | default hsep hreg => simp only [splitFirst_none.mpr hsep, registry_no_default ops hreg]
      · exact absurd htype hno
    · rw [if_pos (by simp only [TMessageType.CALL, TMessageType.ONEWAY]; omega)]
  unfold multiProcess
  rw [(ran_onIn e₁).bind, hdis]
  rfl

theorem splitFirst_inv {c : Nat} {s a b : PyStr} (h : splitFirst c s = some (a, b)) : s = a ++ [c] ++ b ∧ c ∉ a := by
  induction s generalizing a b with
  | nil => cases h
  | cons x xs ih =>
    unfold splitFirst at h
    split at h
    · rename_i e
      subst e
      simp only [Option.some.injEq, Prod.mk.injEq] at h
      obtain ⟨rfl, rfl⟩ := h
      simp
    · rename_i hne
      split at h
      · cases h
      · rename_i a' b' hs
        simp only [Option.some.injEq, Prod.mk.injEq] at h
        obtain ⟨rfl, rfl⟩ := h
        obtain ⟨h1, h2⟩ := ih hs
        exact ⟨by rw [h1]; simp, by simp [h2, Ne.symm hne]⟩

omit [HasDepth σ] [HasDepth τ] in
theorem last_registration {ops : List (Registration σ τ χ ω)} {α : Type} (f : α → Registration σ τ χ ω) (h : ∃ q, f q ∈ ops) :
    ∃ q pre post, ops = pre ++ f q :: post ∧ ∀ q, f q ∉ post := by
  induction ops with
  | nil => obtain ⟨q, hq⟩ := h; cases hq
  | cons op ops ih =>
    by_cases ho : ∃ q, f q ∈ ops
    · obtain ⟨q, pre, post, rfl, h2⟩ := ih ho
      exact ⟨q, op :: pre, post, rfl, h2⟩
    · obtain ⟨q, hq⟩ := h
      rcases List.mem_cons.1 hq with rfl | hq
      · exact ⟨q, [], ops, rfl, fun q hq => ho ⟨q, hq⟩⟩
      · exact absurd ⟨q, hq⟩ ho

omit [HasDepth σ] [HasDepth τ] in
/-- C34: every name is one or the other. -/
theorem routed_or_not (ops : List (Registration σ τ χ ω)) (full : PyStr) : Unrouted ops full ∨ ∃ name proc, Routed ops full name proc := by
  cases hs : splitFirst 58 full with
  | none =>
    have hsep := splitFirst_none.mp hs
    by_cases hd : ∃ q, .default q ∈ ops
    · obtain ⟨proc, h⟩ := last_registration .default hd
      exact .inr ⟨full, proc, .default full hsep h⟩
    · exact .inl (.default hsep (fun q hq => hd ⟨q, hq⟩))
  | some ab =>
    obtain ⟨a, b⟩ := ab
    obtain ⟨rfl, hsep⟩ := splitFirst_inv hs
    by_cases hd : ∃ q, .service a q ∈ ops
    · obtain ⟨proc, h⟩ := last_registration (.service a) hd
      exact .inr ⟨b, proc, .service a b hsep h⟩
    · exact .inl (.service a b hsep (fun q hq => hd ⟨q, hq⟩))

omit [HasDepth τ] [HasDepth κ] in
/-- The replies are read as before. -/
theorem multiplexed_hears {p q : Proto σ} {F : Format} {Idle : σ → Prop} {A : Acceptance} (hp : Hears p F Idle A)
    {service : PyStr} (hm : multiplexed p service = .ok q) : Hears q F Idle A := by
  unfold multiplexed at hm
  split at hm
  · cases hm
  · injection hm with hm
    subst hm
    exact ⟨hp.message, hp.skip⟩

/-- C34: a two-way call from a client with `TMultiplexedProtocol(.., service)` to a server with a `TMultiplexedProcessor` at which the service is
registered, over any protocols and transports, and between two versions of the service: as without multiplexing (`any_call_across`). There are a request
and a reply such that

* the client writes exactly the request and flushes it,
* a server whose transport delivers it, in whatever pieces, runs the handler of that service once, with the arguments as its own version reads them,
  consumes exactly the request, and writes and flushes exactly the reply,
* the client whose transport delivers that, in whatever pieces, consumes exactly the reply and returns or raises what the handler did, as its own
  version reads it. -/
theorem any_multiplexed_call (env : Env σ τ ω) (h : Handler χ) (cb : Option (PyStr → Int → Int → χ → Except Exc Unit × χ)) (fns : List Fn)
    -- the protocols on both sides
    {p : Proto σ} {pc qc : Proto κ} {F G : Format} {Idle : σ → Prop} {IdleOut : τ → Prop} {IdleC : κ → Prop} {A AC : Acceptance} (hp : Hears p F Idle A)
    (hq : Sends env.q G IdleOut) (hpc : Sends pc F IdleC) (hrc : Hears pc G IdleC AC) (fl : Bytes → ω' → Except Exc Unit × ω') (mode : Mode) (fuel : Nat)
    -- the multiplexing on both sides
    (hl : Linear p.mro) (hst : .stored ∉ p.mro) (service : PyStr) (hsep : 58 ∉ service) (hqc : multiplexed pc service = .ok qc)
    (ops : List (Registration σ τ χ ω)) (hreg : Registered ops service (process env h cb fns))
    -- the versions, the function, its arguments
    (X : Schema) (hX : SchemaOK mode X) (c s : Fn) (hV : Versions X env.sch c s) (hfn : Serves fns s.name s) (htwo : s.oneway = false)
    (hc : ResultOK X c) (hres : ResultOK env.sch s) (seqid : Int) (hh : Heads A (service ++ [58] ++ s.name) 1 seqid) (as bs : List (Option Val))
    (has : Suits A env.mode X env.sch s.argsId (.struct as) env.fuel) (hdepth : mode = .gen → structDepth (.struct as) ≤ 64) (hnd : NoDuplicates (.struct as))
    (hbs : Reads X env.sch (.struct s.argsId) (.struct as) (.struct bs))
    -- what the handler does
    (app app₁ app₂ : χ) (hcb : Began cb s.name 1 seqid app app₁) (o : Outcome) (hrun : h s bs app₁ = (o, app₂)) (type : Nat) (sch' : Schema) (sid' : Nat)
    (w : Val) (hans : Answers env.sch s o type sch' sid' w) (hh' : Heads AC s.name type seqid)
    (hw2 : type = 2 → Suits AC mode env.sch X s.resultId w fuel ∧ NoDuplicates w)
    (hw3 : type = 3 → 5 ≤ fuel ∧ ∃ x, w = appVal x ∧ AppOK x ∧ AC.value appSchema 0 w) (hd : structDepth w ≤ 64) :
    ∃ (req rep : Bytes) (r : Result), ToldAcross X env.sch c s o r ∧
      (∀ x : Client κ ω', IdleC x.prot → x.buf = [] → x.seqid = seqid → ∃ s', IdleC s' ∧
        send qc fl X mode c as x = ((fl req x.sink).1, { x with prot := s', sink := (fl req x.sink).2 })) ∧
      (∀ (ν : Type) (net : Nat → ν → Option (Except Exc Bytes × ν)) (left : ν → Bytes) (x : Call σ τ χ ω) (t : ν) (more : Bytes),
        DeliversUntil net left → Idle x.inp → IdleOut x.out → x.buf = [] → x.app = app → left t = req ++ more →
        ∃ s' o' t', Idle s' ∧ IdleOut o' ∧ left t' = more ∧ (multiProcess (registry ops) p x).run net t =
          some (((env.flush rep x.sink).1, { inp := s', out := o', buf := [], app := app₂, sink := (env.flush rep x.sink).2 }), t')) ∧
      (∀ (ν : Type) (net : Nat → ν → Option (Except Exc Bytes × ν)) (left : ν → Bytes) (x : κ) (t : ν) (more : Bytes),
        DeliversUntil net left → IdleC x → left t = rep ++ more →
        ∃ s' t', IdleC s' ∧ left t' = more ∧ (recv qc X mode fuel c x).run net t = some ((.ok r, s'), t')) := by
  have hbs' : project X env.sch (.struct s.argsId) (.struct as) = .struct bs :=
    reads_unique (project_reads X env.sch (fun sid => (has.sender sid).1) has.versions _ _ has.typed hnd) hbs
  obtain ⟨r, htold, hwt, hcl⟩ := any_received (multiplexed_hears hrc hqc) mode fuel X env.sch c s hV hc hres seqid o type sch' sid' w hans hh' hw2 hw3
  refine ⟨F.header (service ++ [58] ++ s.name) 1 seqid ++ F.value X (.struct s.argsId) (.struct as), G.header s.name type seqid ++ G.value sch' (.struct sid') w, r, htold,
    ?_, ?_, hcl⟩
  · intro x hi hb hsq
    obtain ⟨s', msg, hi', rfl, e⟩ := multiplexed_send hpc fl service hqc mode X c as x hi (by rw [hV.name]; exact hh.text) (by rw [hV.name]; exact hh'.text)
      (by rw [hsq]; exact hh.range) hX (by rw [hV.args]; exact has.typed) hdepth
    refine ⟨s', hi', ?_⟩
    rw [e, hV.oneway, htwo, hb, hsq, hV.name, hV.args, List.nil_append]
    rfl
  · intro ν net left x t more hnet hi ho hbuf happ hx
    exact any_multiplexed_reply env h cb fns ops _ _ (.service service s.name hsep hreg) hl hst hp hq x hi ho hbuf 1 (.inl rfl) seqid s hh hh'.text hfn htwo hres X
      (.struct as) has app₁ app₂ (by rw [happ]; exact hcb) o (by rw [hbs']; exact hrun) type sch' sid' w hans hwt hd ν net left hnet t more hx

/-- C34: a oneway call, likewise: the client writes and flushes one message; the server consumes exactly that, runs the handler once, and writes nothing. -/
theorem any_multiplexed_oneway (env : Env σ τ ω) (h : Handler χ) (cb : Option (PyStr → Int → Int → χ → Except Exc Unit × χ)) (fns : List Fn)
    {p : Proto σ} {pc qc : Proto κ} {F : Format} {Idle : σ → Prop} {IdleC : κ → Prop} {A : Acceptance} (hp : Hears p F Idle A) (hpc : Sends pc F IdleC)
    (fl : Bytes → ω' → Except Exc Unit × ω') (mode : Mode)
    (hl : Linear p.mro) (hst : .stored ∉ p.mro) (service : PyStr) (hsep : 58 ∉ service) (hqc : multiplexed pc service = .ok qc)
    (ops : List (Registration σ τ χ ω)) (hreg : Registered ops service (process env h cb fns))
    (X : Schema) (hX : SchemaOK mode X) (c s : Fn) (hV : Versions X env.sch c s)
    (hfn : Serves fns s.name s) (hone : s.oneway = true) (seqid : Int) (hh : Heads A (service ++ [58] ++ s.name) 4 seqid) (hn : TextOK s.name)
    (as bs : List (Option Val))
    (has : Suits A env.mode X env.sch s.argsId (.struct as) env.fuel) (hdepth : mode = .gen → structDepth (.struct as) ≤ 64) (hnd : NoDuplicates (.struct as))
    (hbs : Reads X env.sch (.struct s.argsId) (.struct as) (.struct bs))
    (app app₁ app₂ : χ) (hcb : Began cb s.name 4 seqid app app₁) (o : Outcome) (hrun : h s bs app₁ = (o, app₂)) (h1 : ∀ t, o ≠ .transport t)
    (h2 : ∀ n, o ≠ .base n) :
    ∃ req : Bytes,
      (∀ x : Client κ ω', IdleC x.prot → x.buf = [] → x.seqid = seqid → ∃ s', IdleC s' ∧
        send qc fl X mode c as x = ((fl req x.sink).1, { x with prot := s', sink := (fl req x.sink).2 })) ∧
      (∀ (ν : Type) (net : Nat → ν → Option (Except Exc Bytes × ν)) (left : ν → Bytes) (x : Call σ τ χ ω) (t : ν) (more : Bytes),
        DeliversUntil net left → Idle x.inp → x.app = app → left t = req ++ more →
        ∃ s' t', Idle s' ∧ left t' = more ∧ (multiProcess (registry ops) p x).run net t = some ((.ok (), { x with inp := s', app := app₂ }), t')) := by
  have hbs' : project X env.sch (.struct s.argsId) (.struct as) = .struct bs :=
    reads_unique (project_reads X env.sch (fun sid => (has.sender sid).1) has.versions _ _ has.typed hnd) hbs
  refine ⟨F.header (service ++ [58] ++ s.name) 4 seqid ++ F.value X (.struct s.argsId) (.struct as), ?_, ?_⟩
  · intro x hi hb hsq
    obtain ⟨s', msg, hi', rfl, e⟩ := multiplexed_send hpc fl service hqc mode X c as x hi (by rw [hV.name]; exact hh.text) (by rw [hV.name]; exact hn)
      (by rw [hsq]; exact hh.range) hX (by rw [hV.args]; exact has.typed) hdepth
    refine ⟨s', hi', ?_⟩
    rw [e, hV.oneway, hone, hb, hsq, hV.name, hV.args, List.nil_append]
    rfl
  · intro ν net left x t more hnet hi happ hx
    exact any_multiplexed_silent env h cb fns ops _ _ (.service service s.name hsep hreg) hl hst hp x hi 4 (.inr rfl) seqid s hh hfn hone X (.struct as) has app₁ app₂
      (by rw [happ]; exact hcb) o (by rw [hbs']; exact hrun) h1 h2 ν net left hnet t more hx

end

/-! ### The sample service with `TJSONProtocol` on both sides -/

section
open SampleService Json

abbrev jsonService : Processor Json.St Json.St Nat (List Bytes) := process (sampleEnv jsonProto) handler none fns

/-- The hypotheses of `any_multiplexed_call` hold for `get(7)` of an old client (of the dynamic code) at a new server that raises `Missing`, under the name "store". -/
example (q : Proto Json.St) (hq : multiplexed jsonProto (pyStr "store") = .ok q) (other : Processor Json.St Json.St Nat (List Bytes)) :=
  any_multiplexed_call (newEnv jsonProto) (fun _ _ n => (.declared 3 newMissing, n + 1) : Handler Nat) none newFns
  (Json.reads Sample.py { stringLimit := some 40 } 100 Sample.py_faithful) (Json.writes Sample.py { stringLimit := some 40 } 100)
  (Json.writes Sample.py { stringLimit := some 40 } 100) (Json.reads Sample.py { stringLimit := some 40 } 100 Sample.py_faithful)
  (framedFlush { write := fun b w => (.ok (), w ++ [b]), flush := fun (w : List Bytes) => (.ok (), w) }) .dyn 100
  ⟨by decide, rfl, by decide⟩ (by decide) (pyStr "store") (by decide) hq
  [.service (pyStr "store") other, .service (pyStr "store") (process (newEnv jsonProto) (fun _ _ n => (.declared 3 newMissing, n + 1) : Handler Nat) none newFns),
    .default other]
  ⟨[.service (pyStr "store") other], [.default other], rfl, by simp⟩
  sch (sch_ok .dyn) get newGet get_versions ⟨rfl, [], [newClear, log], rfl, by decide⟩ rfl get_ok newGet_ok 0
  (json_heads (by decide) ⟨by omega, by omega⟩ (by decide) (by unfold jsonAccepts Acceptance.json; decide +kernel)) args _ json_args (by intro h; cases h)
  (args_sendable .gen).duplicates args_read 4 4 5 rfl (.declared 3 newMissing) rfl 2 newer 2 newAnswer (.declared 3 newMissing _ newDeclared)
  (json_heads (by decide) ⟨by omega, by omega⟩ (by decide) (by unfold jsonAccepts Acceptance.json; decide +kernel))
  (fun _ => ⟨json_answer, by simp [newAnswer, newMissing, onlyField, newer, NoDuplicates, NoDuplicatesf]⟩) (fun h => by cases h) (by decide)

/-- There is such an object. -/
example : ∃ q, multiplexed jsonProto (pyStr "store") = .ok q :=
  let ⟨q, _, h, _⟩ := multiplexed_ok (p := jsonProto) ⟨by decide, rfl, by decide⟩ (by decide) (pyStr "store")
  ⟨q, h⟩

/-- The hypotheses of `any_multiplexed_oneway` hold for `log(7, ..)`. -/
example (q : Proto Json.St) (hq : multiplexed jsonProto (pyStr "store") = .ok q) :=
  any_multiplexed_oneway (sampleEnv jsonProto) handler none fns (Json.reads Sample.py { stringLimit := some 40 } 100 Sample.py_faithful)
  (Json.writes Sample.py { stringLimit := some 40 } 100)
  (framedFlush { write := fun b w => (.ok (), w ++ [b]), flush := fun (w : List Bytes) => (.ok (), w) }) .gen
  ⟨by decide, rfl, by decide⟩ (by decide) (pyStr "store") (by decide) hq [.service (pyStr "store") jsonService] ⟨[], [], rfl, by simp⟩ sch (sch_ok .gen) log log
  ⟨rfl, rfl, rfl, rfl, rfl, by simp [log, sch], (by intro sid f h; cases h), (by intro h; cases h)⟩ serves.2.2 rfl 0
  (json_heads (by decide) ⟨by omega, by omega⟩ (by decide) (by unfold jsonAccepts Acceptance.json; decide +kernel)) (by decide) args args json_same json_same.depth
  (args_sendable .gen).duplicates (reads_of (fun sid => (sch_ok .gen sid).1) json_same.versions json_same.typed (args_sendable .gen).duplicates
    (project_self sch (fun sid => (sch_ok .gen sid).1) _ _ json_same.typed (args_sendable .gen).hidden (args_sendable .gen).duplicates))
  4 4 5 rfl (.returned none) rfl (by intro t h; cases h) (by intro n h; cases h)

/-- The hypotheses of `any_multiplexed_unknown` hold for a call of `put`, which goes to the default. -/
example := any_multiplexed_unknown (sampleEnv jsonProto) handler none fns [.default jsonService] (pyStr "put") (pyStr "put")
  (.default _ (by decide) ⟨[], [], rfl, by simp⟩) ⟨by decide, rfl, by decide⟩ (by decide) (Json.reads Sample.py { stringLimit := some 40 } 100 Sample.py_faithful)
  (Json.writes Sample.py { stringLimit := some 40 } 100) { inp := {}, out := {}, sink := [], app := 4 } rfl rfl rfl 1 (.inl rfl) 0
  (json_heads (by decide) ⟨by omega, by omega⟩ (by decide) (by unfold jsonAccepts Acceptance.json; decide +kernel)) (by decide) (by decide) sch 1 (.struct args)
  ⟨fun sid => (sch_ok .gen sid).1, json_same.typed, json_same.accepted, by decide, trivial, json_same.fuel⟩ 4 rfl
  (by constructor <;> decide)

/-- The hypotheses of `any_multiplexed_refused` hold for a call of `shop:put`. -/
example := any_multiplexed_refused [.default jsonService, .service (pyStr "store") jsonService] (pyStr "shop" ++ [58] ++ pyStr "put") 1
  (.inl (.service _ _ (by decide) (by simp [pyStr]))) (Json.reads Sample.py { stringLimit := some 40 } 100 Sample.py_faithful)
  { inp := {}, out := {}, sink := [], app := 4 } rfl 0
  (json_heads (by decide) ⟨by omega, by omega⟩ (by decide) (by unfold jsonAccepts Acceptance.json; decide +kernel)) sch 1 (.struct args) 100
  ⟨fun sid => (sch_ok .gen sid).1, json_same.typed, json_same.accepted, by decide, trivial, json_same.fuel⟩

end
end Thrift
