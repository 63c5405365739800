import Verif.Spec.AnyProtocol
import Verif.Props.Json
import Verif.Props.Versions
/-
C90: calls over any protocol, the JSON protocol included, and over any transport that delivers the messages.
-/

namespace Thrift
open Spec Rpc

section
variable {σ τ α β : Type} {step : Nat → τ → Option (Except Exc Bytes × τ)}

theorem Spec.Ran.bind {m : P σ α} {k : α → P σ β} {s s₁ : σ} {x x₁ : τ} {a : α} (h : Ran step m s x a s₁ x₁) :
    ((m >>= k) s).run step x = (k a s₁).run step x₁ := by
  change ((m s).bind _).run step x = _
  rw [Prog.run_bind, h]

theorem ran_onIn {υ χ ω : Type} {m : P σ α} {c : Call σ υ χ ω} {x x' : τ} {a : α} {s' : σ} (h : Ran step m c.inp x a s' x') :
    Ran step (onIn m : P (Call σ υ χ ω) α) c x a { c with inp := s' } x' := by
  unfold Ran onIn
  rw [Prog.run_bind, h]
  rfl

/-- A method that does not read does over every transport what it does over memory. -/
theorem ran_exec {m : P σ α} {s : σ} {r : Except Exc α × σ} (h : m s = .ret r) (x : τ) : (m s).run step x = some (r, x) := by
  rw [h]; rfl

/-- From reading the struct to reading the exception. -/
theorem ran_appRead [HasDepth σ] {p : Proto σ} {fuel : Nat} {s s' : σ} {x x' : τ} {e : AppExc}
    (h : Ran step (readVal p.rd appSchema .gen (fuel + 1) (.struct 0)) s x (appVal e) s' x') : Ran step (appRead p fuel) s x e s' x' := by
  unfold Ran at h ⊢
  rw [appRead_eq] at h
  unfold P.map' at h
  rw [Prog.run_bind] at h
  cases hx : (appRead p fuel s).run step x with
  | none => rw [hx] at h; cases h
  | some r =>
    obtain ⟨⟨r, s1⟩, b1⟩ := r
    rw [hx] at h
    cases r with
    | error e => simp [Prog.run, Except.map] at h
    | ok y =>
      simp only [Prog.run, Except.map, Option.some.injEq, Prod.mk.injEq, Except.ok.injEq] at h
      obtain ⟨⟨h1, rfl⟩, rfl⟩ := h
      rw [appVal_inj h1]

end

/-! ## Protocols that hear -/

section
variable {σ : Type} [HasDepth σ]

/-- The binary and the compact protocol, over transports that deliver in pieces -/
theorem hears_of {p : Proto σ} {F : Format} {Idle : σ → Prop} {sl cl : Option Int} (hp : Receives p F Idle sl cl) (hps : SteadyProto p) :
    Hears p F Idle (.limits sl cl) where
  message name type seqid mode X Y sid v fuel s τ step left x more hh hf hi hd hx := by
    rw [List.append_assoc] at hx
    have hb : BodyOK sl cl mode X Y sid v fuel := ⟨hf.sender, hf.receiver, hf.versions, hf.typed, hf.accepted, hf.depth, hf.unknown, hf.fuel⟩
    obtain ⟨x₁, e₁, r₁⟩ := hps.header.upTo τ step left hd s x _ s _ (by rw [hx]; exact hp.header name type seqid s _ hi ⟨hh.text, hh.accepted, hh.kind, hh.range⟩)
    obtain ⟨s₂, hi₂, h₂⟩ := hp.value mode X Y sid v s fuel hi hb
    obtain ⟨x₂, e₂, r₂⟩ := (readVal_steady hps.ops _ _ _ _).upTo τ step left hd s x₁ _ s₂ more (by rw [r₁]; exact h₂ more)
    obtain ⟨x₃, e₃, r₃⟩ := hps.finish.upTo τ step left hd s₂ x₂ _ s₂ more (by rw [r₂]; exact hp.finish s₂ more hi₂)
    exact ⟨s, x₁, s₂, x₂, s₂, x₃, e₁, e₂, e₃, hi₂, r₃, hp.share s s₂ hi hi₂⟩
  skip name type seqid X sid v fuel s τ step left x more hh hf hi hd hx := by
    rw [List.append_assoc] at hx
    obtain ⟨x₁, e₁, r₁⟩ := hps.header.upTo τ step left hd s x _ s _ (by rw [hx]; exact hp.header name type seqid s _ hi ⟨hh.text, hh.accepted, hh.kind, hh.range⟩)
    obtain ⟨s₂, hi₂, h₂⟩ := hp.skip X sid v s fuel hi hf.fields hf.typed hf.accepted hf.depth hf.unknown hf.fuel
    obtain ⟨x₂, e₂, r₂⟩ := (skip_steady hps.ops _ _ _).upTo τ step left hd s x₁ _ s₂ more (by rw [r₁]; exact h₂ more)
    obtain ⟨x₃, e₃, r₃⟩ := hps.finish.upTo τ step left hd s₂ x₂ _ s₂ more (by rw [r₂]; exact hp.finish s₂ more hi₂)
    exact ⟨s, x₁, s₂, x₂, s₂, x₃, e₁, e₂, e₃, hi₂, r₃, hp.share s s₂ hi hi₂⟩

end

namespace Json
open Spec.Json

/-- Between two messages -/
def Idle (s : St) : Prop := s.depth = 0

theorem format_message (fmt : UInt64 → Bytes) (name : PyStr) (type : Nat) (seqid : Int) (sch : Schema) (sid : Nat) (v : Val) :
    (Format.json fmt).header name type seqid ++ (Format.json fmt).value sch (.struct sid) v =
      render (Spec.Json.message name type seqid (tree fmt sch (.struct sid) v)) := by
  simp [Format.json, Spec.Json.message, render, renderItems, value]

/-- The JSON protocol writes messages of its format. -/
theorem writes (py : Floats) (cfg : Cfg) (fuel : Nat) : Sends (proto py cfg fuel) (Format.json py.fmt17) Idle := by
  intro name type seqid sch mode sid v s out hi hn ht hq hs hv hd
  refine ⟨{ s with stack := [.base] }, ?_, hi⟩
  have := json_message_write py mode sch sid v name type seqid s out hn.1 hs hv (fun h => by rw [hi]; have := hd h; omega)
  rw [format_message]
  exact this

theorem Holds.ran {α : Type} {m : P St α} {s s' : St} {b : Bytes} {a : α} (h : Holds m s b a s') {τ : Type} {step : Nat → τ → Option (Except Exc Bytes × τ)}
    {left : τ → Bytes} (hd : DeliversUntil step left) {rest : Bytes} (hf : Follow s' rest) {p : Bool} (hp : OkP s p) {t : St} {x : τ}
    (hr : Rep ⟨s.stack, s.depth, b ++ rest, p⟩ t (left x)) :
    ∃ p' t' x', OkP s' p' ∧ Ran step m t x a t' x' ∧ Rep ⟨s'.stack, s'.depth, rest, p'⟩ t' (left x') := by
  obtain ⟨p', hp', st⟩ := h.2 rest p hf hp
  obtain ⟨t', x', e, r⟩ := st τ step left hd t x hr
  exact ⟨p', t', x', hp', e, r⟩

theorem holds_begin (cfg : Cfg) (fuel : Nat) (s : St) (name : PyStr) (type seqid : Int) (hname : ∀ c ∈ name, Scalar c)
    (l1 : Fits cfg.stringLimit fuel 1) (l2 : Fits cfg.stringLimit fuel (escaped name).length)
    (l3 : Fits cfg.stringLimit fuel (decimal type).length) (l4 : Fits cfg.stringLimit fuel (decimal seqid).length)
    (hs : s.stack = [.base]) (h0 : s.hasData = false) :
    Holds (do
      readJSONArrayStart
      let version ← readJSONInteger cfg fuel
      if version ≠ 1 then P.raise TProtocolException.BAD_VERSION
      else
        let name ← readJSONString cfg fuel
        let type ← readJSONInteger cfg fuel
        let seqid ← readJSONInteger cfg fuel
        pure (name, type, seqid) : P St (PyStr × Int × Int)) s
      (91 :: (ascii "1" ++ 44 :: (quoted (escaped name) ++ 44 :: (decimal type ++ 44 :: decimal seqid)))) (name, type, seqid)
      { s with stack := [.list false, .base] } := by
  rw [← intDigits_eq] at l3 l4
  let s0 : St := s
  let s1 := after s0 (.opn 91 (.list true))
  let s2 := after s1 (.num (intDigits 1))
  let s3 := after s2 (.str name)
  let s4 := after s3 (.num (intDigits type))
  let s5 := after s4 (.num (intDigits seqid))
  have hbegin : Holds (do
      readJSONArrayStart
      let version ← readJSONInteger cfg fuel
      if version ≠ 1 then P.raise TProtocolException.BAD_VERSION
      else
        let name ← readJSONString cfg fuel
        let type ← readJSONInteger cfg fuel
        let seqid ← readJSONInteger cfg fuel
        pure (name, type, seqid) : P St (PyStr × Int × Int)) s0
      (primBytes s0.stack (.opn 91 (.list true)) ++ (primBytes s1.stack (.num (intDigits 1)) ++
        (primBytes s2.stack (.str name) ++ (primBytes s3.stack (.num (intDigits type)) ++
          primBytes s4.stack (.num (intDigits seqid)))))) (name, type, seqid) s5 := by
    refine Holds.bind (holds_arrayStart h0) ?_
    refine Holds.bind (holds_int cfg fuel rfl (by simp [s0, after, primStep, top]) 1 (by
      rw [show (intDigits 1).length = 1 by decide +kernel]; exact l1)) ?_
    rw [if_neg (by simp)]
    refine Holds.bind (holds_str cfg fuel rfl name hname l2) ?_
    refine Holds.bind (holds_int cfg fuel rfl (by simp [s0, after, primStep, top, bump, setTop, advance]) type l3) ?_
    exact Holds.map (holds_int cfg fuel rfl
      (by simp [s0, after, primStep, top, bump, setTop, advance]) seqid l4) rfl
  have e5 : s5 = { s with stack := [.list false, .base] } := by
    simp [s5, s4, s3, s2, s1, s0, after, primStep, bump, setTop, advance, top, hs, h0]
  rw [← e5]
  have eb : (91 :: (ascii "1" ++ 44 :: (quoted (escaped name) ++ 44 :: (decimal type ++ 44 :: decimal seqid)))) =
      (primBytes s0.stack (.opn 91 (.list true)) ++ (primBytes s1.stack (.num (intDigits 1)) ++
        (primBytes s2.stack (.str name) ++ (primBytes s3.stack (.num (intDigits type)) ++
          primBytes s4.stack (.num (intDigits seqid)))))) := by
    rw [show ascii "1" = intDigits 1 by decide +kernel]
    simp [s4, s3, s2, s1, s0, hs, primStep, primBytes, bump, setTop, advance, sep, top, escapeNum, intDigits_eq, after]
  rw [eb]
  exact hbegin

/-- Header, struct, end -/
theorem whole_message {α : Type} (cfg : Cfg) (fuel : Nat) (fmt : UInt64 → Bytes) (name : PyStr) (type : Nat) (seqid : Int) (sch : Schema) (sid : Nat)
    (v : Val) (hname : ∀ c ∈ name, Scalar c) (hh : (Acceptance.json fmt (fun n => Within cfg.stringLimit n ∧ n < fuel)).header name type seqid)
    {m : P St α} {a : α} (hm : ∀ s : St, s.stack = [.list false, .base] → s.hasData = false → s.depth = 0 →
      ∃ s', Holds m s (sep s.stack ++ value fmt sch (.struct sid) v) a s' ∧ s'.stack = bump s.stack ∧ s'.hasData = false ∧ s'.depth = s.depth)
    (s : St) (hi : Idle s) {τ : Type} {step : Nat → τ → Option (Except Exc Bytes × τ)} {left : τ → Bytes} {x : τ} {more : Bytes}
    (hd : DeliversUntil step left) (hx : left x = (Format.json fmt).header name type seqid ++ (Format.json fmt).value sch (.struct sid) v ++ more) :
    ∃ s₁ x₁ s₂ x₂ s₃ x₃, Ran step (readMessageBegin cfg fuel) s x (name, (type : Int), seqid) s₁ x₁ ∧ Ran step m s₁ x₁ a s₂ x₂ ∧
      Ran step readMessageEnd s₂ x₂ () s₃ x₃ ∧ Idle s₃ ∧ left x₃ = more ∧ Idle { s₃ with depth := s₁.depth } := by
  obtain ⟨l1, l2, l3, l4⟩ := hh
  have hb := holds_begin cfg fuel (resetRead s) name type seqid hname l1 l2 l3 l4 rfl rfl
  obtain ⟨s', h2, r1, r2, r3⟩ := hm { resetRead s with stack := [.list false, .base] } rfl rfl hi
  have hstk : s'.stack = [.list false, .base] := r1
  have h3 := holds_arrayEnd (s := s') (by rw [hstk]; simp) r2
  have hf3 : Follow (after s' (.cls 93)) more := by
    refine ⟨fun e => (by cases e), fun e => ?_⟩
    simp [after, primStep, hstk, top] at e
  have hf2 := h3.1 more hf3
  have hf1 := h2.1 _ hf2
  obtain ⟨p₁, t₁, x₁, o₁, e₁, q₁⟩ := hb.ran hd hf1 (p := false) (fun _ => rfl) (t := resetRead s) (x := x) ⟨rfl, rfl, rfl, (fun e => by cases e), by
    rw [hx]
    simp [resetRead, Format.json, sep, top, advance, primBytes]⟩
  obtain ⟨p₂, t₂, x₂, o₂, e₂, q₂⟩ := h2.ran hd hf2 o₁ q₁
  obtain ⟨p₃, t₃, x₃, o₃, e₃, q₃⟩ := h3.ran hd hf3 o₂ q₂
  refine ⟨t₁, x₁, t₂, x₂, t₃, x₃, e₁, e₂, e₃, ?_, ?_, q₁.depth.trans hi⟩
  · exact q₃.depth.trans (r3.trans hi)
  · have hp : p₃ = false := o₃ (by simp [after, primStep, hstk, top])
    have := q₃.inp
    rw [q₃.peeked, hp] at this
    simpa using this

/-- The JSON protocol reads messages of its format. -/
theorem reads (py : Floats) (cfg : Cfg) (fuel : Nat) (hpy : Faithful py.fmt17 py.parse) :
    Hears (proto py cfg fuel) (Format.json py.fmt17) Idle (.json py.fmt17 fun n => Within cfg.stringLimit n ∧ n < fuel) where
  message name type seqid mode X Y sid v fuel' s τ step left x more hh hf hi hd hx := by
    refine whole_message cfg fuel py.fmt17 name type seqid X sid v hh.text.1 hh.accepted (fun s hs h0 hz => ?_) s hi hd hx
    have hg := good_value (py := py) (p := Json.Fits cfg.stringLimit fuel) (fd := Finite) X v (.struct sid) s.stack hf.typed
      (by rw [hs]; exact ⟨rfl, fun h => by cases h⟩)
    have hok := hg.ok (fit_value X (fun sid => (hf.sender sid).1) hf.typed hf.accepted.1 hf.accepted.2)
    obtain ⟨s', e, r, d⟩ := read_ok X Y mode (reader_laws py cfg fuel hpy) hf.sender hf.receiver hf.versions v (.struct sid) fuel' s _ hf.typed hok
      (And.intro rfl h0) hf.fuel (fun h => by show s.depth + _ ≤ _; rw [hz]; have := hf.depth h; omega)
      (unknowns_mono (fun u hu => And.intro hu.1 (binaries_true u)) X Y v _ hf.unknown)
    rw [hg.enc] at e
    rw [hg.steps] at r
    exact ⟨s', e, r.1, r.2, d⟩
  skip name type seqid X sid v fuel' s τ step left x more hh hf hi hd hx := by
    refine whole_message cfg fuel py.fmt17 name type seqid X sid v hh.text.1 hh.accepted (fun s hs h0 hz => ?_) s hi hd hx
    have hg := good_value (py := py) (p := Json.Fits cfg.stringLimit fuel) (fd := Finite) X v (.struct sid) s.stack hf.typed
      (by rw [hs]; exact ⟨rfl, fun h => by cases h⟩)
    have hok := hg.ok (fit_value X hf.fields hf.typed hf.accepted.1 hf.accepted.2)
    obtain ⟨s', e, r, d⟩ := skip_ok X (reader_laws py cfg fuel hpy) v (.struct sid) fuel' skipDepth s _ hf.typed hok (And.intro rfl h0) hf.depth hf.fuel
      (binaries_true v)
    rw [hg.enc] at e
    rw [hg.steps] at r
    exact ⟨s', e, r.1, r.2, d⟩

end Json

/-! ## Calls -/

section
variable {σ τ χ ω κ ω' : Type} [HasDepth σ] [HasDepth τ] [HasDepth κ]

omit [HasDepth σ] [HasDepth τ] in
theorem run_onBegin {cb : Option (PyStr → Int → Int → χ → Except Exc Unit × χ)} {name : PyStr} {type seqid : Int} {c : Call σ τ χ ω} {app' : χ}
    (h : Began cb name type seqid c.app app') : (onBegin cb (name, type, seqid) : P (Call σ τ χ ω) Unit) c = .ret (.ok (), { c with app := app' }) := by
  unfold Began at h
  unfold onBegin
  cases cb with
  | none => simp only at h; rw [h]; rfl
  | some f =>
    simp only at h
    change P.bind (onApp (f name type seqid)) (fun r => P.lift r) c = _
    simp only [P.bind, onApp, Prog.bind, h]
    rfl

/-- The common part: header, callback, arguments, handler. -/
theorem known_ran {env : Env σ τ ω} {h : Handler χ} {cb : Option (PyStr → Int → Int → χ → Except Exc Unit × χ)} {fns : List Fn} {p : Proto σ}
    {c : Call σ τ χ ω} {name : PyStr} {type : Nat} {seqid : Int} {fn : Fn} (hfn : Serves fns name fn) {u : Val} {app₁ app₂ : χ}
    (hcb : Began cb name type seqid c.app app₁) {o : Outcome} (ho : h fn (attrsOf u) app₁ = (o, app₂))
    {ν : Type} {net : Nat → ν → Option (Except Exc Bytes × ν)} {t x₁ x₂ x₃ : ν} {s₁ s₂ s₃ : σ}
    (e₁ : Ran net p.readMessageBegin c.inp t (name, (type : Int), seqid) s₁ x₁)
    (e₂ : Ran net (readVal p.rd env.sch env.mode env.fuel (.struct fn.argsId)) s₁ x₁ u s₂ x₂) (e₃ : Ran net p.readMessageEnd s₂ x₂ () s₃ x₃) :
    (process env h cb fns p c).run net t = ((match answer fn o with
            | .error e => P.raise e
            | .ok none => pure ()
            | .ok (some (type, r)) => sendReply env fn.name type seqid (writeReply env fn r) :
              P (Call σ τ χ ω) Unit) { c with inp := s₃, app := app₂ }).run net x₃ := by
  unfold process
  rw [(ran_onIn e₁).bind, Ran.bind (ran_exec (run_onBegin (c := { c with inp := s₁ }) hcb) x₁)]
  simp only [lookup_serves hfn]
  unfold processFn
  rw [(ran_onIn (c := { c with inp := s₁, app := app₁ }) e₂).bind, (ran_onIn (c := { c with inp := s₂, app := app₁ }) e₃).bind]
  have : Ran net (onApp (h fn (attrsOf u)) : P (Call σ τ χ ω) Outcome) { c with inp := s₃, app := app₁ } x₃ o
      { c with inp := s₃, app := app₂ } x₃ := by
    unfold Ran onApp
    simp only [ho]
    rfl
  rw [this.bind]
  rfl

omit [HasDepth σ] [HasDepth τ] in
theorem run_sendReply (env : Env σ τ ω) (name : PyStr) (type seqid : Int) (body : W τ Unit) (c : Call σ τ χ ω) (o : τ) (bs : Bytes)
    (h : message env.q name type seqid body c.out c.buf = (.ok (), o, c.buf ++ bs)) :
    sendReply env name type seqid body c = .ret ((env.flush (c.buf ++ bs) c.sink).1,
      { c with out := o, buf := [], sink := (env.flush (c.buf ++ bs) c.sink).2 }) := by
  unfold sendReply
  change P.bind (onOut _) (fun _ => flush env) c = _
  simp only [P.bind, onOut, h, Prog.bind, flush]

/-- A two-way call whose arguments were read -/
theorem reply_ran (env : Env σ τ ω) (h : Handler χ) (cb : Option (PyStr → Int → Int → χ → Except Exc Unit × χ)) (fns : List Fn) {p : Proto σ} {G : Format}
    {IdleOut : τ → Prop} (hq : Sends env.q G IdleOut) (c : Call σ τ χ ω) (ho : IdleOut c.out) (hbuf : c.buf = []) (name : PyStr) (hn : TextOK name) (type : Nat)
    (seqid : Int) (hr : InRange 32 seqid) (fn : Fn) (hfn : Serves fns name fn) (htwo : fn.oneway = false) (hY : SchemaOK env.mode env.sch)
    (hres : ResultOK env.sch fn) (u : Val) (app₁ app₂ : χ) (hcb : Began cb name type seqid c.app app₁) (o : Outcome)
    (hrun : h fn (attrsOf u) app₁ = (o, app₂)) (type' : Nat) (sch' : Schema) (sid' : Nat) (w : Val) (hans : Answers env.sch fn o type' sch' sid' w)
    (hw : WT sch' (.struct sid') w) (hdep : structDepth w ≤ 64) :
    ∃ o', IdleOut o' ∧ ∀ (ν : Type) (net : Nat → ν → Option (Except Exc Bytes × ν)) (t x₁ x₂ x₃ : ν) (s₁ s₂ s₃ : σ),
      Ran net p.readMessageBegin c.inp t (name, (type : Int), seqid) s₁ x₁ →
      Ran net (readVal p.rd env.sch env.mode env.fuel (.struct fn.argsId)) s₁ x₁ u s₂ x₂ → Ran net p.readMessageEnd s₂ x₂ () s₃ x₃ →
      (process env h cb fns p c).run net t =
        some (((env.flush (G.header name type' seqid ++ G.value sch' (.struct sid') w) c.sink).1,
          { inp := s₃, out := o', buf := [], app := app₂
            sink := (env.flush (G.header name type' seqid ++ G.value sch' (.struct sid') w) c.sink).2 }), x₃) := by
  obtain ⟨r, mode, ha, hsch, hwr⟩ := answer_of hres htwo hY hans
  have ht : IsMessageType type' := by cases hans <;> exact ⟨by omega, by omega⟩
  obtain ⟨o', hm, ho'⟩ := hq name type' seqid sch' mode sid' w c.out c.buf ho hn ht hr hsch hw (fun _ => hdep)
  refine ⟨o', ho', fun ν net t x₁ x₂ x₃ s₁ s₂ s₃ e₁ e₂ e₃ => ?_⟩
  rw [known_ran hfn hcb hrun e₁ e₂ e₃, ha]
  simp only
  refine (ran_exec (run_sendReply env fn.name _ seqid _ { c with inp := s₃, app := app₂ } o' _ (by rw [hwr, hfn.1]; exact hm)) x₃).trans ?_
  simp only [hbuf, List.nil_append]

/-- A oneway call whose arguments were read -/
theorem silent_ran (env : Env σ τ ω) (h : Handler χ) (cb : Option (PyStr → Int → Int → χ → Except Exc Unit × χ)) (fns : List Fn) {p : Proto σ}
    (c : Call σ τ χ ω) (name : PyStr) (type : Nat) (seqid : Int) (fn : Fn) (hfn : Serves fns name fn) (hone : fn.oneway = true) (u : Val) (app₁ app₂ : χ)
    (hcb : Began cb name type seqid c.app app₁) (o : Outcome) (hrun : h fn (attrsOf u) app₁ = (o, app₂)) (h1 : ∀ t, o ≠ .transport t) (h2 : ∀ n, o ≠ .base n)
    {ν : Type} {net : Nat → ν → Option (Except Exc Bytes × ν)} {t x₁ x₂ x₃ : ν} {s₁ s₂ s₃ : σ}
    (e₁ : Ran net p.readMessageBegin c.inp t (name, (type : Int), seqid) s₁ x₁)
    (e₂ : Ran net (readVal p.rd env.sch env.mode env.fuel (.struct fn.argsId)) s₁ x₁ u s₂ x₂) (e₃ : Ran net p.readMessageEnd s₂ x₂ () s₃ x₃) :
    (process env h cb fns p c).run net t = some ((.ok (), { c with inp := s₃, app := app₂ }), x₃) := by
  have ha : answer fn o = .ok none := by
    cases o with
    | transport t => exact absurd rfl (h1 t)
    | base n => exact absurd rfl (h2 n)
    | _ => simp only [answer, hone]; rfl
  rw [known_ran hfn hcb hrun e₁ e₂ e₃, ha]
  rfl

/-- A call of an unknown method whose arguments were skipped -/
theorem unknown_ran (env : Env σ τ ω) (h : Handler χ) (cb : Option (PyStr → Int → Int → χ → Except Exc Unit × χ)) (fns : List Fn) {p : Proto σ} {G : Format}
    {IdleOut : τ → Prop} (hq : Sends env.q G IdleOut) (c : Call σ τ χ ω) (ho : IdleOut c.out) (hbuf : c.buf = []) (name : PyStr) (hn : TextOK name) (type : Nat)
    (seqid : Int) (hr : InRange 32 seqid) (hfn : ∀ g ∈ fns, g.name ≠ name) (app₁ : χ) (hcb : Began cb name type seqid c.app app₁)
    (hx : AppOK (unknownMethod name)) :
    ∃ o', IdleOut o' ∧ ∀ (ν : Type) (net : Nat → ν → Option (Except Exc Bytes × ν)) (t x₁ x₂ x₃ : ν) (s₁ s₂ s₃ : σ),
      Ran net p.readMessageBegin c.inp t (name, (type : Int), seqid) s₁ x₁ →
      Ran net (skip p.rd env.fuel skipDepth TType.STRUCT) s₁ x₁ () s₂ x₂ → Ran net p.readMessageEnd s₂ x₂ () s₃ x₃ →
      (process env h cb fns p c).run net t =
      some (((env.flush (G.header name 3 seqid ++ G.app (unknownMethod name)) c.sink).1,
          { inp := s₃, out := o', buf := [], app := app₁
            sink := (env.flush (G.header name 3 seqid ++ G.app (unknownMethod name)) c.sink).2 }), x₃) := by
  obtain ⟨o', hw, ho'⟩ := app_write hq name 3 seqid (unknownMethod name) c.out c.buf ho
    ⟨hn, (by intro l h; cases h), ⟨by omega, by omega⟩, hr⟩ hx
  refine ⟨o', ho', fun ν net t x₁ x₂ x₃ s₁ s₂ s₃ e₁ e₂ e₃ => ?_⟩
  unfold process
  rw [(ran_onIn e₁).bind, Ran.bind (ran_exec (run_onBegin (c := { c with inp := s₁ }) hcb) x₁)]
  simp only [lookup_none hfn]
  rw [(ran_onIn (c := { c with inp := s₁, app := app₁ }) e₂).bind, (ran_onIn (c := { c with inp := s₂, app := app₁ }) e₃).bind]
  refine (ran_exec (run_sendReply env name _ seqid _ { c with inp := s₃, app := app₁ } o' _ hw) x₃).trans ?_
  simp only [hbuf, List.nil_append]

/-- C90: a two-way call, whatever the protocol and however the transport cuts the request into pieces. -/
theorem any_reply (env : Env σ τ ω) (h : Handler χ) (cb : Option (PyStr → Int → Int → χ → Except Exc Unit × χ)) (fns : List Fn) {p : Proto σ} {F G : Format}
    {Idle : σ → Prop} {IdleOut : τ → Prop} {A : Acceptance} (hp : Hears p F Idle A) (hq : Sends env.q G IdleOut) (c : Call σ τ χ ω) (hi : Idle c.inp)
    (ho : IdleOut c.out) (hbuf : c.buf = []) (name : PyStr) (type : Nat) (seqid : Int) (fn : Fn) (hh : Heads A name type seqid) (hfn : Serves fns name fn)
    (htwo : fn.oneway = false) (hres : ResultOK env.sch fn) (X : Schema) (v : Val) (hv : Suits A env.mode X env.sch fn.argsId v env.fuel) (app₁ app₂ : χ)
    (hcb : Began cb name type seqid c.app app₁) (o : Outcome) (hrun : h fn (attrsOf (project X env.sch (.struct fn.argsId) v)) app₁ = (o, app₂))
    (type' : Nat) (sch' : Schema) (sid' : Nat) (w : Val) (hans : Answers env.sch fn o type' sch' sid' w) (hw : WT sch' (.struct sid') w)
    (hdep : structDepth w ≤ 64) (ν : Type) (net : Nat → ν → Option (Except Exc Bytes × ν)) (left : ν → Bytes) (hd : DeliversUntil net left) (t : ν) (more : Bytes)
    (hx : left t = F.header name type seqid ++ F.value X (.struct fn.argsId) v ++ more) :
    ∃ s' o' t', Idle s' ∧ IdleOut o' ∧ left t' = more ∧ (process env h cb fns p c).run net t =
      some (((env.flush (G.header name type' seqid ++ G.value sch' (.struct sid') w) c.sink).1,
          { inp := s', out := o', buf := [], app := app₂
            sink := (env.flush (G.header name type' seqid ++ G.value sch' (.struct sid') w) c.sink).2 }), t') := by
  obtain ⟨s₁, x₁, s₂, x₂, s₃, x₃, e₁, e₂, e₃, hi₃, hm, _⟩ := hp.message name type seqid env.mode X env.sch fn.argsId v env.fuel c.inp ν net left t more hh hv hi hd hx
  obtain ⟨o', ho', e⟩ := reply_ran env h cb fns (p := p) hq c ho hbuf name hh.text type seqid hh.range fn hfn htwo hv.receiver hres _ app₁ app₂ hcb o hrun type' sch' sid' w hans hw
    hdep
  exact ⟨s₃, o', x₃, hi₃, ho', hm, e _ _ _ _ _ _ _ _ _ e₁ e₂ e₃⟩

/-- C90: a oneway call writes nothing. -/
theorem any_silent (env : Env σ τ ω) (h : Handler χ) (cb : Option (PyStr → Int → Int → χ → Except Exc Unit × χ)) (fns : List Fn) {p : Proto σ} {F : Format}
    {Idle : σ → Prop} {A : Acceptance} (hp : Hears p F Idle A) (c : Call σ τ χ ω) (hi : Idle c.inp) (name : PyStr) (type : Nat) (seqid : Int) (fn : Fn)
    (hh : Heads A name type seqid) (hfn : Serves fns name fn) (hone : fn.oneway = true) (X : Schema) (v : Val)
    (hv : Suits A env.mode X env.sch fn.argsId v env.fuel) (app₁ app₂ : χ) (hcb : Began cb name type seqid c.app app₁) (o : Outcome)
    (hrun : h fn (attrsOf (project X env.sch (.struct fn.argsId) v)) app₁ = (o, app₂)) (h1 : ∀ t, o ≠ .transport t) (h2 : ∀ n, o ≠ .base n)
    (ν : Type) (net : Nat → ν → Option (Except Exc Bytes × ν)) (left : ν → Bytes) (hd : DeliversUntil net left) (t : ν) (more : Bytes)
    (hx : left t = F.header name type seqid ++ F.value X (.struct fn.argsId) v ++ more) :
    ∃ s' t', Idle s' ∧ left t' = more ∧ (process env h cb fns p c).run net t = some ((.ok (), { c with inp := s', app := app₂ }), t') := by
  obtain ⟨s₁, x₁, s₂, x₂, s₃, x₃, e₁, e₂, e₃, hi₃, hm, _⟩ := hp.message name type seqid env.mode X env.sch fn.argsId v env.fuel c.inp ν net left t more hh hv hi hd hx
  exact ⟨s₃, x₃, hi₃, hm, silent_ran env h cb fns c name type seqid fn hfn hone _ app₁ app₂ hcb o hrun h1 h2 e₁ e₂ e₃⟩

/-- C90: an unknown method is answered with `UNKNOWN_METHOD` after its arguments were skipped; no handler method runs. -/
theorem any_unknown (env : Env σ τ ω) (h : Handler χ) (cb : Option (PyStr → Int → Int → χ → Except Exc Unit × χ)) (fns : List Fn) {p : Proto σ} {F G : Format}
    {Idle : σ → Prop} {IdleOut : τ → Prop} {A : Acceptance} (hp : Hears p F Idle A) (hq : Sends env.q G IdleOut) (c : Call σ τ χ ω) (hi : Idle c.inp)
    (ho : IdleOut c.out) (hbuf : c.buf = []) (name : PyStr) (type : Nat) (seqid : Int) (hh : Heads A name type seqid) (hfn : ∀ g ∈ fns, g.name ≠ name)
    (X : Schema) (sid : Nat) (v : Val) (hv : Skips A X sid v env.fuel) (app₁ : χ) (hcb : Began cb name type seqid c.app app₁) (hx : AppOK (unknownMethod name))
    (ν : Type) (net : Nat → ν → Option (Except Exc Bytes × ν)) (left : ν → Bytes) (hd : DeliversUntil net left) (t : ν) (more : Bytes)
    (ht : left t = F.header name type seqid ++ F.value X (.struct sid) v ++ more) :
    ∃ s' o' t', Idle s' ∧ IdleOut o' ∧ left t' = more ∧ (process env h cb fns p c).run net t =
      some (((env.flush (G.header name 3 seqid ++ G.app (unknownMethod name)) c.sink).1,
          { inp := s', out := o', buf := [], app := app₁
            sink := (env.flush (G.header name 3 seqid ++ G.app (unknownMethod name)) c.sink).2 }), t') := by
  obtain ⟨s₁, x₁, s₂, x₂, s₃, x₃, e₁, e₂, e₃, hi₃, hm, _⟩ := hp.skip name type seqid X sid v env.fuel c.inp ν net left t more hh hv hi hd ht
  obtain ⟨o', ho', e⟩ := unknown_ran env h cb fns (p := p) hq c ho hbuf name hh.text type seqid hh.range hfn app₁ hcb hx
  exact ⟨s₃, o', x₃, hi₃, ho', hm, e _ _ _ _ _ _ _ _ _ e₁ e₂ e₃⟩

/-- C90: what the client makes of a reply that is not an `EXCEPTION` message. -/
theorem any_recv {p : Proto κ} {F : Format} {Idle : κ → Prop} {A : Acceptance} (hp : Hears p F Idle A) (mode : Mode) (X Y : Schema) (fuel : Nat) (fn : Fn)
    (hres : ResultOK Y fn) (s : κ) (hi : Idle s) (name : PyStr) (type : Nat) (seqid : Int) (hh : Heads A name type seqid) (ht : type ≠ 3) (v : Val)
    (hv : Suits A mode X Y fn.resultId v fuel) : ∃ r, Means Y fn (attrsOf (project X Y (.struct fn.resultId) v)) r ∧
      ∀ (ν : Type) (net : Nat → ν → Option (Except Exc Bytes × ν)) (left : ν → Bytes) (_ : DeliversUntil net left) (t : ν) (more : Bytes)
        (_ : left t = F.header name type seqid ++ F.value X (.struct fn.resultId) v ++ more),
        ∃ s' t', Idle s' ∧ left t' = more ∧ Ran net (recv p Y mode fuel fn) s t r s' t' := by
  have hl : (attrsOf (project X Y (.struct fn.resultId) v)).length = (Y fn.resultId).length := by
    have hw := hv.typed
    cases v <;> simp only [WT] at hw
    simp only [project, attrsOf, List.length_map]
  refine ⟨_, outcome_means hres _ hl, fun ν net left hd t more hx => ?_⟩
  obtain ⟨s₁, x₁, s₂, x₂, s₃, x₃, e₁, e₂, e₃, hi₃, hm, _⟩ := hp.message name type seqid mode X Y fn.resultId v fuel s _ net left t more hh hv hi hd hx
  refine ⟨s₃, x₃, hi₃, hm, ?_⟩
  unfold Ran recv
  rw [e₁.bind]
  simp only
  rw [if_neg (by simp only [TMessageType.EXCEPTION]; omega), e₂.bind, e₃.bind]
  rfl

/-- C90: an `EXCEPTION` message: the client raises the `TApplicationException` it carries. -/
theorem any_exception {p : Proto κ} {F : Format} {Idle : κ → Prop} {A : Acceptance} (hp : Hears p F Idle A) (mode : Mode) (Y : Schema) (fuel : Nat) (fn : Fn)
    (s : κ) (hi : Idle s) (name : PyStr) (seqid : Int) (hh : Heads A name 3 seqid) (e : AppExc) (hx : AppOK e) (hl : A.value appSchema 0 (appVal e)) (hf : 5 ≤ fuel)
    (ν : Type) (net : Nat → ν → Option (Except Exc Bytes × ν)) (left : ν → Bytes) (hd : DeliversUntil net left) (t : ν) (more : Bytes)
    (ht : left t = F.header name 3 seqid ++ F.app e ++ more) :
    ∃ s' t', Idle s' ∧ left t' = more ∧ Ran net (recv p Y mode fuel fn) s t (.application ⟨some (e.type.getD 0), e.message⟩) s' t' := by
  have hb : Suits A .gen appSchema appSchema 0 (appVal e) (fuel + 1) := {
    sender := appSchema_ok _
    receiver := appSchema_ok _
    versions := compatible_self (appSchema_ok .gen)
    typed := appVal_wt hx
    accepted := hl
    depth := fun _ => by rw [appVal_depth]; omega
    unknown := Unknowns_self _ _ _ _
    fuel := by
      obtain ⟨t, m⟩ := e
      cases m <;> cases t <;> simp [appVal, size, sizef] <;> omega }
  obtain ⟨s₁, x₁, s₂, x₂, s₃, x₃, e₁, e₂, e₃, hi₃, hm, _⟩ := hp.message name 3 seqid .gen appSchema appSchema 0 (appVal e) (fuel + 1) s _ net left t more hh hb hi hd ht
  have hp' : project appSchema appSchema (.struct 0) (appVal e) = appVal ⟨some (e.type.getD 0), e.message⟩ := by
    obtain ⟨t, m⟩ := e
    cases m <;> cases t <;> simp [appVal, project, sentFields, attrOf, appSchema] <;> decide
  rw [hp'] at e₂
  refine ⟨s₃, x₃, hi₃, hm, ?_⟩
  unfold Ran recv
  rw [e₁.bind]
  simp only
  rw [if_pos (by rfl), (ran_appRead e₂).bind, e₃.bind]
  rfl

/-- The shape of an `EXCEPTION` message -/
theorem answers_exception {sch : Schema} {fn : Fn} {o : Outcome} {sch' : Schema} {sid' : Nat} {x : AppExc} (h : Answers sch fn o 3 sch' sid' (appVal x)) :
    sch' = appSchema ∧ sid' = 0 ∧ Told fn o (.application ⟨some (x.type.getD 0), x.message⟩) ∧
      ∀ X c, ToldAcross X sch c fn o (.application ⟨some (x.type.getD 0), x.message⟩) := by
  generalize hw : appVal x = w at h
  cases h with
  | undeclared sid as hd =>
    cases appVal_inj hw
    exact ⟨rfl, rfl, .undeclared sid as hd, fun _ _ => .undeclared sid as hd⟩
  | application y =>
    cases appVal_inj hw
    exact ⟨rfl, rfl, .application _, fun _ _ => .application _⟩
  | other n =>
    cases appVal_inj hw
    exact ⟨rfl, rfl, .other n, fun _ _ => .other n⟩

/-- What the client makes of the reply of another version -/
theorem any_received {pc : Proto κ} {G : Format} {IdleC : κ → Prop} {AC : Acceptance} (hrc : Hears pc G IdleC AC) (mode : Mode) (fuel : Nat) (X Y : Schema)
    (c s : Fn) (hV : Versions X Y c s) (hc : ResultOK X c) (hres : ResultOK Y s) (seqid : Int) (o : Outcome) (type : Nat) (sch' : Schema) (sid' : Nat)
    (w : Val) (hans : Answers Y s o type sch' sid' w) (hh' : Heads AC s.name type seqid)
    (hw2 : type = 2 → Suits AC mode Y X s.resultId w fuel ∧ NoDuplicates w)
    (hw3 : type = 3 → 5 ≤ fuel ∧ ∃ x, w = appVal x ∧ AppOK x ∧ AC.value appSchema 0 w) :
    ∃ r, ToldAcross X Y c s o r ∧ WT sch' (.struct sid') w ∧
      ∀ (ν : Type) (net : Nat → ν → Option (Except Exc Bytes × ν)) (left : ν → Bytes) (x : κ) (t : ν) (more : Bytes),
        DeliversUntil net left → IdleC x → left t = (G.header s.name type seqid ++ G.value sch' (.struct sid') w) ++ more →
        ∃ s' t', IdleC s' ∧ left t' = more ∧ (recv pc X mode fuel c x).run net t = some ((.ok r, s'), t') := by
  by_cases h2 : type = 2
  · subst h2
    obtain ⟨hb, hnd'⟩ := hw2 rfl
    obtain ⟨rfl, rfl⟩ : Y = sch' ∧ s.resultId = sid' := by cases hans <;> exact ⟨rfl, rfl⟩
    have hrd := project_reads Y X (fun sid => (hb.sender sid).1) hb.versions w _ hb.typed hnd'
    obtain ⟨r, hm, ht⟩ := means_across hV hc hres hans hrd
    refine ⟨r, ht, hb.typed, fun ν net left x t more hdel hi hx => ?_⟩
    obtain ⟨r', hm', e⟩ := any_recv hrc mode Y X fuel c hc x hi s.name 2 seqid hh' (by omega) w (by rw [hV.result]; exact hb)
    rw [hV.result] at hm' e
    cases means_unique hm hm'
    exact e ν net left hdel t more hx
  · have h3 : type = 3 := by cases hans <;> first | rfl | exact absurd rfl h2
    subst h3
    obtain ⟨hf, x, rfl, hx, hxl⟩ := hw3 rfl
    obtain ⟨rfl, rfl, -, htold⟩ := answers_exception hans
    exact ⟨_, htold X c, appVal_wt hx, fun ν net left y t more hdel hi hxt =>
      any_exception hrc mode X fuel c y hi s.name seqid hh' x hx hxl hf ν net left hdel t more hxt⟩

/-- C90: a two-way call between two versions, over any protocols and transports: a client with schema `X` and function `c`, a server with schema
`Y` and function `s`. There are a request and a reply such that

* the client writes exactly the request and flushes it,
* a server whose transport delivers it, in whatever pieces, runs the handler once, with the arguments as its own version reads them, consumes
  exactly the request, and writes and flushes exactly the reply,
* the client whose transport delivers that, in whatever pieces, consumes exactly the reply and returns or raises what the handler did, as its own
  version reads it. -/
theorem any_call_across (env : Env σ τ ω) (h : Handler χ) (cb : Option (PyStr → Int → Int → χ → Except Exc Unit × χ)) (fns : List Fn)
    -- the protocols on both sides
    {p : Proto σ} {pc : Proto κ} {F G : Format} {Idle : σ → Prop} {IdleOut : τ → Prop} {IdleC : κ → Prop} {A AC : Acceptance} (hp : Hears p F Idle A)
    (hq : Sends env.q G IdleOut) (hpc : Sends pc F IdleC) (hrc : Hears pc G IdleC AC) (fl : Bytes → ω' → Except Exc Unit × ω') (mode : Mode) (fuel : Nat)
    -- the versions, the function, its arguments
    (X : Schema) (hX : SchemaOK mode X) (c s : Fn) (hV : Versions X env.sch c s) (hfn : Serves fns s.name s) (htwo : s.oneway = false)
    (hc : ResultOK X c) (hres : ResultOK env.sch s) (seqid : Int) (hh : Heads A s.name 1 seqid) (as bs : List (Option Val))
    (has : Suits A env.mode X env.sch s.argsId (.struct as) env.fuel) (hdepth : mode = .gen → structDepth (.struct as) ≤ 64) (hnd : NoDuplicates (.struct as))
    (hbs : Reads X env.sch (.struct s.argsId) (.struct as) (.struct bs))
    -- what the handler does
    (app app₁ app₂ : χ) (hcb : Began cb s.name 1 seqid app app₁) (o : Outcome) (hrun : h s bs app₁ = (o, app₂)) (type : Nat) (sch' : Schema) (sid' : Nat)
    (w : Val) (hans : Answers env.sch s o type sch' sid' w) (hh' : Heads AC s.name type seqid)
    (hw2 : type = 2 → Suits AC mode env.sch X s.resultId w fuel ∧ NoDuplicates w)
    (hw3 : type = 3 → 5 ≤ fuel ∧ ∃ x, w = appVal x ∧ AppOK x ∧ AC.value appSchema 0 w) (hd : structDepth w ≤ 64) :
    ∃ (req rep : Bytes) (r : Result), ToldAcross X env.sch c s o r ∧
      (∀ x : Client κ ω', IdleC x.prot → x.buf = [] → x.seqid = seqid → ∃ s', IdleC s' ∧
        send pc fl X mode c as x = ((fl req x.sink).1, { x with prot := s', sink := (fl req x.sink).2 })) ∧
      (∀ (ν : Type) (net : Nat → ν → Option (Except Exc Bytes × ν)) (left : ν → Bytes) (x : Call σ τ χ ω) (t : ν) (more : Bytes),
        DeliversUntil net left → Idle x.inp → IdleOut x.out → x.buf = [] → x.app = app → left t = req ++ more →
        ∃ s' o' t', Idle s' ∧ IdleOut o' ∧ left t' = more ∧ (process env h cb fns p x).run net t =
          some (((env.flush rep x.sink).1, { inp := s', out := o', buf := [], app := app₂, sink := (env.flush rep x.sink).2 }), t')) ∧
      (∀ (ν : Type) (net : Nat → ν → Option (Except Exc Bytes × ν)) (left : ν → Bytes) (x : κ) (t : ν) (more : Bytes),
        DeliversUntil net left → IdleC x → left t = rep ++ more →
        ∃ s' t', IdleC s' ∧ left t' = more ∧ (recv pc X mode fuel c x).run net t = some ((.ok r, s'), t')) := by
  have hbs' : project X env.sch (.struct s.argsId) (.struct as) = .struct bs :=
    reads_unique (project_reads X env.sch (fun sid => (has.sender sid).1) has.versions _ _ has.typed hnd) hbs
  obtain ⟨r, htold, hwt, hcl⟩ := any_received hrc mode fuel X env.sch c s hV hc hres seqid o type sch' sid' w hans hh' hw2 hw3
  refine ⟨F.header s.name 1 seqid ++ F.value X (.struct s.argsId) (.struct as), G.header s.name type seqid ++ G.value sch' (.struct sid') w, r, htold, ?_, ?_, hcl⟩
  · intro x hi hb hsq
    obtain ⟨s', hi', e⟩ := send_transmits hpc fl mode X c as x hi (by rw [hV.name]; exact hh.text) (by rw [hsq]; exact hh.range) hX
      (by rw [hV.args]; exact has.typed) hdepth
    refine ⟨s', hi', ?_⟩
    rw [e, hV.oneway, htwo, hb, hsq, hV.name, hV.args, List.nil_append]
    rfl
  · intro ν net left x t more hnet hi ho hbuf happ hx
    exact any_reply env h cb fns hp hq x hi ho hbuf s.name 1 seqid s hh hfn htwo hres X (.struct as) has app₁ app₂ (by rw [happ]; exact hcb) o
      (by rw [hbs']; exact hrun) type sch' sid' w hans hwt hd ν net left hnet t more hx

/-- C90: a oneway call between two versions, over any protocols and transports: the client writes and flushes one message; the server consumes exactly
that, runs the handler once, and writes nothing. -/
theorem any_oneway_across (env : Env σ τ ω) (h : Handler χ) (cb : Option (PyStr → Int → Int → χ → Except Exc Unit × χ)) (fns : List Fn)
    {p : Proto σ} {pc : Proto κ} {F : Format} {Idle : σ → Prop} {IdleC : κ → Prop} {A : Acceptance} (hp : Hears p F Idle A) (hpc : Sends pc F IdleC)
    (fl : Bytes → ω' → Except Exc Unit × ω') (mode : Mode) (X : Schema) (hX : SchemaOK mode X) (c s : Fn) (hV : Versions X env.sch c s)
    (hfn : Serves fns s.name s) (hone : s.oneway = true) (seqid : Int) (hh : Heads A s.name 4 seqid) (as bs : List (Option Val))
    (has : Suits A env.mode X env.sch s.argsId (.struct as) env.fuel) (hdepth : mode = .gen → structDepth (.struct as) ≤ 64) (hnd : NoDuplicates (.struct as))
    (hbs : Reads X env.sch (.struct s.argsId) (.struct as) (.struct bs))
    (app app₁ app₂ : χ) (hcb : Began cb s.name 4 seqid app app₁) (o : Outcome) (hrun : h s bs app₁ = (o, app₂)) (h1 : ∀ t, o ≠ .transport t)
    (h2 : ∀ n, o ≠ .base n) :
    ∃ req : Bytes,
      (∀ x : Client κ ω', IdleC x.prot → x.buf = [] → x.seqid = seqid → ∃ s', IdleC s' ∧
        send pc fl X mode c as x = ((fl req x.sink).1, { x with prot := s', sink := (fl req x.sink).2 })) ∧
      (∀ (ν : Type) (net : Nat → ν → Option (Except Exc Bytes × ν)) (left : ν → Bytes) (x : Call σ τ χ ω) (t : ν) (more : Bytes),
        DeliversUntil net left → Idle x.inp → x.app = app → left t = req ++ more →
        ∃ s' t', Idle s' ∧ left t' = more ∧ (process env h cb fns p x).run net t = some ((.ok (), { x with inp := s', app := app₂ }), t')) := by
  have hbs' : project X env.sch (.struct s.argsId) (.struct as) = .struct bs :=
    reads_unique (project_reads X env.sch (fun sid => (has.sender sid).1) has.versions _ _ has.typed hnd) hbs
  refine ⟨F.header s.name 4 seqid ++ F.value X (.struct s.argsId) (.struct as), ?_, ?_⟩
  · intro x hi hb hsq
    obtain ⟨s', hi', e⟩ := send_transmits hpc fl mode X c as x hi (by rw [hV.name]; exact hh.text) (by rw [hsq]; exact hh.range) hX
      (by rw [hV.args]; exact has.typed) hdepth
    refine ⟨s', hi', ?_⟩
    rw [e, hV.oneway, hone, hb, hsq, hV.name, hV.args, List.nil_append]
    rfl
  · intro ν net left x t more hnet hi happ hx
    exact any_silent env h cb fns hp x hi s.name 4 seqid s hh hfn hone X (.struct as) has app₁ app₂ (by rw [happ]; exact hcb) o
      (by rw [hbs']; exact hrun) h1 h2 ν net left hnet t more hx

/-- C90: both sides of the same version: the handler gets the same arguments, the caller what the handler did. -/
theorem any_call (env : Env σ τ ω) (h : Handler χ) (cb : Option (PyStr → Int → Int → χ → Except Exc Unit × χ)) (fns : List Fn)
    {p : Proto σ} {pc : Proto κ} {F G : Format} {Idle : σ → Prop} {IdleOut : τ → Prop} {IdleC : κ → Prop} {A AC : Acceptance} (hp : Hears p F Idle A)
    (hq : Sends env.q G IdleOut) (hpc : Sends pc F IdleC) (hrc : Hears pc G IdleC AC) (fl : Bytes → ω' → Except Exc Unit × ω') (fuel : Nat)
    (fn : Fn) (hfn : Serves fns fn.name fn) (htwo : fn.oneway = false) (hres : ResultOK env.sch fn) (seqid : Int) (hh : Heads A fn.name 1 seqid)
    (as : List (Option Val)) (has : Suits A env.mode env.sch env.sch fn.argsId (.struct as) env.fuel) (hnd : NoDuplicates (.struct as))
    (hnh : NoHiddenDefault env.sch (.struct fn.argsId) (.struct as))
    (app app₁ app₂ : χ) (hcb : Began cb fn.name 1 seqid app app₁) (o : Outcome) (hrun : h fn as app₁ = (o, app₂)) (type : Nat) (sch' : Schema) (sid' : Nat)
    (w : Val) (hans : Answers env.sch fn o type sch' sid' w) (hh' : Heads AC fn.name type seqid)
    (hw2 : type = 2 → Suits AC env.mode env.sch env.sch fn.resultId w fuel ∧ NoDuplicates w ∧ NoHiddenDefault env.sch (.struct fn.resultId) w)
    (hw3 : type = 3 → 5 ≤ fuel ∧ ∃ x, w = appVal x ∧ AppOK x ∧ AC.value appSchema 0 w) (hd : structDepth w ≤ 64) :
    ∃ (req rep : Bytes) (r : Result), Told fn o r ∧
      (∀ x : Client κ ω', IdleC x.prot → x.buf = [] → x.seqid = seqid → ∃ s', IdleC s' ∧
        send pc fl env.sch env.mode fn as x = ((fl req x.sink).1, { x with prot := s', sink := (fl req x.sink).2 })) ∧
      (∀ (ν : Type) (net : Nat → ν → Option (Except Exc Bytes × ν)) (left : ν → Bytes) (x : Call σ τ χ ω) (t : ν) (more : Bytes),
        DeliversUntil net left → Idle x.inp → IdleOut x.out → x.buf = [] → x.app = app → left t = req ++ more →
        ∃ s' o' t', Idle s' ∧ IdleOut o' ∧ left t' = more ∧ (process env h cb fns p x).run net t =
          some (((env.flush rep x.sink).1, { inp := s', out := o', buf := [], app := app₂, sink := (env.flush rep x.sink).2 }), t')) ∧
      (∀ (ν : Type) (net : Nat → ν → Option (Except Exc Bytes × ν)) (left : ν → Bytes) (x : κ) (t : ν) (more : Bytes),
        DeliversUntil net left → IdleC x → left t = rep ++ more →
        ∃ s' t', IdleC s' ∧ left t' = more ∧ (recv pc env.sch env.mode fuel fn x).run net t = some ((.ok r, s'), t')) := by
  have hself : ∀ v t, WT env.sch t v → NoDuplicates v → NoHiddenDefault env.sch t v → project env.sch env.sch t v = v := fun v t h1 h2 h3 =>
    project_self env.sch (fun sid => (has.sender sid).1) v t h1 h3 h2
  obtain ⟨r, htold, hwt, hcl⟩ : ∃ r, Told fn o r ∧ WT sch' (.struct sid') w ∧
      ∀ (ν : Type) (net : Nat → ν → Option (Except Exc Bytes × ν)) (left : ν → Bytes) (x : κ) (t : ν) (more : Bytes),
        DeliversUntil net left → IdleC x → left t = (G.header fn.name type seqid ++ G.value sch' (.struct sid') w) ++ more →
        ∃ s' t', IdleC s' ∧ left t' = more ∧ (recv pc env.sch env.mode fuel fn x).run net t = some ((.ok r, s'), t') := by
    by_cases h2 : type = 2
    · subst h2
      obtain ⟨hb, hnd', hnh'⟩ := hw2 rfl
      obtain ⟨as', r, rfl, rfl, rfl, hm, htold⟩ := answers_means hres hans
      refine ⟨r, htold, hb.typed, fun ν net left x t more hdel hi hx => ?_⟩
      obtain ⟨r', hm', e⟩ := any_recv hrc env.mode env.sch env.sch fuel fn hres x hi fn.name 2 seqid hh' (by omega) _ hb
      rw [hself _ _ hb.typed hnd' hnh'] at hm'
      cases means_unique hm hm'
      exact e ν net left hdel t more hx
    · have h3 : type = 3 := by cases hans <;> first | rfl | exact absurd rfl h2
      subst h3
      obtain ⟨hf, x, rfl, hx, hxl⟩ := hw3 rfl
      obtain ⟨rfl, rfl, htold, -⟩ := answers_exception hans
      exact ⟨_, htold, appVal_wt hx, fun ν net left y t more hdel hi hxt =>
        any_exception hrc env.mode env.sch fuel fn y hi fn.name seqid hh' x hx hxl hf ν net left hdel t more hxt⟩
  refine ⟨F.header fn.name 1 seqid ++ F.value env.sch (.struct fn.argsId) (.struct as), G.header fn.name type seqid ++ G.value sch' (.struct sid') w,
    r, htold, ?_, ?_, hcl⟩
  · intro x hi hb hsq
    obtain ⟨s', hi', e⟩ := send_transmits hpc fl env.mode env.sch fn as x hi hh.text (by rw [hsq]; exact hh.range) has.sender has.typed has.depth
    refine ⟨s', hi', ?_⟩
    rw [e, htwo, hb, hsq, List.nil_append]
    rfl
  · intro ν net left x t more hnet hi ho hbuf happ hx
    exact any_reply env h cb fns hp hq x hi ho hbuf fn.name 1 seqid fn hh hfn htwo hres env.sch (.struct as) has app₁ app₂ (by rw [happ]; exact hcb) o
      (by rw [hself _ _ has.typed hnd hnh]; exact hrun) type sch' sid' w hans hwt hd ν net left hnet t more hx

end

/-! ### The sample service with `TJSONProtocol` on both sides -/

section
open SampleService Json

/-- What the objects below accept: numbers and strings of at most 40 characters -/
abbrev jsonAccepts : Acceptance := .json Sample.py.fmt17 fun n => Within (some 40) n ∧ n < 100

abbrev jsonProto : Proto Json.St := proto Sample.py { stringLimit := some 40 } 100

theorem json_heads {name : PyStr} {type : Nat} {seqid : Int} (h1 : TextOK name) (h2 : IsMessageType type) (h3 : InRange 32 seqid)
    (h4 : jsonAccepts.header name type seqid) : Heads jsonAccepts name type seqid := ⟨h1, h2, h3, h4⟩

theorem json_args : Suits jsonAccepts .gen sch newer 1 (.struct args) 100 where
  sender := sch_ok _
  receiver := newer_ok _
  versions := newer_compatible
  typed := (args_sendable .gen).typed
  accepted := ⟨by decide +kernel, by simp only [args, Doubles, Doublesf]; decide⟩
  depth := (args_sendable .gen).depth
  unknown := Unknowns_kept _ _ _ newer_keeps _ _
  fuel := (args_sendable .gen).fuel

theorem json_answer : Suits jsonAccepts .dyn newer sch 2 newAnswer 100 where
  sender := newer_ok _
  receiver := sch_ok _
  versions := older_compatible
  typed := newAnswer_body.typed
  accepted := ⟨by decide +kernel, by simp [newAnswer, newMissing, onlyField, newer, Doubles, Doublesf]⟩
  depth := by intro h; cases h
  unknown := by
    simp [newAnswer, newMissing, onlyField, newer, sch, Unknowns, Unknownsf, Known, Ty.ttype, nesting, jsonAccepts, Acceptance.json]
  fuel := newAnswer_body.fuel

/-- The hypotheses of `any_call_across` hold for `get(7)` of an old client (of the dynamic code) at a new server that raises `Missing`. -/
example := any_call_across (newEnv jsonProto) (fun _ _ n => (.declared 3 newMissing, n + 1) : Handler Nat) none newFns
  (Json.reads Sample.py { stringLimit := some 40 } 100 Sample.py_faithful) (Json.writes Sample.py { stringLimit := some 40 } 100)
  (Json.writes Sample.py { stringLimit := some 40 } 100) (Json.reads Sample.py { stringLimit := some 40 } 100 Sample.py_faithful)
  (framedFlush { write := fun b w => (.ok (), w ++ [b]), flush := fun (w : List Bytes) => (.ok (), w) }) .dyn 100
  sch (sch_ok .dyn) get newGet get_versions ⟨rfl, [], [newClear, log], rfl, by decide⟩ rfl get_ok newGet_ok 0
  (json_heads (by decide) ⟨by omega, by omega⟩ (by decide) (by unfold jsonAccepts Acceptance.json; decide +kernel)) args _ json_args (by intro h; cases h)
  (args_sendable .gen).duplicates args_read 4 4 5 rfl (.declared 3 newMissing) rfl 2 newer 2 newAnswer (.declared 3 newMissing _ newDeclared)
  (json_heads (by decide) ⟨by omega, by omega⟩ (by decide) (by unfold jsonAccepts Acceptance.json; decide +kernel))
  (fun _ => ⟨json_answer, by simp [newAnswer, newMissing, onlyField, newer, NoDuplicates, NoDuplicatesf]⟩) (fun h => by cases h) (by decide)

theorem json_seven : Suits jsonAccepts .gen sch sch 2 seven 100 where
  sender := sch_ok _
  receiver := sch_ok _
  versions := compatible_self (sch_ok .gen)
  typed := (seven_sendable .gen).typed
  accepted := ⟨by decide +kernel, by simp [seven, SampleService.get, onlyField, sch, Doubles, Doublesf]⟩
  depth := (seven_sendable .gen).depth
  unknown := Unknowns_self _ _ _ _
  fuel := (seven_sendable .gen).fuel

theorem json_same : Suits jsonAccepts .gen sch sch 1 (.struct args) 100 :=
  { json_args with receiver := sch_ok _, versions := compatible_self (sch_ok .gen), unknown := Unknowns_self _ _ _ _ }

/-- The hypotheses of `any_call` hold for `get(7)`. -/
example := any_call (sampleEnv jsonProto) handler none fns
  (Json.reads Sample.py { stringLimit := some 40 } 100 Sample.py_faithful) (Json.writes Sample.py { stringLimit := some 40 } 100)
  (Json.writes Sample.py { stringLimit := some 40 } 100) (Json.reads Sample.py { stringLimit := some 40 } 100 Sample.py_faithful)
  (framedFlush { write := fun b w => (.ok (), w ++ [b]), flush := fun (w : List Bytes) => (.ok (), w) }) 100
  get serves.1 rfl get_ok 0 (json_heads (by decide) ⟨by omega, by omega⟩ (by decide) (by unfold jsonAccepts Acceptance.json; decide +kernel)) args json_same
  (args_sendable .gen).duplicates (args_sendable .gen).hidden 4 4 5 rfl (.returned (some (.str (pyStr "seven")))) rfl 2 sch 2 seven (.value _ rfl)
  (json_heads (by decide) ⟨by omega, by omega⟩ (by decide) (by unfold jsonAccepts Acceptance.json; decide +kernel))
  (fun _ => ⟨json_seven, (seven_sendable .gen).duplicates, (seven_sendable .gen).hidden⟩) (fun h => by cases h) (by decide)

/-- The hypotheses of `any_reply` hold for a server that is asked in JSON and answers in the compact protocol. -/
example := any_reply (sampleEnv (Compact.proto {})) handler none fns (Json.reads Sample.py { stringLimit := some 40 } 100 Sample.py_faithful)
  (Compact.writes {}) { inp := {}, out := {}, sink := [], app := 4 } rfl ⟨rfl, rfl, rfl⟩ rfl (pyStr "get") 1 0 get
  (json_heads (by decide) ⟨by omega, by omega⟩ (by decide) (by unfold jsonAccepts Acceptance.json; decide +kernel)) serves.1 rfl get_ok sch (.struct args) json_same
  4 5 rfl (.returned (some (.str (pyStr "seven"))))
  (by
    show handler SampleService.get (attrsOf (project sch sch (.struct 1) (.struct args))) 4 = _
    rw [project_self sch (fun sid => (sch_ok .gen sid).1) _ _ json_same.typed (args_sendable .gen).hidden (args_sendable .gen).duplicates]; rfl)
  2 sch 2 seven (.value _ rfl) (seven_sendable .gen).typed (by decide)

/-- The hypotheses of `any_unknown` hold for a call of `put`. -/
example := any_unknown (sampleEnv jsonProto) handler none fns (Json.reads Sample.py { stringLimit := some 40 } 100 Sample.py_faithful)
  (Json.writes Sample.py { stringLimit := some 40 } 100) { inp := {}, out := {}, sink := [], app := 4 } rfl rfl rfl (pyStr "put") 1 0
  (json_heads (by decide) ⟨by omega, by omega⟩ (by decide) (by unfold jsonAccepts Acceptance.json; decide +kernel)) (by decide) sch 1 (.struct args)
  ⟨fun sid => (sch_ok .gen sid).1, json_same.typed, json_same.accepted, by decide, trivial, json_same.fuel⟩ 4 rfl
  (by constructor <;> decide)

/-- The hypotheses of `any_oneway_across` hold for `log(7, ..)`. -/
example := any_oneway_across (sampleEnv jsonProto) handler none fns (Json.reads Sample.py { stringLimit := some 40 } 100 Sample.py_faithful)
  (Json.writes Sample.py { stringLimit := some 40 } 100)
  (framedFlush { write := fun b w => (.ok (), w ++ [b]), flush := fun (w : List Bytes) => (.ok (), w) }) .gen sch (sch_ok .gen) log log
  ⟨rfl, rfl, rfl, rfl, rfl, by simp [log, sch], (by intro sid f h; cases h), (by intro h; cases h)⟩ serves.2.2 rfl 0
  (json_heads (by decide) ⟨by omega, by omega⟩ (by decide) (by unfold jsonAccepts Acceptance.json; decide +kernel)) args args json_same json_same.depth
  (args_sendable .gen).duplicates (reads_of (fun sid => (sch_ok .gen sid).1) json_same.versions json_same.typed (args_sendable .gen).duplicates
    (project_self sch (fun sid => (sch_ok .gen sid).1) _ _ json_same.typed (args_sendable .gen).hidden (args_sendable .gen).duplicates))
  4 4 5 rfl (.returned none) rfl (by intro t h; cases h) (by intro n h; cases h)

/-- The request as it is on the wire -/
example : (Format.json Sample.py.fmt17).header (pyStr "get") 1 0 ++ (Format.json Sample.py.fmt17).value sch (.struct 1) (.struct args) =
    ascii "[1,\"get\",1,0,{\"1\":{\"i32\":7},\"2\":{\"str\":\"" ++ [0xC3, 0xA9] ++ ascii "\"}}]" := by decide +kernel

end
end Thrift
