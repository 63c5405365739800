import Verif.Spec.TornadoServer
import Verif.Props.TwistedServer
/-
C76: the Tornado server answers the requests of a connection one after the other.
-/

namespace Thrift.TornadoServer
open Rpc Spec Spec.TornadoServer
open Spec.TwistedServer (Request Good Unknown Request.bytes Request.attrs)

section
variable {σ τ : Type} [HasDepth σ] [HasDepth τ] {env : Env σ τ}

/-! ### Every history -/

theorem sent_append (a b : List Obs) : sent (a ++ b) = sent a ++ sent b := List.filterMap_append ..
theorem received_append (a b : List Event) : received (a ++ b) = received a ++ received b := List.filterMap_append ..
theorem calls_append (a b : List Obs) : calls (a ++ b) = calls a + calls b := List.countP_append

theorem finished_append (a b : List Event) : finished (a ++ b) = finished a + finished b := List.countP_append

/-- Handlers that the coroutine waits for -/
def St.open (s : St τ) : Nat :=
  match s.phase with
  | .waiting _ _ => 1
  | _ => 0

structure Inv (env : Env σ τ) (es : List Event) (s : St τ) (os : List Obs) : Prop where
  clean : s.phase = .ended ∨ s.wbuf = []
  handlers : calls os = finished es + s.open
  count : (sent os).length + s.open ≤ (received es).length
  whole : ∀ b ∈ sent os, Whole env b
  last : ∀ x ∈ os, Last x → s.phase = .ended
  final : ∀ a x b, os = a ++ x :: b → Last x → b = []

/-- What processing a frame, or the end of a handler, may come to -/
inductive Result (env : Env σ τ) (s' : St τ) : List Obs → Prop
  | failed (x : Obs) : Last x → s'.phase = .ended → Result env s' [x]
  | quiet : s'.phase = .head → s'.wbuf = [] → Result env s' []
  | sent (b : Bytes) : s'.phase = .head → s'.wbuf = [] → Whole env b → Result env s' [.sent b]
  | waits (fn : Fn) (as : List (Option Val)) (seqid : Int) : s'.phase = .waiting fn seqid → s'.wbuf = [] → Result env s' [.invoked fn as]

omit [HasDepth σ] in
theorem close_result (s : St τ) : Result env s.close.1 s.close.2 := .failed _ (.inl rfl) rfl

theorem packS_ok {n : Nat} {i : Int} {h : Bytes} (hp : packS n i = .ok h) : h = beInt n i := by
  by_cases hr : InRange (8 * n) i
  · rw [packS_eq hr] at hp
    cases hp
    rfl
  · rw [packS_out hr] at hp
    cases hp

omit [HasDepth σ] [HasDepth τ] in
theorem send_error {s : St τ} {name : PyStr} {type seqid : Int} {body : W τ Unit} {e : Exc} {t : τ} {b : Bytes}
    (hm : message env.q name type seqid body s.prot s.wbuf = (.error e, t, b)) (w : Option Tornado.Fail) :
    s.send env name type seqid body w = St.close { s with prot := t, wbuf := b } := by
  unfold St.send
  rw [hm]

omit [HasDepth σ] [HasDepth τ] in
theorem send_ok {s : St τ} {name : PyStr} {type seqid : Int} {body : W τ Unit} {t : τ} {b : Bytes}
    (hm : message env.q name type seqid body s.prot s.wbuf = (.ok (), t, b)) (w : Option Tornado.Fail) :
    s.send env name type seqid body w = St.flush { s with prot := t } b w (packS 4 b.length) := by
  unfold St.send
  rw [hm]

omit [HasDepth σ] in
theorem flush_result (s : St τ) {m : W τ Unit} {t : τ} {b : Bytes} (name : PyStr) (type seqid : Int) {t₀ : τ}
    (hm : message env.q name type seqid m t₀ [] = (.ok (), t, b)) (w : Option Tornado.Fail) (r : Except Exc Bytes)
    (hr : ∀ h, r = .ok h → h = beInt 4 b.length) :
    Result env (s.flush b w r).1 (s.flush b w r).2 ∧ calls (s.flush b w r).2 = 0 := by
  cases r with
  | error e => exact ⟨close_result _, rfl⟩
  | ok h =>
    cases w with
    | some f => exact ⟨close_result _, rfl⟩
    | none =>
      have hf : h ++ b = frame b := by rw [hr h rfl, frame]
      exact ⟨.sent _ rfl rfl ⟨name, type, seqid, m, t₀, t, b, hm, hf⟩, rfl⟩

omit [HasDepth σ] in
theorem send_result (s : St τ) (hs : s.wbuf = []) (name : PyStr) (type seqid : Int) (body : W τ Unit) (w : Option Tornado.Fail) :
    Result env (s.send env name type seqid body w).1 (s.send env name type seqid body w).2 ∧
      calls (s.send env name type seqid body w).2 = 0 := by
  match hm : message env.q name type seqid body s.prot s.wbuf with
  | (.error e, t, b) =>
    rw [send_error hm]
    exact ⟨close_result _, rfl⟩
  | (.ok (), t, b) =>
    rw [send_ok hm]
    rw [hs] at hm
    exact flush_result _ _ _ _ hm w _ fun h hp => packS_ok hp

theorem process_result (s : St τ) (hs : s.wbuf = []) (b : Bytes) (w : Option Tornado.Fail) :
    Result env (s.process env b w).1 (s.process env b w).2 := by
  unfold St.process
  split
  · exact .failed _ (.inr (.inr rfl)) rfl
  · exact close_result _
  · split
    · split
      · exact .failed _ (.inr (.inr rfl)) rfl
      · exact close_result _
      · exact (send_result s hs _ _ _ _ _).1
    · split
      · exact .failed _ (.inr (.inr rfl)) rfl
      · exact close_result _
      · exact .waits _ _ _ rfl hs

omit [HasDepth σ] in
theorem done_result (s : St τ) (hs : s.wbuf = []) (fn : Fn) (seqid : Int) (w : Option Tornado.Fail) (o : Outcome) :
    Result env (s.done env fn seqid w o).1 (s.done env fn seqid w o).2 ∧ calls (s.done env fn seqid w o).2 = 0 := by
  unfold St.done
  split
  · exact ⟨.failed _ (.inr (.inl ⟨_, rfl⟩)) rfl, rfl⟩
  · split
    · exact ⟨close_result _, rfl⟩
    · exact ⟨.quiet rfl hs, rfl⟩
    · exact send_result s hs _ _ _ _ _

theorem not_last_invoked {fn : Fn} {as : List (Option Val)} : ¬ Last (.invoked fn as) := by
  rintro (h | ⟨n, h⟩ | h) <;> cases h
theorem not_last_sent {b : Bytes} : ¬ Last (.sent b) := by
  rintro (h | ⟨n, h⟩ | h) <;> cases h

omit [HasDepth σ] in
/-- The invariant after a step with result `os'` -/
theorem inv_result {es : List Event} {s s' : St τ} {os os' : List Obs} {e : Event} (h : Inv env es s os) (hp : s.phase ≠ .ended)
    (hr : Result env s' os') (hfin : calls os' + s.open = finished [e] + s'.open)
    (hcnt : (sent os').length + s'.open ≤ (received [e]).length + s.open) :
    Inv env (es ++ [e]) s' (os ++ os') where
  clean := by
    cases hr with
    | failed x _ h => exact .inl h
    | quiet _ h => exact .inr h
    | sent _ _ h => exact .inr h
    | waits _ _ _ _ h => exact .inr h
  handlers := by
    have := h.handlers
    rw [calls_append, finished_append]
    omega
  count := by
    have := h.count
    rw [sent_append, received_append, List.length_append, List.length_append]
    omega
  whole := by
    intro b hb
    rw [sent_append, List.mem_append] at hb
    rcases hb with hb | hb
    · exact h.whole b hb
    · cases hr with
      | failed x hx _ =>
        rcases hx with rfl | ⟨n, rfl⟩ | rfl <;> simp [Spec.TornadoServer.sent] at hb
      | quiet _ _ => simp [Spec.TornadoServer.sent] at hb
      | sent b' _ _ hw =>
        simp [Spec.TornadoServer.sent] at hb
        rw [hb]
        exact hw
      | waits _ _ _ _ _ => simp [Spec.TornadoServer.sent] at hb
  last := by
    intro x hx hl
    rw [List.mem_append] at hx
    rcases hx with hx | hx
    · exact absurd (h.last x hx hl) hp
    · cases hr with
      | failed x _ h => exact h
      | quiet _ _ => cases hx
      | sent b _ _ _ =>
        rw [List.mem_singleton] at hx
        subst hx
        exact absurd hl not_last_sent
      | waits _ _ _ _ _ =>
        rw [List.mem_singleton] at hx
        subst hx
        exact absurd hl not_last_invoked
  final := by
    intro a x b e hl
    rcases List.append_eq_append_iff.1 e with ⟨c, h1, h2⟩ | ⟨c, h1, h2⟩
    · -- `x` is in the new part
      cases hr with
      | failed y _ _ =>
        have : c ++ x :: b = [y] := h2.symm
        cases c with
        | nil => simp at this; exact this.2
        | cons z c => simp at this
      | quiet _ _ => simp at h2
      | sent y _ _ _ =>
        have : c ++ x :: b = [.sent y] := h2.symm
        cases c with
        | nil => simp at this; exact this.2
        | cons z c => simp at this
      | waits f g _ _ _ =>
        have : c ++ x :: b = [.invoked f g] := h2.symm
        cases c with
        | nil => simp at this; exact this.2
        | cons z c => simp at this
    · cases c with
      | nil =>
        simp at h2
        cases hr with
        | failed y _ _ => simp at h2; exact h2.2
        | quiet _ _ => simp at h2
        | sent y _ _ _ => simp at h2; exact h2.2
        | waits f g _ _ _ => simp at h2; exact h2.2
      | cons z c =>
        have hz : z = x := by simp at h2; exact h2.1.symm
        subst hz
        exact absurd (h.last z (by rw [h1]; simp) hl) hp

theorem inv_step {es : List Event} {s s' : St τ} {os os' : List Obs} (h : Inv env es s os) (e : Event)
    (hs : s.step env e = some (s', os')) : Inv env (es ++ [e]) s' (os ++ os') := by
  unfold St.step at hs
  split at hs
  · -- look
    split at hs
    · rename_i c _ hp
      simp only [Option.some.injEq, Prod.mk.injEq] at hs
      obtain ⟨rfl, rfl⟩ := hs
      have hw : s.wbuf = [] := by
        rcases h.clean with h | h
        · rw [hp] at h; cases h
        · exact h
      have hopen : s.open = 0 := by unfold St.open; rw [hp]
      have hopen' : St.open { s with phase := if c then Phase.ended else Phase.reading } = 0 := by
        cases c <;> rfl
      refine ⟨.inr hw, ?_, ?_, ?_, ?_, ?_⟩
      · rw [hopen', List.append_nil, h.handlers, hopen, finished_append]; rfl
      · rw [hopen', List.append_nil, received_append, List.length_append]
        have := h.count
        omega
      · rw [List.append_nil]; exact h.whole
      · rw [List.append_nil]
        intro x hx hl
        have := h.last x hx hl
        rw [hp] at this
        cases this
      · rw [List.append_nil]; exact h.final
    · cases hs
  · -- frame
    split at hs
    · rename_i r w _ hp
      have hw : s.wbuf = [] := by
        rcases h.clean with h | h
        · rw [hp] at h; cases h
        · exact h
      have hopen : s.open = 0 := by unfold St.open; rw [hp]
      have hne : s.phase ≠ .ended := by rw [hp]; exact fun h => nomatch h
      cases r with
      | ok b =>
        simp only [Option.some.injEq] at hs
        have hr := process_result (env := env) s hw b w
        rw [hs] at hr
        dsimp only at hr
        refine inv_result h hne hr ?_ ?_
        · rw [hopen]
          have : finished [Event.frame (.ok b) w] = 0 := rfl
          rw [this]
          cases hr with
          | failed x hx hp => rcases hx with rfl | ⟨n, rfl⟩ | rfl <;> simp [St.open, hp, calls]
          | quiet hp _ => simp [St.open, hp, calls]
          | sent b hp _ _ => simp [St.open, hp, calls]
          | waits _ _ _ hp _ => simp [St.open, hp, calls]
        · rw [hopen]
          have : (received [Event.frame (.ok b) w]).length = 1 := rfl
          rw [this]
          cases hr with
          | failed x hx hp => rcases hx with rfl | ⟨n, rfl⟩ | rfl <;> simp [St.open, hp, Spec.TornadoServer.sent]
          | quiet hp _ => simp [St.open, hp, Spec.TornadoServer.sent]
          | sent b hp _ _ => simp [St.open, hp, Spec.TornadoServer.sent]
          | waits _ _ _ hp _ => simp [St.open, hp, Spec.TornadoServer.sent]
      | error e =>
        simp only at hs
        split at hs
        · simp only [Option.some.injEq, Prod.mk.injEq] at hs
          obtain ⟨rfl, rfl⟩ := hs
          refine ⟨.inl rfl, ?_, ?_, ?_, ?_, ?_⟩
          · rw [List.append_nil, h.handlers, hopen, finished_append]; rfl
          · rw [List.append_nil, received_append, List.length_append]
            have := h.count
            have h0 : St.open { s with phase := .ended } = 0 := rfl
            omega
          · rw [List.append_nil]; exact h.whole
          · exact fun _ _ _ => rfl
          · rw [List.append_nil]; exact h.final
        · simp only [Option.some.injEq] at hs
          have hr := close_result (env := env) s
          rw [hs] at hr
          dsimp only at hr
          have h2 : s' = s.close.1 ∧ os' = [.closed] := by rw [hs]; exact ⟨rfl, by cases hs; rfl⟩
          refine inv_result h hne hr ?_ ?_
          · rw [h2.1, h2.2, hopen]; rfl
          · rw [h2.1, h2.2, hopen]; exact Nat.le_refl _
    · cases hs
  · -- done
    split at hs
    · rename_i o w _ fn seqid hp
      simp only [Option.some.injEq] at hs
      have hw : s.wbuf = [] := by
        rcases h.clean with h | h
        · rw [hp] at h; cases h
        · exact h
      have hopen : s.open = 1 := by unfold St.open; rw [hp]
      have hne : s.phase ≠ .ended := by rw [hp]; exact fun h => nomatch h
      have hr := done_result (env := env) s hw fn seqid w o
      rw [hs] at hr
      dsimp only at hr
      have hfin : finished [Event.done o w] = 1 := rfl
      refine inv_result h hne hr.1 ?_ ?_
      · rw [hopen, hfin, hr.2]
        have h2 := hr.2
        cases hr.1 with
        | failed x hx hp => simp [St.open, hp]
        | quiet hp _ => simp [St.open, hp]
        | sent b hp _ _ => simp [St.open, hp]
        | waits _ _ _ hp _ => simp [calls] at h2
      · rw [hopen]
        have h2 := hr.2
        cases hr.1 with
        | failed x hx hp => rcases hx with rfl | ⟨n, rfl⟩ | rfl <;> simp [St.open, hp, Spec.TornadoServer.sent]
        | quiet hp _ => simp [St.open, hp, Spec.TornadoServer.sent]
        | sent b hp _ _ => simp [St.open, hp, Spec.TornadoServer.sent]
        | waits _ _ _ hp _ => simp [calls] at h2
    · cases hs

theorem inv_run {es : List Event} {s : St τ} {os : List Obs} (h : Inv env es s os) : ∀ (es' : List Event) {s' : St τ} {os' : List Obs},
    s.run env es' = some (s', os') → Inv env (es ++ es') s' (os ++ os') := by
  intro es'
  induction es' generalizing es s os with
  | nil =>
    intro s' os' hr
    simp only [St.run, Option.some.injEq, Prod.mk.injEq] at hr
    obtain ⟨rfl, rfl⟩ := hr
    simpa using h
  | cons e es' ih =>
    intro s' os' hr
    unfold St.run at hr
    split at hr
    · cases hr
    · rename_i s1 o1 h1
      split at hr
      · cases hr
      · rename_i s2 o2 h2
        simp only [Option.some.injEq, Prod.mk.injEq] at hr
        obtain ⟨rfl, rfl⟩ := hr
        have := ih (inv_step h e h1) h2
        simpa using this

omit [HasDepth σ] in
theorem inv_init (t : τ) : Inv env [] { prot := t } [] :=
  ⟨.inr rfl, rfl, Nat.le_refl _, (fun _ h => nomatch h), (fun _ h => nomatch h), by intro a x b h; cases a <;> cases h⟩

/-- C76, for every history (whatever the frames contain, whatever the handlers do): at most one handler runs at a time; every frame gets at
most one reply, and none before its handler is done; what is sent are whole messages in frames, each written into an empty buffer; after an
error nothing is sent any more and no handler is called. -/
theorem one_at_a_time (env : Env σ τ) (t : τ) (es : List Event) (s : St τ) (os : List Obs)
    (hr : St.run env { prot := t } es = some (s, os)) :
    (∃ k ≤ 1, calls os = finished es + k ∧ (sent os).length + k ≤ (received es).length) ∧
      (∀ b ∈ sent os, Whole env b) ∧ (∀ a x b, os = a ++ x :: b → Last x → b = []) := by
  have h := inv_run (inv_init t) es hr
  rw [List.nil_append, List.nil_append] at h
  refine ⟨⟨s.open, ?_, h.handlers, h.count⟩, h.whole, h.final⟩
  unfold St.open
  split <;> omega

/-! ### What is answered -/

open TwistedServer (rpcEnv)

omit [HasDepth σ] in
theorem writeReply_eq (fn : Fn) (r : Reply) : writeReply env fn r = Rpc.writeReply (rpcEnv env) fn r := by
  cases r <;> rfl

theorem process_good {F : Format} {Idle : σ → Prop} {sl cl : Option Int} (hp : Receives env.p F Idle sl cl) (hs : Idle env.s₀)
    {r : Request} (hr : Good env sl cl r) (s : St τ) (w : Option Tornado.Fail) :
    s.process env (r.bytes F) w = ({ s with phase := .waiting r.fn r.seqid }, [.invoked r.fn (r.attrs env)]) := by
  have h1 := hp.header r.fn.name r.type r.seqid env.s₀ (F.value r.sch (.struct r.fn.argsId) r.args) hs hr.header
  obtain ⟨s', hi', h2⟩ := hp.value env.mode r.sch env.sch r.fn.argsId r.args env.s₀ env.fuel hs hr.body
  have h2' := h2 []
  rw [List.append_nil] at h2'
  unfold St.process Request.bytes
  rw [h1]
  dsimp only
  rw [lookup_serves hr.serves]
  dsimp only
  rw [exec_bind, h2', Res.andThen_ok, exec_bind, hp.finish s' [] hi', Res.andThen_ok]
  rw [exec_pure]
  rfl

omit [HasDepth σ] [HasDepth τ] in
theorem send_short {s : St τ} (hw : s.wbuf = []) {name : PyStr} {type seqid : Int} {body : W τ Unit} {t : τ} {b : Bytes}
    (hm : message env.q name type seqid body s.prot [] = (.ok (), t, b)) (hb : b.length < 2 ^ 31) :
    s.send env name type seqid body none = ({ phase := .head, prot := t, wbuf := [] }, [.sent (frame b)]) := by
  rw [← hw] at hm
  rw [send_ok hm, packS_eq (n := 4) (inRange32_of_lt hb)]
  rfl

theorem process_unknown {F G : Format} {Idle : σ → Prop} {IdleOut : τ → Prop} {sl cl : Option Int} (hp : Receives env.p F Idle sl cl)
    (hs : Idle env.s₀) (hq : Sends env.q G IdleOut) {s : St τ} (ht : IdleOut s.prot) (hw : s.wbuf = [])
    {r : Request} (hr : Unknown env sl cl r) (hl : (G.header r.fn.name 3 r.seqid ++ G.app (unknownMethod r.fn.name)).length < 2 ^ 31) :
    ∃ t', IdleOut t' ∧ s.process env (r.bytes F) none =
      ({ phase := .head, prot := t', wbuf := [] }, [.sent (frame (G.header r.fn.name 3 r.seqid ++ G.app (unknownMethod r.fn.name)))]) := by
  have h1 := hp.header r.fn.name r.type r.seqid env.s₀ (F.value r.sch (.struct r.fn.argsId) r.args) hs hr.header
  obtain ⟨s', hi', h2⟩ := hp.skip r.sch r.fn.argsId r.args env.s₀ env.fuel hs hr.fields hr.typed hr.limits hr.depth hr.texts hr.fuel
  have h2' := h2 []
  rw [List.append_nil] at h2'
  obtain ⟨t', hm, ht'⟩ := app_write hq r.fn.name 3 r.seqid (unknownMethod r.fn.name) s.prot [] ht
    ⟨hr.header.text, (by intro l h; cases h), ⟨by omega, by omega⟩, hr.header.range⟩ hr.answer
  rw [List.nil_append] at hm
  refine ⟨t', ht', ?_⟩
  unfold St.process Request.bytes
  rw [h1]
  dsimp only
  rw [lookup_none hr.missing]
  dsimp only
  rw [exec_bind, h2', Res.andThen_ok, hp.finish s' [] hi']
  exact send_short hw hm hl

omit [HasDepth σ] in
theorem done_reply {G : Format} {IdleOut : τ → Prop} (hq : Sends env.q G IdleOut) {s : St τ} (ht : IdleOut s.prot) (hw : s.wbuf = [])
    (hsch : SchemaOK env.mode env.sch) {fn : Fn} {seqid : Int} (hn : TextOK fn.name) (hr : InRange 32 seqid) {o : Outcome} {type : Nat}
    {sch : Schema} {sid : Nat} {v : Val} (h1 : fn.oneway = false) (h2 : ResultOK env.sch fn) (h3 : Answers env.sch fn o type sch sid v)
    (h4 : WT sch (.struct sid) v) (h5 : structDepth v ≤ 64)
    (h6 : (G.header fn.name type seqid ++ G.value sch (.struct sid) v).length < 2 ^ 31) :
    ∃ t', IdleOut t' ∧ s.done env fn seqid none o =
      ({ phase := .head, prot := t', wbuf := [] }, [.sent (frame (G.header fn.name type seqid ++ G.value sch (.struct sid) v))]) := by
  obtain ⟨r, mode, e1, e2, e3⟩ := answer_of (env := rpcEnv env) h2 h1 hsch h3
  have hty : IsMessageType type := by cases h3 <;> exact ⟨by omega, by omega⟩
  obtain ⟨t', hm, ht'⟩ := hq fn.name type seqid sch mode sid v s.prot [] ht hn hty hr e2 h4 (fun _ => h5)
  refine ⟨t', ht', ?_⟩
  have hb : ∀ n, o ≠ .base n := by rintro n rfl; cases h3
  have : s.done env fn seqid none o = s.send env fn.name type seqid (writeReply env fn r) none := by
    unfold St.done
    split
    · exact absurd rfl (hb _)
    · rw [e1]
  rw [this]
  refine send_short hw ?_ h6
  rw [writeReply_eq, e3]
  exact hm

omit [HasDepth σ] in
theorem done_oneway (s : St τ) {fn : Fn} {seqid : Int} {o : Outcome} (h1 : fn.oneway = true) (h2 : ∀ t, o ≠ .transport t) (h3 : ∀ n, o ≠ .base n)
    (w : Option Tornado.Fail) : s.done env fn seqid w o = ({ s with phase := .head }, []) := by
  unfold St.done
  cases o with
  | transport t => exact absurd rfl (h2 t)
  | base n => exact absurd rfl (h3 n)
  | _ => simp [answer, h1]

theorem step_look {s : St τ} (h : s.phase = .head) : s.step env (.look false) = some ({ s with phase := .reading }, []) := by
  unfold St.step
  dsimp only
  rw [h]
  rfl

theorem step_frame {s : St τ} (h : s.phase = .reading) (b : Bytes) (w : Option Tornado.Fail) :
    s.step env (.frame (.ok b) w) = some (s.process env b w) := by
  unfold St.step
  dsimp only
  rw [h]

theorem step_done {s : St τ} {fn : Fn} {seqid : Int} (h : s.phase = .waiting fn seqid) (o : Outcome) (w : Option Tornado.Fail) :
    s.step env (.done o w) = some (s.done env fn seqid w o) := by
  unfold St.step
  dsimp only
  rw [h]

theorem run_cons {s s' : St τ} {e : Event} {o : List Obs} (h : s.step env e = some (s', o)) {es : List Event} {s'' : St τ} {os : List Obs}
    (hr : s'.run env es = some (s'', os)) : s.run env (e :: es) = some (s'', o ++ os) := by
  rw [St.run, h]
  dsimp only
  rw [hr]

theorem run_append {s s' : St τ} {es : List Event} {o : List Obs} (h : s.run env es = some (s', o)) {es' : List Event} {s'' : St τ}
    {os : List Obs} (hr : s'.run env es' = some (s'', os)) : s.run env (es ++ es') = some (s'', o ++ os) := by
  induction es generalizing s o with
  | nil =>
    simp only [St.run, Option.some.injEq, Prod.mk.injEq] at h
    obtain ⟨rfl, rfl⟩ := h
    exact hr
  | cons e es ih =>
    unfold St.run at h
    split at h
    · cases h
    · rename_i s1 o1 h1
      split at h
      · cases h
      · rename_i s2 o2 h2
        simp only [Option.some.injEq, Prod.mk.injEq] at h
        obtain ⟨rfl, rfl⟩ := h
        rw [List.append_assoc]
        exact run_cons h1 (ih h2)

theorem turn_run {F G : Format} {Idle : σ → Prop} {IdleOut : τ → Prop} {sl cl : Option Int} (hp : Receives env.p F Idle sl cl)
    (hs : Idle env.s₀) (hq : Sends env.q G IdleOut) (hsch : SchemaOK env.mode env.sch) {t : τ} (ht : IdleOut t) {i : Item} {os : List Obs}
    (h : Turn env G sl cl i os) :
    ∃ t', IdleOut t' ∧ St.run env { prot := t } (i.events F) = some ({ prot := t' }, os) := by
  cases h with
  | @reply r o type sch sid w hr h1 h2 h3 h4 h5 h6 =>
    obtain ⟨t', ht', hd⟩ := done_reply hq (s := { phase := .waiting r.fn r.seqid, prot := t }) ht rfl hsch hr.header.text hr.header.range
      h1 h2 h3 h4 h5 h6
    refine ⟨t', ht', ?_⟩
    refine run_cons (o := []) (step_look rfl) (run_cons (o := [_]) ((step_frame rfl _ _).trans (congrArg some (process_good hp hs hr _ none)))
      (run_cons (o := [_]) ((step_done rfl _ _).trans (congrArg some hd)) (os := []) rfl))
  | @oneway r o hr h1 h2 h3 =>
    refine ⟨t, ht, ?_⟩
    exact run_cons (o := []) (step_look rfl) (run_cons (o := [_]) ((step_frame rfl _ _).trans (congrArg some (process_good hp hs hr _ none)))
      (run_cons (o := []) ((step_done rfl _ _).trans (congrArg some (done_oneway _ h1 h2 h3 _))) (os := []) rfl))
  | @unknown r hr hl =>
    obtain ⟨t', ht', hd⟩ := process_unknown hp hs hq (s := { phase := .reading, prot := t }) ht rfl hr hl
    refine ⟨t', ht', ?_⟩
    exact run_cons (o := []) (step_look rfl) (run_cons (o := [_]) ((step_frame rfl _ _).trans (congrArg some hd)) (os := []) rfl)

/-- C76: any number of requests on a connection, one after another, each of any function known or unknown: for each, the handler is called
with the arguments as sent, and one reply is sent with the name and the sequence id of the call and with what the handler did (nothing for
`oneway` functions), before the next request is read. -/
theorem served (env : Env σ τ) {F G : Format} {Idle : σ → Prop} {IdleOut : τ → Prop} {sl cl : Option Int} (hp : Receives env.p F Idle sl cl)
    (hs : Idle env.s₀) (hq : Sends env.q G IdleOut) (hsch : SchemaOK env.mode env.sch) (t : τ) (ht : IdleOut t) (is : List Item)
    (os : List Obs) (h : Served env G sl cl is os) :
    ∃ t', IdleOut t' ∧ St.run env { prot := t } (is.flatMap (Item.events F)) = some ({ prot := t' }, os) := by
  induction h generalizing t with
  | nil => exact ⟨t, ht, rfl⟩
  | cons h1 _ ih =>
    obtain ⟨t1, ht1, hr1⟩ := turn_run hp hs hq hsch ht h1
    obtain ⟨t2, ht2, hr2⟩ := ih t1 ht1
    refine ⟨t2, ht2, ?_⟩
    rw [List.flatMap_cons]
    exact run_append hr1 hr2

/-- C76: after a request that cannot be answered, the connection is closed and nothing of the answer is sent, whether the handler raises
`TTransportException` or returns what cannot be written. -/
theorem breaks (env : Env σ τ) {F : Format} {Idle : σ → Prop} {IdleOut : τ → Prop} {sl cl : Option Int} (hp : Receives env.p F Idle sl cl)
    (hs : Idle env.s₀) (t : τ) (ht : IdleOut t) (r : Request) (o : Outcome) (h : Break env IdleOut sl cl r o) :
    ∃ s, St.run env { prot := t } ((Item.call r o).events F) = some (s, [.invoked r.fn (r.attrs env), .closed]) := by
  have hgood : Good env sl cl r := by cases h <;> assumption
  have hd : ∃ s, St.done env { phase := .waiting r.fn r.seqid, prot := t } r.fn r.seqid none o = (s, [.closed]) := by
    cases h with
    | transport x _ => exact ⟨_, rfl⟩
    | @unwritable v _ h1 h2 =>
      obtain ⟨e, t', b, hm⟩ := h2 t ht
      unfold St.done
      have ha : answer r.fn (.returned v) = .ok (some (TMessageType.REPLY, .result (setSuccess r.fn v))) := by simp [answer, h1]
      dsimp only
      rw [ha]
      dsimp only
      rw [writeReply, send_error (s := { phase := .waiting r.fn r.seqid, prot := t }) hm]
      exact ⟨_, rfl⟩
  obtain ⟨s, hd⟩ := hd
  exact ⟨s, run_cons (o := []) (step_look rfl) (run_cons (o := [_]) ((step_frame rfl _ _).trans (congrArg some (process_good hp hs hgood _ none)))
      (run_cons (o := [_]) ((step_done rfl _ _).trans (congrArg some hd)) (os := []) rfl))⟩

/-- C76: when the peer closes the connection, the coroutine ends quietly; for any other failure of reading, it closes the connection. -/
theorem end_of_stream (env : Env σ τ) (t : τ) (e : Exc) (w : Option Tornado.Fail) :
    ∃ s : St τ, s.phase = .ended ∧ St.run env { prot := t } [.look false, .frame (.error e) w] =
      some (s, if e = .ttransport 4 then [] else [.closed]) := by
  by_cases h : e = .ttransport 4
  · subst h
    exact ⟨⟨.ended, t, []⟩, rfl, rfl⟩
  · refine ⟨⟨.ended, t, []⟩, rfl, ?_⟩
    rw [if_neg h]
    refine run_cons (o := []) (step_look rfl) (run_cons (s' := ⟨.ended, t, []⟩) (o := [.closed]) ?_ (os := []) rfl)
    unfold St.step
    dsimp only
    rw [show TTransportException.END_OF_FILE = .ttransport 4 from rfl, if_neg h]
    rfl

/-- C76: a closed stream ends the coroutine. -/
theorem stream_closed (env : Env σ τ) (t : τ) :
    ∃ s : St τ, St.run env { prot := t } [.look true] = some (s, []) ∧ ∀ e, s.step env e = none :=
  ⟨{ phase := .ended, prot := t }, rfl, fun e => by cases e <;> rfl⟩

/-- C76: a frame that cannot be read closes the connection, and no handler is called. -/
theorem bad_frame (env : Env σ τ) (t : τ) (b : Bytes) (h : Unreadable env b) (w : Option Tornado.Fail) :
    ∃ s : St τ, St.run env { prot := t } [.look false, .frame (.ok b) w] = some (s, [.closed]) ∧ ∀ e, s.step env e = none := by
  have hp : St.process env { phase := .reading, prot := t } b w = ({ phase := .ended, prot := t }, [.closed]) := by
    unfold St.process
    cases h with
    | header h => rw [h]; rfl
    | arguments h hs ha =>
      rw [h]
      dsimp only
      rw [lookup_serves hs]
      dsimp only
      rw [exec_bind, ha, Res.andThen_error]
      rfl
    | unknown h hs ha =>
      rw [h]
      dsimp only
      rw [lookup_none hs]
      dsimp only
      rw [exec_bind, ha, Res.andThen_error]
      rfl
  refine ⟨{ phase := .ended, prot := t }, run_cons (o := []) (step_look rfl) (run_cons (o := [_]) ((step_frame rfl _ _).trans (congrArg some hp))
    (os := []) rfl), fun e => by cases e <;> rfl⟩

omit [HasDepth σ] [HasDepth τ] in
theorem send_fails (s : St τ) (name : PyStr) (type seqid : Int) (body : W τ Unit) (f : Tornado.Fail) :
    ∃ s' : St τ, s'.phase = .ended ∧ s.send env name type seqid body (some f) = (s', [.closed]) := by
  match hm : message env.q name type seqid body s.prot s.wbuf with
  | (.error e, t, b) =>
    rw [send_error hm]
    exact ⟨_, rfl, rfl⟩
  | (.ok (), t, b) =>
    rw [send_ok hm]
    cases packS 4 b.length <;> exact ⟨_, rfl, rfl⟩

/-- C76: if the stream does not take the reply, the connection is closed. -/
theorem write_fails (env : Env σ τ) {F : Format} {Idle : σ → Prop} {sl cl : Option Int} (hp : Receives env.p F Idle sl cl)
    (hs : Idle env.s₀) (t : τ) (r : Request) (hr : Good env sl cl r) (ho : r.fn.oneway = false) (o : Outcome) (hb : ∀ n, o ≠ .base n)
    (f : Tornado.Fail) :
    ∃ s : St τ, St.run env { prot := t } [.look false, .frame (.ok (r.bytes F)) none, .done o (some f)] =
      some (s, [.invoked r.fn (r.attrs env), .closed]) ∧ ∀ e, s.step env e = none := by
  have hd : ∃ s' : St τ, s'.phase = .ended ∧
      St.done env { phase := .waiting r.fn r.seqid, prot := t } r.fn r.seqid (some f) o = (s', [.closed]) := by
    unfold St.done
    split
    · exact absurd rfl (hb _)
    · split
      · exact ⟨_, rfl, rfl⟩
      · rename_i h
        cases o <;> simp [answer, ho] at h
        split at h <;> cases h
      · exact send_fails _ _ _ _ _ _
  obtain ⟨s', hs', hd⟩ := hd
  refine ⟨s', run_cons (o := []) (step_look rfl) (run_cons (o := [_]) ((step_frame rfl _ _).trans (congrArg some (process_good hp hs hr _ none)))
      (run_cons (o := [_]) ((step_done rfl _ _).trans (congrArg some hd)) (os := []) rfl)), fun e => ?_⟩
  unfold St.step
  rw [hs']
  cases e <;> rfl

/-- C76, where it fails: a handler that ends with an exception that is no `Exception` (`asyncio.CancelledError`, for one): the call is
never answered, and the connection is not closed; the client waits for ever. Nothing else can happen on the connection. -/
theorem cancelled_hangs (env : Env σ τ) {F : Format} {Idle : σ → Prop} {sl cl : Option Int} (hp : Receives env.p F Idle sl cl)
    (hs : Idle env.s₀) (t : τ) (r : Request) (hr : Good env sl cl r) (n : Nat) :
    ∃ s : St τ, St.run env { prot := t } ((Item.call r (.base n)).events F) = some (s, [.invoked r.fn (r.attrs env), .escaped n]) ∧
      ∀ e, s.step env e = none := by
  refine ⟨{ phase := .ended, prot := t }, run_cons (o := []) (step_look rfl) (run_cons (o := [_])
    ((step_frame rfl _ _).trans (congrArg some (process_good hp hs hr _ none)))
      (run_cons (o := [_]) (s' := { phase := .ended, prot := t }) ((step_done rfl _ _).trans rfl) (os := []) rfl)), ?_⟩
  intro e
  cases e <;> rfl

end

/-! ### Examples -/

section
open SampleService
open TwistedServer (sampleGet sampleLog sampleOther sample_good sample_log sample_unknown)

/-- A call that returns, a `oneway` call, a call of a function that does not exist, and a call whose handler raises an exception that is
not declared. -/
def sampleItems : List Item :=
  [.call (sampleGet 1) (.returned (some (.str (pyStr "seven")))), .call sampleLog (.returned none), .other sampleOther,
    .call (sampleGet 2) (.other 5)]

theorem sample_served : ∃ os, TornadoServer.Served TwistedServer.sampleEnv Format.compact (some 20) (some 20) sampleItems os ∧
    calls os = 3 ∧ (sent os).length = 3 := by
  refine ⟨_, .cons (.reply (type := 2) (sample_good 1 (by decide)) rfl get_ok (.value _ rfl) (seven_sendable .gen).typed
      ((seven_sendable .gen).depth rfl) (by decide +kernel))
    (.cons (.oneway sample_log rfl (fun _ h => nomatch h) (fun _ h => nomatch h))
      (.cons (.unknown sample_unknown (by decide +kernel))
        (.cons (.reply (type := 3) (sample_good 2 (by decide)) rfl get_ok (.other 5) (appVal_wt (by constructor <;> intro m h <;> cases h <;> decide))
          (by rw [appVal_depth]; omega) (by decide +kernel)) .nil))), rfl, rfl⟩

example (os : List Obs) (h : TornadoServer.Served TwistedServer.sampleEnv Format.compact (some 20) (some 20) sampleItems os) :=
  served TwistedServer.sampleEnv (Compact.reads _) ⟨rfl, rfl, rfl⟩ (Compact.writes _) (sch_ok .gen) {} ⟨rfl, rfl, rfl⟩ _ os h

/-- A result that is not of the declared type -/
example := breaks TwistedServer.sampleEnv (IdleOut := (· = {})) (Compact.reads _) ⟨rfl, rfl, rfl⟩ {} rfl (sampleGet 1) (.returned (some (.int 5)))
  (.unwritable (sample_good 1 (by decide)) rfl fun t h => h ▸ ⟨_, _, _, rfl⟩)
example := breaks TwistedServer.sampleEnv (IdleOut := (· = {})) (Compact.reads _) ⟨rfl, rfl, rfl⟩ {} rfl sampleLog (.transport 4) (.transport 4 sample_log)

example := write_fails TwistedServer.sampleEnv (Compact.reads _) ⟨rfl, rfl, rfl⟩ {} (sampleGet 1) (sample_good 1 (by decide)) rfl (.other 5)
  (fun _ h => nomatch h) .io
example := bad_frame TwistedServer.sampleEnv {} [0x81, 0x21] (.header rfl) none
example : Unreadable TwistedServer.sampleEnv [0x82, 0x21, 5, 3, 103, 101, 116, 0x18] :=
  .arguments (fn := get) (type := 1) (seqid := 5) (b' := [0x18]) (i := {}) (e := .eof) (i' := { state := .VALUE_READ, lastFid := 1, structs := [(.CLEAR, 0)] }) (b'' := []) rfl serves.1 rfl
example : Unreadable TwistedServer.sampleEnv [0x82, 0x21, 5, 2, 110, 111, 0x18] :=
  .unknown (name := pyStr "no") (type := 1) (seqid := 5) (b' := [0x18]) (i := {}) (e := .eof) (b'' := []) (i' := { state := .VALUE_READ, lastFid := 1, structs := [(.CLEAR, 0)] }) rfl (by decide) rfl
example := cancelled_hangs TwistedServer.sampleEnv (Compact.reads _) ⟨rfl, rfl, rfl⟩ {} (sampleGet 1) (sample_good 1 (by decide)) 7

end
end Thrift.TornadoServer
