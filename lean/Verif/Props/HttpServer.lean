import Verif.Proofs.HttpServer
import Verif.Props.Http
/-
C83: `THttpServer`.
-/

namespace Thrift.HttpServer
open Spec Spec.HttpServer Rpc

/-! ## Protocols -/

theorem binary_starts (cfg : Binary.Cfg) : Starts (Binary.proto cfg) Format.binary Binary.Idle := by
  intro s _
  refine ⟨4, _, rfl, by omega, fun name type seqid => ?_⟩
  simp only [Format.binary, Binary.messageStrict, List.length_append, List.length_cons]
  omega

theorem compact_starts (cfg : Compact.Cfg) : Starts (Compact.proto cfg) Format.compact Compact.Idle := by
  intro s hs
  have h : s.state = .CLEAR := hs.2.1
  obtain ⟨⟩ := s
  simp only at h
  subst h
  refine ⟨1, _, rfl, by omega, fun name type seqid => ?_⟩
  simp only [Format.compact, Compact.message, List.length_append, List.length_cons]
  omega

section
variable {σ τ χ κ : Type} [HasDepth σ] [HasDepth τ] [HasDepth κ]

/-! ## The number of responses -/

theorem Pbind_always {ς α β : Type} {m : P ς α} {k : α → P ς β} {s : ς} {R : Except Exc β × ς → Prop}
    (h : (m s).Always fun x => (∀ a, x.1 = .ok a → (k a x.2).Always R) ∧ ∀ e, x.1 = .error e → R (.error e, x.2)) :
    (P.bind m k s).Always R := by
  unfold P.bind
  refine h.bind fun x hx => ?_
  obtain ⟨r, s'⟩ := x
  cases r with
  | ok a => exact hx.1 a rfl
  | error e => exact hx.2 e rfl

omit [HasDepth σ] [HasDepth τ] in
theorem onIn_always {α : Type} (m : P σ α) (c : Call σ τ χ Bytes) : (onIn m c).Always fun x => x.2.app = c.app := by
  unfold onIn
  have h : ∀ q : Prog (Except Exc α × σ), q.Always fun _ => True := by
    intro q
    induction q with
    | ret => trivial
    | diverge => trivial
    | read n k ih => exact fun r => ih r
  exact (h _).bind fun x _ => rfl

omit [HasDepth σ] [HasDepth τ] in
theorem sendReply_always (env : Env σ τ Bytes) (name : PyStr) (type seqid : Int) (body : W τ Unit) (c : Call σ τ χ Bytes) :
    (sendReply env name type seqid body c).Always fun x => x.2.app = c.app := by
  unfold sendReply
  refine Pbind_always ?_
  show _ ∧ _
  exact ⟨fun _ _ => rfl, fun _ _ => rfl⟩

/-- What a request may leave in the log -/
def Shape (fns : List Fn) (c c' : Web χ) : Prop :=
  ∃ early called, c'.log = c.log ++ early ++ called ∧
    (early = [] ∧ c'.replied = c.replied ∨ early = [.response none []] ∧ c'.replied = true) ∧ (called = [] ∨ ∃ fn ∈ fns, called = [.called fn.name])

theorem lookup_mem {fns : List Fn} {name : PyStr} {fn : Fn} (h : lookup fns name = some fn) : fn ∈ fns := by
  unfold lookup at h
  have := List.mem_of_find?_eq_some h
  simpa using this

theorem process_shape (env : Env σ τ Bytes) (h : Handler χ) {cb : Option (PyStr → Int → Int → Web χ → Except Exc Unit × Web χ)}
    (hcb : cb = none ∨ cb = some onBegin) (fns : List Fn) (p : Proto σ) (c : Call σ τ (Web χ) Bytes) :
    (process env (handle h) cb fns p c).Always fun x => Shape fns c.app x.2.app := by
  unfold process
  refine Pbind_always ((onIn_always _ c).mono fun x hx => ?_)
  refine ⟨fun m _ => ?_, fun e _ => ⟨[], [], by simp [hx], .inl ⟨rfl, by simp [hx]⟩, .inl rfl⟩⟩
  -- the callback
  have hb : ∀ c1 : Call σ τ (Web χ) Bytes, (Rpc.onBegin cb m c1).Always fun x =>
      x.1 = .ok () ∧ (x.2.app = c1.app ∨ x.2.app = { c1.app with log := c1.app.log ++ [.response none []], replied := true }) := by
    intro c1
    rcases hcb with rfl | rfl
    · exact ⟨rfl, .inl rfl⟩
    have e : Rpc.onBegin (some onBegin) m c1 =
        .ret ((onBegin m.1 m.2.1 m.2.2 c1.app).1, { c1 with app := (onBegin m.1 m.2.1 m.2.2 c1.app).2 }) := rfl
    rw [e]
    unfold onBegin
    split
    · exact ⟨rfl, .inr rfl⟩
    · exact ⟨rfl, .inl rfl⟩
  refine Pbind_always ((hb x.2).mono fun y hy => ⟨fun _ _ => ?_, fun e he => by rw [hy.1] at he; cases he⟩)
  obtain ⟨-, hy⟩ := hy
  rw [hx] at hy
  -- the rest, from the state after the callback
  suffices hrest : ∀ c2 : Call σ τ (Web χ) Bytes, Prog.Always
      (fun z : Except Exc Unit × Call σ τ (Web χ) Bytes => z.2.app.replied = c2.app.replied ∧
        (z.2.app.log = c2.app.log ∨ ∃ fn ∈ fns, z.2.app.log = c2.app.log ++ [.called fn.name]))
      ((match lookup fns m.1 with
        | none => do
          onIn (skip p.rd env.fuel skipDepth TType.STRUCT)
          onIn p.readMessageEnd
          sendReply env m.1 TMessageType.EXCEPTION m.2.2
            (appWrite env.q { type := some 1, message := some (pyStr "Unknown function " ++ m.1) })
        | some fn => processFn env (handle h) p fn m.2.2 : P (Call σ τ (Web χ) Bytes) Unit) c2) by
    refine (hrest y.2).mono fun z hz => ?_
    rcases hy with hy | hy <;> rw [hy] at hz
    · rcases hz with ⟨h1, h2 | ⟨fn, hf, h2⟩⟩
      · exact ⟨[], [], by simp [h2], .inl ⟨rfl, h1⟩, .inl rfl⟩
      · exact ⟨[], [.called fn.name], by simp [h2], .inl ⟨rfl, h1⟩, .inr ⟨fn, hf, rfl⟩⟩
    · rcases hz with ⟨h1, h2 | ⟨fn, hf, h2⟩⟩
      · exact ⟨[.response none []], [], by simp [h2], .inr ⟨rfl, h1⟩, .inl rfl⟩
      · exact ⟨[.response none []], [.called fn.name], by simp [h2], .inr ⟨rfl, h1⟩, .inr ⟨fn, hf, rfl⟩⟩
  intro c2
  cases hl : lookup fns m.1 with
  | none =>
    refine Pbind_always ((onIn_always _ c2).mono fun a ha => ⟨fun _ _ => ?_, fun e _ => by rw [ha]; exact ⟨rfl, .inl rfl⟩⟩)
    refine Pbind_always ((onIn_always _ a.2).mono fun b hb => ⟨fun _ _ => ?_, fun e _ => by rw [hb, ha]; exact ⟨rfl, .inl rfl⟩⟩)
    refine (sendReply_always _ _ _ _ _ b.2).mono fun z hz => ?_
    rw [hz, hb, ha]
    exact ⟨rfl, .inl rfl⟩
  | some fn =>
    have hmem := lookup_mem hl
    unfold processFn
    refine Pbind_always ((onIn_always _ c2).mono fun a ha => ⟨fun args _ => ?_, fun e _ => by rw [ha]; exact ⟨rfl, .inl rfl⟩⟩)
    refine Pbind_always ((onIn_always _ a.2).mono fun b hb => ⟨fun _ _ => ?_, fun e _ => by rw [hb, ha]; exact ⟨rfl, .inl rfl⟩⟩)
    have hb' : b.2.app = c2.app := hb.trans ha
    refine Pbind_always ?_
    show _ ∧ _
    refine ⟨fun o _ => ?_, fun e he => by cases he⟩
    have hfin : ((handle h fn (attrsOf args) b.2.app).2).replied = c2.app.replied ∧
        ((handle h fn (attrsOf args) b.2.app).2).log = c2.app.log ++ [.called fn.name] := by
      rw [hb']
      exact ⟨rfl, rfl⟩
    cases answer fn o with
    | error e => exact ⟨hfin.1, .inr ⟨fn, hmem, hfin.2⟩⟩
    | ok r =>
      cases r with
      | none => exact ⟨hfin.1, .inr ⟨fn, hmem, hfin.2⟩⟩
      | some tr =>
        refine (sendReply_always _ _ _ _ _ _).mono fun z hz => ?_
        rw [hz]
        exact ⟨hfin.1, .inr ⟨fn, hmem, hfin.2⟩⟩

/-- From what a request left in the log to what was sent -/
theorem finish_responses (S : Server σ τ χ) (hover : ∀ n, S.override n = none) {fns : List Fn} {x : χ} {c : Call σ τ (Web χ) Bytes} (hs : Shape fns { user := x } c.app)
    {r1 r : Except Exc Unit} {w : Web χ} (h : finish S c r1 = (r, w)) :
    calls w.log ≤ 1 ∧ responses w.log ≤ 1 ∧ (r = .ok () → responses w.log = 1) ∧
    (∀ n b, .response n b ∈ w.log → n = some b.length ∧ r = .ok () ∨ n = none ∧ b = [] ∧ w.log.head? = some (.response none [])) ∧
    (∀ name, .called name ∈ w.log → ∃ fn ∈ fns, fn.name = name) := by
  obtain ⟨early, called, hlog, hearly, hcalled⟩ := hs
  simp only [List.nil_append] at hlog hearly
  have hfin : w.log = early ++ called ∧ (r = .ok () → c.app.replied = true) ∨
      (∃ b : Bytes, w.log = early ++ called ++ [.response (some b.length) b]) ∧ r = .ok () ∧ c.app.replied = false := by
    cases r1 with
    | ok u =>
      simp only [finish] at h
      cases hr : c.app.replied with
      | true =>
        simp only [hr, if_true, Prod.mk.injEq] at h
        obtain ⟨-, rfl⟩ := h
        exact .inl ⟨hlog, fun _ => rfl⟩
      | false =>
        simp only [hr, Bool.false_eq_true, if_false, Prod.mk.injEq] at h
        obtain ⟨h1, rfl⟩ := h
        exact .inr ⟨⟨c.sink ++ c.buf, by simp only [hlog]⟩, h1.symm, rfl⟩
    | error e =>
      have : finish S c (.error e) = (.error e, c.app) := by
        unfold finish
        cases e <;> simp only
        rw [hover]
      rw [this] at h
      simp only [Prod.mk.injEq] at h
      obtain ⟨rfl, rfl⟩ := h
      exact .inl ⟨hlog, fun hh => by cases hh⟩
  rcases hearly with ⟨rfl, hrep⟩ | ⟨rfl, hrep⟩ <;> rcases hcalled with rfl | ⟨fn, hf, rfl⟩ <;>
    rcases hfin with ⟨hl, hok⟩ | ⟨⟨b, hl⟩, hr, hok⟩ <;> rw [hrep] at hok <;> rw [hl] <;>
    simp only [responses, calls, isResponse, List.countP_cons, List.countP_nil, List.nil_append, List.cons_append] <;> grind

/-- C83: whatever the client sends: if `do_POST` returns, it has sent exactly one response, with the right `Content-Length` or, before the handler was called, without
one; if it raises, at most that early one. The handler was called at most once. -/
theorem post_responses (S : Server σ τ χ) (hover : ∀ n, S.override n = none) (size : Except Exc Int) (f f' : File) (x : χ) (r : Except Exc Unit) (w : Web χ)
    (h : doPost S size f x = some ((r, w), f')) :
    calls w.log ≤ 1 ∧ responses w.log ≤ 1 ∧ (r = .ok () → responses w.log = 1) ∧
    (∀ n b, .response n b ∈ w.log → n = some b.length ∧ r = .ok () ∨ n = none ∧ b = [] ∧ w.log.head? = some (.response none [])) ∧
    (∀ name, .called name ∈ w.log → ∃ fn ∈ S.fns, fn.name = name) := by
  unfold doPost at h
  cases size with
  | error e =>
    cases h
    simp [calls, responses]
  | ok n =>
    simp only at h
    cases hp : processRequest S n f x with
    | none => rw [hp] at h; cases h
    | some y =>
      obtain ⟨⟨r1, c⟩, s', f1⟩ := y
      rw [hp] at h
      simp only [Option.some.injEq, Prod.mk.injEq] at h
      obtain ⟨h, -⟩ := h
      unfold processRequest at hp
      exact finish_responses S hover ((process_shape _ _ (.inr rfl) _ _ _).run _ hp) h

/-! ## Calls -/

/-- From the memory buffer to the connection -/
theorem request_run (S : Server σ τ χ) {F : Format} {Idle : σ → Prop} (hps : SteadyProto S.p) (hst : Starts S.p F Idle) (hi : Idle S.inp)
    (name : PyStr) (type : Nat) (seqid : Int) (value : Bytes) (x : χ) (c' : Call σ τ (Web χ) Bytes)
    (h : exec (process S.env (handle S.handler) (some onBegin) S.fns S.p) { inp := S.inp, out := S.out, sink := [], app := { user := x } }
      (F.header name type seqid ++ (value ++ [])) = some ((.ok (), c'), [])) (more : Bytes) (o : Bool) :
    doPost S (.ok (F.header name type seqid ++ value).length) { data := (F.header name type seqid ++ value) ++ more, open_ := o } x =
      some (finish S c' (.ok ()), { data := more, open_ := o }) := by
  rw [List.append_nil] at h
  obtain ⟨b', e, hb⟩ := (process_steady S.env (handle S.handler) (some onBegin) S.fns hps).upTo _ _ _ blockStep_delivers _
    (F.header name type seqid ++ value) () c' [] h
  simp only [id] at hb
  subst hb
  obtain ⟨m, k, hk, hm, hl⟩ := hst S.inp hi
  obtain ⟨k', hk'⟩ : ∃ k', process S.env (handle S.handler) (some onBegin) S.fns S.p
      ({ inp := S.inp, out := S.out, sink := [], app := { user := x } } : Call σ τ (Web χ) Bytes) = .read m k' := by
    show ∃ k', ((S.p.readMessageBegin S.inp).bind _).bind _ = .read m k'
    rw [hk]
    exact ⟨_, rfl⟩
  rw [hk'] at e
  obtain ⟨s', -, e'⟩ := run_request hm (by have := hl name type seqid; simp only [List.length_append]; omega) e more o
  unfold doPost processRequest
  simp only [Int.toNat_natCast]
  rw [hk', e']

/-- C83: a call of a two-way function: the handler is called once, with equal arguments, and one response carries the answer to what it did. Nothing behind the request
is touched, and the server does not wait for more. -/
theorem post_call (S : Server σ τ χ) {F G : Format} {Idle : σ → Prop} {IdleOut : τ → Prop} {sl cl : Option Int} (hp : Receives S.p F Idle sl cl)
    (hps : SteadyProto S.p) (hst : Starts S.p F Idle) (hq : Sends S.q G IdleOut) (hi : Idle S.inp) (ho : IdleOut S.out)
    (name : PyStr) (type : Nat) (seqid : Int) (fn : Fn) (hh : HeaderOK sl name type seqid) (htype : type ≠ 4)
    (hfn : Serves S.fns name fn) (htwo : fn.oneway = false) (hres : ResultOK S.sch fn) (sch₁ : Schema) (v : Val)
    (hv : BodyOK sl cl S.mode sch₁ S.sch fn.argsId v S.fuel) (x x' : χ) (o : Outcome)
    (hrun : S.handler fn (attrsOf (project sch₁ S.sch (.struct fn.argsId) v)) x = (o, x'))
    (type' : Nat) (sch' : Schema) (sid' : Nat) (w : Val) (hans : Answers S.sch fn o type' sch' sid' w)
    (hw : WT sch' (.struct sid') w) (hd : structDepth w ≤ 64) (more : Bytes) (keep : Bool) :
    doPost S (.ok (F.header name type seqid ++ F.value sch₁ (.struct fn.argsId) v).length)
        { data := (F.header name type seqid ++ F.value sch₁ (.struct fn.argsId) v) ++ more, open_ := keep } x =
      some ((.ok (), { user := x', replied := false, log := [.called name,
          .response (some (G.header name type' seqid ++ G.value sch' (.struct sid') w).length) (G.header name type' seqid ++ G.value sch' (.struct sid') w)] }),
        { data := more, open_ := keep }) := by
  have hb : Began (some onBegin) name type seqid ({ user := x } : Web χ) { user := x } := by
    show onBegin name type seqid _ = _
    unfold onBegin
    rw [if_neg (by simp only [TMessageType.ONEWAY]; omega)]
  obtain ⟨s', o', -, -, e⟩ := process_reply S.env (handle S.handler) (some onBegin) S.fns hp hq
    { inp := S.inp, out := S.out, sink := [], app := { user := x } } hi ho rfl name type seqid fn hh hfn htwo hres sch₁ v hv _ { user := x', log := [.called fn.name] } hb o
    (by simp only [handle]; rw [show S.env.sch = S.sch from rfl, hrun]; rfl) type' sch' sid' w hans hw hd []
  rw [request_run S hps hst hi name type seqid _ x _ e more keep]
  simp only [finish, Bool.false_eq_true, if_false, hfn.1, Server.env, List.nil_append, List.append_nil, List.cons_append]

/-- C83: a message of type `ONEWAY` for a oneway function is answered before the handler is called, and not again. -/
theorem post_oneway (S : Server σ τ χ) {F : Format} {Idle : σ → Prop} {sl cl : Option Int} (hp : Receives S.p F Idle sl cl)
    (hps : SteadyProto S.p) (hst : Starts S.p F Idle) (hi : Idle S.inp)
    (name : PyStr) (seqid : Int) (fn : Fn) (hh : HeaderOK sl name 4 seqid)
    (hfn : Serves S.fns name fn) (hone : fn.oneway = true) (sch₁ : Schema) (v : Val)
    (hv : BodyOK sl cl S.mode sch₁ S.sch fn.argsId v S.fuel) (x x' : χ) (o : Outcome)
    (hrun : S.handler fn (attrsOf (project sch₁ S.sch (.struct fn.argsId) v)) x = (o, x'))
    (h1 : ∀ t, o ≠ .transport t) (h2 : ∀ n, o ≠ .base n) (more : Bytes) (keep : Bool) :
    doPost S (.ok (F.header name 4 seqid ++ F.value sch₁ (.struct fn.argsId) v).length)
        { data := (F.header name 4 seqid ++ F.value sch₁ (.struct fn.argsId) v) ++ more, open_ := keep } x =
      some ((.ok (), { user := x', replied := true, log := [.response none [], .called name] }), { data := more, open_ := keep }) := by
  have hb : Began (some onBegin) name (4 : Nat) seqid ({ user := x } : Web χ) { user := x, replied := true, log := [.response none []] } := by
    show onBegin name _ seqid _ = _
    unfold onBegin
    rw [if_pos (by rfl)]
    rfl
  obtain ⟨s', -, e⟩ := process_oneway S.env (handle S.handler) (some onBegin) S.fns hp
    { inp := S.inp, out := S.out, sink := [], app := { user := x } } hi name 4 seqid fn hh hfn hone sch₁ v hv _ { user := x', replied := true, log := [.response none [], .called fn.name] } hb o
    (by simp only [handle]; rw [show S.env.sch = S.sch from rfl, hrun]; rfl) h1 h2 []
  rw [request_run S hps hst hi name 4 seqid _ x _ e more keep]
  simp only [finish, if_true]
  rw [hfn.1]

/-- C83: a method that the service does not have -/
theorem post_unknown (S : Server σ τ χ) {F G : Format} {Idle : σ → Prop} {IdleOut : τ → Prop} {sl cl : Option Int} (hp : Receives S.p F Idle sl cl)
    (hps : SteadyProto S.p) (hst : Starts S.p F Idle) (hq : Sends S.q G IdleOut) (hi : Idle S.inp) (ho : IdleOut S.out)
    (name : PyStr) (type : Nat) (seqid : Int) (hh : HeaderOK sl name type seqid) (htype : type ≠ 4)
    (hfn : ∀ g ∈ S.fns, g.name ≠ name) (sch₁ : Schema) (sid : Nat) (v : Val)
    (hs : ∀ sid, FieldsOK (sch₁ sid)) (hv : WT sch₁ (.struct sid) v) (hl : WithinLimits sl cl v)
    (hn : nesting v ≤ 64) (hb : BinariesAreText IsUtf8 v) (hf : size v ≤ S.fuel) (hx : AppOK (unknownMethod name)) (x : χ) (more : Bytes) (keep : Bool) :
    doPost S (.ok (F.header name type seqid ++ F.value sch₁ (.struct sid) v).length)
        { data := (F.header name type seqid ++ F.value sch₁ (.struct sid) v) ++ more, open_ := keep } x =
      some ((.ok (), { user := x, replied := false, log := [
          .response (some (G.header name 3 seqid ++ G.app (unknownMethod name)).length) (G.header name 3 seqid ++ G.app (unknownMethod name))] }),
        { data := more, open_ := keep }) := by
  have hb' : Began (some onBegin) name type seqid ({ user := x } : Web χ) { user := x } := by
    show onBegin name type seqid _ = _
    unfold onBegin
    rw [if_neg (by simp only [TMessageType.ONEWAY]; omega)]
  obtain ⟨s', o', -, -, e⟩ := process_unknown S.env (handle S.handler) (some onBegin) S.fns hp hq
    { inp := S.inp, out := S.out, sink := [], app := { user := x } } hi ho rfl name type seqid hh hfn sch₁ sid v hs hv hl hn hb hf _ hb' hx []
  rw [request_run S hps hst hi name type seqid _ x _ e more keep]
  simp only [finish, Bool.false_eq_true, if_false, Server.env, List.nil_append, List.append_nil]

/-- What C83 does not promise: an exception `ResponseException` of the handler does not override the response, although this is what it is for. The generated processor
has caught it before. -/
theorem response_exception_ignored (S : Server σ τ χ) {F G : Format} {Idle : σ → Prop} {IdleOut : τ → Prop} {sl cl : Option Int} (hp : Receives S.p F Idle sl cl)
    (hps : SteadyProto S.p) (hst : Starts S.p F Idle) (hq : Sends S.q G IdleOut) (hi : Idle S.inp) (ho : IdleOut S.out)
    (name : PyStr) (type : Nat) (seqid : Int) (fn : Fn) (hh : HeaderOK sl name type seqid) (htype : type ≠ 4)
    (hfn : Serves S.fns name fn) (htwo : fn.oneway = false) (hres : ResultOK S.sch fn) (sch₁ : Schema) (v : Val)
    (hv : BodyOK sl cl S.mode sch₁ S.sch fn.argsId v S.fuel) (x x' : χ) (n : Nat) (es : List Event) (_hover : S.override n = some es)
    (hrun : S.handler fn (attrsOf (project sch₁ S.sch (.struct fn.argsId) v)) x = (.other n, x')) (more : Bytes) (keep : Bool) :
    doPost S (.ok (F.header name type seqid ++ F.value sch₁ (.struct fn.argsId) v).length)
        { data := (F.header name type seqid ++ F.value sch₁ (.struct fn.argsId) v) ++ more, open_ := keep } x =
      some ((.ok (), { user := x', replied := false, log := [.called name,
          .response (some (G.header name 3 seqid ++ G.app internalError).length) (G.header name 3 seqid ++ G.app internalError)] }),
        { data := more, open_ := keep }) :=
  post_call S hp hps hst hq hi ho name type seqid fn hh htype hfn htwo hres sch₁ v hv x x' _ hrun 3 appSchema 0 _ (.other n)
    (appVal_wt (by unfold AppOK internalError; decide)) (by rw [appVal_depth]; omega) more keep

/-- What C83 does not promise: if less than a message comes and the client waits for the answer with the connection open, the server waits for ever, although
`Content-Length` says where the body ends. -/
theorem post_truncated_waits (S : Server σ τ χ) {F G : Format} {Idle : σ → Prop} {IdleOut : τ → Prop} {sl cl : Option Int} (hp : Receives S.p F Idle sl cl)
    (hps : SteadyProto S.p) (hq : Sends S.q G IdleOut) (hi : Idle S.inp) (ho : IdleOut S.out)
    (name : PyStr) (type : Nat) (seqid : Int) (fn : Fn) (hh : HeaderOK sl name type seqid) (htype : type ≠ 4)
    (hfn : Serves S.fns name fn) (htwo : fn.oneway = false) (hres : ResultOK S.sch fn) (sch₁ : Schema) (v : Val)
    (hv : BodyOK sl cl S.mode sch₁ S.sch fn.argsId v S.fuel) (x x' : χ) (o : Outcome)
    (hrun : S.handler fn (attrsOf (project sch₁ S.sch (.struct fn.argsId) v)) x = (o, x'))
    (type' : Nat) (sch' : Schema) (sid' : Nat) (w : Val) (hans : Answers S.sch fn o type' sch' sid' w)
    (hw : WT sch' (.struct sid') w) (hd : structDepth w ≤ 64)
    (body missing : Bytes) (hm : missing ≠ []) (hbody : F.header name type seqid ++ F.value sch₁ (.struct fn.argsId) v = body ++ missing) :
    doPost S (.ok body.length) { data := body } x = none := by
  have hb : Began (some onBegin) name type seqid ({ user := x } : Web χ) { user := x } := by
    show onBegin name type seqid _ = _
    unfold onBegin
    rw [if_neg (by simp only [TMessageType.ONEWAY]; omega)]
  obtain ⟨s', o', -, -, e⟩ := process_reply S.env (handle S.handler) (some onBegin) S.fns hp hq
    { inp := S.inp, out := S.out, sink := [], app := { user := x } } hi ho rfl name type seqid fn hh hfn htwo hres sch₁ v hv _ { user := x', log := [.called fn.name] } hb o
    (by simp only [handle]; rw [show S.env.sch = S.sch from rfl, hrun]; rfl) type' sch' sid' w hans hw hd []
  rw [List.append_nil, hbody] at e
  unfold doPost processRequest
  simp only [Int.toNat_natCast]
  rw [waits (process_steady S.env (handle S.handler) (some onBegin) S.fns hps) _ _ _ _ _ hm e]

/-! ## From end to end -/

omit [HasDepth κ] in
theorem http_read_until : DeliversUntil (Http.read memStep) fun s : Http.St Bytes => s.response.getD [] := by
  intro n s hs
  unfold Http.read
  simp only at hs
  cases hr : s.response with
  | none => rw [hr] at hs; exact absurd rfl hs
  | some b =>
    rw [hr] at hs
    simp only [Option.getD_some] at hs
    simp only [hr, Option.getD_some]
    refine ⟨b.take (n + 1), _, rfl, by simp, by simp; omega, ?_⟩
    cases b with
    | nil => exact absurd rfl hs
    | cons => simp

/-- C83: a call of a two-way function through a generated client, `THttpClient`, `THttpServer` and a generated processor: the handler is called once, with equal
arguments, and the client returns or raises what the handler did. -/
theorem http_call (S : Server σ τ χ) {pc : Proto κ} {F G : Format} {Idle : σ → Prop} {IdleOut : τ → Prop} {IdleC : κ → Prop}
    {sl cl slc clc : Option Int} (hp : Receives S.p F Idle sl cl) (hps : SteadyProto S.p) (hst : Starts S.p F Idle)
    (hq : Sends S.q G IdleOut) (hi : Idle S.inp) (ho : IdleOut S.out)
    (hpc : Sends pc F IdleC) (hrc : Receives pc G IdleC slc clc) (hcs : SteadyProto pc) (cfg : Http.Cfg) (e : Exc) (fuel : Nat)
    -- the function, its arguments
    (fn : Fn) (hfn : Serves S.fns fn.name fn) (htwo : fn.oneway = false) (hs : SchemaOK S.mode S.sch)
    (hres : ResultOK S.sch fn) (hname : TextOK fn.name)
    (hlim : Within sl (utf8Len fn.name) ∧ Within slc (utf8Len fn.name)) (as : List (Option Val))
    (has : Sendable sl cl S.mode S.sch fn.argsId (.struct as) S.fuel)
    -- what the handler does
    (x x' : χ) (o : Outcome) (hrun : S.handler fn as x = (o, x')) (type : Nat) (sch' : Schema) (sid' : Nat) (w : Val)
    (hans : Answers S.sch fn o type sch' sid' w) (hw2 : type = 2 → Sendable slc clc S.mode sch' sid' w fuel)
    (hw3 : type = 3 → 5 ≤ fuel ∧ ∃ x, w = appVal x ∧ AppOK x ∧ ∀ m ∈ x.message, Within slc (utf8Len m))
    (hd : structDepth w ≤ 64)
    -- the client
    (c : Client κ (Http.St Bytes × χ)) (hc : IdleC c.prot) (hbuf : c.buf = []) (hseq : InRange 32 c.seqid)
    (hwbuf : c.sink.1.wbuf = BytesIO.of []) (hsrv : c.sink.2 = x) :
    ∃ s' t' r, Told fn o r ∧ IdleC s' ∧
      send pc (clientFlush S cfg e) S.sch S.mode fn as c = (.ok (), { c with prot := s', buf := [], sink := (t', x') }) ∧ t'.code = some 200 ∧
      ∃ s'' t'', IdleC s'' ∧ t''.response.getD [] = [] ∧ (recv pc S.sch S.mode fuel fn s').run (Http.read memStep) t' = some ((.ok r, s''), t'') := by
  have ht : IsMessageType type := by cases hans <;> exact ⟨by omega, by omega⟩
  obtain ⟨r, htold, hwt, hcl⟩ := recv_told hrc S.mode S.sch fuel fn hs hres o type sch' sid' w c.seqid hans ⟨hname, hlim.2, ht, hseq⟩ hw2 hw3
  obtain ⟨s', hi', hsend⟩ := send_transmits hpc (clientFlush S cfg e) S.mode S.sch fn as c hc hname hseq hs has.typed has.depth
  rw [hbuf, htwo] at hsend
  simp only [Bool.false_eq_true, if_false, List.nil_append] at hsend
  have hpost := post_call S hp hps hst hq hi ho fn.name 1 c.seqid fn ⟨hname, hlim.1, ⟨by omega, by omega⟩, hseq⟩ (by omega) hfn htwo hres
    S.sch (.struct as) (has.body hs) x x' o (by rw [has.same hs]; exact hrun) type sch' sid' w hans hwt hd [] true
  rw [List.append_nil] at hpost
  have hv : ∀ b : Bytes, ((BytesIO.of []).write b).value = b := by
    intro b
    simp only [BytesIO.of, BytesIO.write]
    split <;> simp_all
  obtain ⟨t', hfl, hcode, hresp⟩ : ∃ t' : Http.St Bytes,
      clientFlush S cfg e (F.header fn.name 1 c.seqid ++ F.value S.sch (.struct fn.argsId) (.struct as)) c.sink = (.ok (), (t', x')) ∧ t'.code = some 200 ∧
      t'.response = some (G.header fn.name type c.seqid ++ G.value sch' (.struct sid') w) := by
    unfold clientFlush fate
    simp only [hwbuf, hv, hsrv, hpost, firstResponse]
    unfold Http.flush
    exact ⟨_, rfl, rfl, rfl⟩
  refine ⟨s', t', r, htold, hi', ?_, hcode, ?_⟩
  · rw [hsend, hfl]
  · obtain ⟨s'', hi'', he⟩ := hcl s' hi'
    obtain ⟨t'', h1, h2⟩ := (recv_steady hcs S.sch S.mode fuel fn).upTo _ _ _ http_read_until s' t' r s'' [] (by
      rw [hresp, Option.getD_some, ← he [], List.append_nil])
    exact ⟨s'', t'', hi'', h2, h1⟩

/-- C83: a call of a oneway function, the same way: the handler is called once, with equal arguments, and the client gets the response. -/
theorem http_oneway (S : Server σ τ χ) {pc : Proto κ} {F : Format} {Idle : σ → Prop} {IdleC : κ → Prop}
    {sl cl : Option Int} (hp : Receives S.p F Idle sl cl) (hps : SteadyProto S.p) (hst : Starts S.p F Idle) (hi : Idle S.inp)
    (hpc : Sends pc F IdleC) (cfg : Http.Cfg) (e : Exc)
    (fn : Fn) (hfn : Serves S.fns fn.name fn) (hone : fn.oneway = true) (hs : SchemaOK S.mode S.sch) (hname : TextOK fn.name)
    (hlim : Within sl (utf8Len fn.name)) (as : List (Option Val)) (has : Sendable sl cl S.mode S.sch fn.argsId (.struct as) S.fuel)
    (x x' : χ) (o : Outcome) (hrun : S.handler fn as x = (o, x')) (h1 : ∀ t, o ≠ .transport t) (h2 : ∀ n, o ≠ .base n)
    (c : Client κ (Http.St Bytes × χ)) (hc : IdleC c.prot) (hbuf : c.buf = []) (hseq : InRange 32 c.seqid)
    (hwbuf : c.sink.1.wbuf = BytesIO.of []) (hsrv : c.sink.2 = x) :
    ∃ s' t', IdleC s' ∧ send pc (clientFlush S cfg e) S.sch S.mode fn as c = (.ok (), { c with prot := s', buf := [], sink := (t', x') }) ∧
      t'.code = some 200 ∧ t'.response = some [] := by
  obtain ⟨s', hi', hsend⟩ := send_transmits hpc (clientFlush S cfg e) S.mode S.sch fn as c hc hname hseq hs has.typed has.depth
  rw [hbuf, hone] at hsend
  simp only [if_true, List.nil_append] at hsend
  have hpost := post_oneway S hp hps hst hi fn.name c.seqid fn ⟨hname, hlim, ⟨by omega, by omega⟩, hseq⟩ hfn hone
    S.sch (.struct as) (has.body hs) x x' o (by rw [has.same hs]; exact hrun) h1 h2 [] true
  rw [List.append_nil] at hpost
  have hv : ∀ b : Bytes, ((BytesIO.of []).write b).value = b := by
    intro b
    simp only [BytesIO.of, BytesIO.write]
    split <;> simp_all
  obtain ⟨t', hfl, hcode, hresp⟩ : ∃ t' : Http.St Bytes,
      clientFlush S cfg e (F.header fn.name 4 c.seqid ++ F.value S.sch (.struct fn.argsId) (.struct as)) c.sink = (.ok (), (t', x')) ∧ t'.code = some 200 ∧
      t'.response = some [] := by
    unfold clientFlush fate
    simp only [hwbuf, hv, hsrv, hpost, firstResponse]
    unfold Http.flush
    exact ⟨_, rfl, rfl, rfl⟩
  exact ⟨s', t', hi', by rw [hsend, hfl], hcode, hresp⟩

end

/-! ## Several requests -/

theorem serial_step (oneway : Nat → Bool) (i : Nat) (s : Shared) (hpc : s.pc i = .new) (hs : s.sent i = []) :
    ∃ s', steps oneway (oneRequest i) s = s' ∧ Answered oneway i s' ∧ s'.pc i = .done ∧ ∀ j, j ≠ i → s'.pc j = s.pc j ∧ s'.sent j = s.sent j := by
  refine ⟨_, rfl, ?_⟩
  simp only [oneRequest, steps]
  have e1 : step oneway i s = { s with replied := false }.at i .began := by unfold step; rw [hpc]
  rw [e1]
  have e2 : step oneway i (({ s with replied := false } : Shared).at i .began) =
      ({ ({ s with replied := false } : Shared).at i .began with callback := some i } : Shared).at i .armed := by
    unfold step; simp [Shared.at]
  rw [e2]
  cases ho : oneway i <;> simp [step, Shared.at, Shared.send, ho, Answered, hs] <;> grind

theorem steps_append (oneway : Nat → Bool) (is js : List Nat) (s : Shared) : steps oneway (is ++ js) s = steps oneway js (steps oneway is s) := by
  induction is generalizing s with
  | nil => rfl
  | cons i is ih => exact ih _

theorem serial_from (oneway : Nat → Bool) (is : List Nat) (hn : is.Nodup) : ∀ s : Shared, (∀ i ∈ is, s.pc i = .new ∧ s.sent i = []) →
    (∀ i ∈ is, Answered oneway i (steps oneway (is.flatMap oneRequest) s)) ∧
    ∀ j, j ∉ is → (steps oneway (is.flatMap oneRequest) s).sent j = s.sent j := by
  induction is with
  | nil => intro s _; exact ⟨by simp, fun _ _ => rfl⟩
  | cons i is ih =>
    intro s hs
    simp only [List.nodup_cons] at hn
    obtain ⟨s', e, h1, -, h3⟩ := serial_step oneway i s (hs i (by simp)).1 (hs i (by simp)).2
    have hne : ∀ j ∈ is, j ≠ i := fun j hj e => hn.1 (e ▸ hj)
    obtain ⟨h4, h5⟩ := ih hn.2 s' fun j hj => by
      rw [(h3 j (hne j hj)).1, (h3 j (hne j hj)).2]
      exact hs j (by simp [hj])
    simp only [List.flatMap_cons, steps_append, e]
    refine ⟨fun j hj => ?_, fun j hj => ?_⟩
    · rcases List.mem_cons.mp hj with rfl | hj
      · unfold Answered
        rw [h5 _ hn.1]
        exact h1
      · exact h4 j hj
    · simp only [List.mem_cons, not_or] at hj
      rw [h5 j hj.2, (h3 j hj.1).2]

/-- C83: requests that are handled one after the other, as the default `server_class` does: each gets one response, before or after the handler as its message demands. -/
theorem serial_answered (oneway : Nat → Bool) (is : List Nat) (hn : is.Nodup) : ∀ i ∈ is, Answered oneway i (steps oneway (is.flatMap oneRequest) {}) :=
  (serial_from oneway is hn {} fun _ _ => ⟨rfl, rfl⟩).1

theorem twoway_from (is : List Nat) (s : Shared) (hr : s.replied = false) (hs : ∀ i, s.sent i = if s.pc i = .done then [false] else []) (i : Nat) :
    (steps (fun _ => false) is s).sent i = if (steps (fun _ => false) is s).pc i = .done then [false] else [] := by
  induction is generalizing s with
  | nil => exact hs i
  | cons k is ih =>
    refine ih _ ?_ ?_
    · unfold step
      cases h : s.pc k <;> simp [Shared.at, hr, Shared.send]
    · intro j
      have hk := hs k
      have hj := hs j
      unfold step
      cases h : s.pc k <;> simp [Shared.at, hr, Shared.send] <;> grind

/-- C83: whatever the order of the steps, if no message is of type `ONEWAY`: a request that is done got one response, the others none yet. -/
theorem twoway_answered (is : List Nat) (i : Nat) :
    (steps (fun _ => false) is {}).sent i = if (steps (fun _ => false) is {}).pc i = .done then [false] else [] :=
  twoway_from is {} rfl (fun _ => rfl) i

/-- What C83 does not promise: with a `server_class` that handles requests at the same time, a request for a two-way function is not answered, if a oneway message arrives
while its handler runs. -/
theorem threads_no_answer : ∃ (oneway : Nat → Bool) (is : List Nat), oneway 0 = false ∧ (steps oneway is {}).pc 0 = .done ∧ (steps oneway is {}).sent 0 = [] :=
  ⟨fun i => i == 1, [0, 0, 0, 1, 1, 1, 0], rfl, by decide, by decide⟩

/-- Nor that there is only one response, -/
theorem threads_two_answers : ∃ (oneway : Nat → Bool) (is : List Nat), (steps oneway is {}).sent 1 = [true, false] :=
  ⟨fun i => i == 1, [1, 1, 1, 0, 1], by decide⟩

/-- nor that the response to a oneway message goes to its sender. -/
theorem threads_wrong_answer : ∃ (oneway : Nat → Bool) (is : List Nat), oneway 0 = false ∧ (steps oneway is {}).pc 0 = .done ∧ (steps oneway is {}).pc 1 = .done ∧
    (steps oneway is {}).sent 0 = [true] ∧ (steps oneway is {}).sent 1 = [] :=
  ⟨fun i => i == 1, [1, 1, 0, 0, 1, 1, 0, 0], rfl, by decide, by decide, by decide, by decide⟩

/-! ## Examples -/

section
open SampleService

/-- The sample service behind `TBinaryProtocol` -/
abbrev sample : Server Binary.St Binary.St Nat where
  p := Binary.proto { stringLimit := some 20, containerLimit := some 20 }
  inp := {}
  q := Binary.proto {}
  out := {}
  sch := sch
  fuel := 100
  fns := fns
  handler := handler

/-- `get(7)` and nothing else, over HTTP, with more bytes behind it -/
example : doPost sample (.ok (Format.binary.header get.name 1 0 ++ Format.binary.value sch (.struct 1) (.struct args)).length)
    { data := (Format.binary.header get.name 1 0 ++ Format.binary.value sch (.struct 1) (.struct args)) ++ [1, 2] } 5 =
      some ((.ok (), { user := 6, replied := false, log := [.called get.name,
        .response (some (Format.binary.header get.name 2 0 ++ Format.binary.value sch (.struct 2) seven).length)
          (Format.binary.header get.name 2 0 ++ Format.binary.value sch (.struct 2) seven)] }), { data := [1, 2] }) :=
  post_call sample (F := Format.binary) (G := Format.binary) (sl := some 20) (cl := some 20) (Binary.reads _) (Binary.steadyProto _) (binary_starts _) (Binary.writes _ rfl) rfl rfl SampleService.get.name 1 0 SampleService.get
    (header_ok 1 ⟨by omega, by omega⟩) (by omega) serves.1 rfl get_ok sch (.struct args)
    ((args_sendable .gen).body (sch_ok _)) 5 6 (.returned (some (.str (pyStr "seven"))))
    (by rw [show project sample.sch sample.sch (.struct SampleService.get.argsId) (.struct args) = .struct args from (args_sendable .gen).same (sch_ok _)]; rfl) 2 sch 2 seven (.value _ rfl)
    (seven_sendable .gen).typed ((seven_sendable .gen).depth rfl) [1, 2] true

/-- An empty body: the server does not answer, -/
example : doPost sample (.ok 0) {} 5 = none := rfl

/-- unless the client closes the connection; then there is no response either. -/
example : doPost sample (.ok 0) { data := [], open_ := false } 5 = some ((.error .eof, { user := 5 }), { data := [], open_ := false }) := rfl

/-- Without `Content-Length` there is no response. -/
example : doPost sample (.error .typeError) { data := [1] } 5 = some ((.error .typeError, { user := 5 }), { data := [1] }) := rfl

example : Answered (fun i => i == 1) 1 (steps (fun i => i == 1) ([0, 1, 2].flatMap oneRequest) {}) :=
  serial_answered _ [0, 1, 2] (by decide) 1 (by decide)

end

end Thrift.HttpServer
