import Verif.Props.Calls
import Verif.Props.Decorator
/-
Property C34: several services on one connection.
-/

namespace Thrift
open Spec Rpc
open Spec.Decorator (Linear)

theorem snocInduction {α : Type} {motive : List α → Prop} (nil : motive [])
    (append_singleton : ∀ xs x, motive xs → motive (xs ++ [x])) (xs : List α) : motive xs := by
  rw [← List.reverse_reverse xs]
  induction xs.reverse with
  | nil => exact nil
  | cons x ys ih => rw [List.reverse_cons]; exact append_singleton _ _ ih

theorem splitFirst_none {c : Nat} {s : PyStr} : splitFirst c s = none ↔ c ∉ s := by
  induction s with
  | nil => simp [splitFirst]
  | cons x xs ih =>
    unfold splitFirst
    by_cases h : x = c
    · simp [h]
    · rw [if_neg h]
      cases hs : splitFirst c xs with
      | none =>
        have := ih.mp hs
        simp [this, Ne.symm h]
      | some ab =>
        have : c ∈ xs := by
          apply Classical.byContradiction
          intro hc
          rw [ih.mpr hc] at hs
          cases hs
        simp [this]

theorem splitFirst_some {c : Nat} {a b : PyStr} (h : c ∉ a) : splitFirst c (a ++ [c] ++ b) = some (a, b) := by
  induction a with
  | nil => simp [splitFirst]
  | cons x xs ih =>
    simp only [List.mem_cons, not_or] at h
    have := ih h.2
    simp only [List.append_assoc, List.cons_append, List.nil_append] at this
    simp only [List.cons_append, List.append_assoc, List.nil_append, splitFirst, if_neg (Ne.symm h.1), this]

section
variable {σ τ χ ω : Type}

/-- The registry after a sequence of registrations. -/
def registry (ops : List (Registration σ τ χ ω)) : Registry σ τ χ ω :=
  ops.foldl (fun r op => match op with
    | .default proc => r.registerDefault proc
    | .service name proc => r.registerProcessor name proc) {}

theorem registry_snoc (ops : List (Registration σ τ χ ω)) (op : Registration σ τ χ ω) :
    registry (ops ++ [op]) = match op with
      | .default proc => (registry ops).registerDefault proc
      | .service name proc => (registry ops).registerProcessor name proc := by
  unfold registry
  rw [List.foldl_append]
  rfl

theorem registry_services (pre post : List (Registration σ τ χ ω)) (name : PyStr) (proc : Processor σ τ χ ω)
    (h : ∀ q, .service name q ∉ post) :
    ((registry (pre ++ .service name proc :: post)).services.find? (·.1 == name)).map (·.2) = some proc := by
  induction post using snocInduction with
  | nil =>
    rw [registry_snoc]
    simp [Registry.registerProcessor]
  | append_singleton post op ih =>
    have := ih (fun q hq => h q (by simp [hq]))
    rw [← List.cons_append, ← List.append_assoc, registry_snoc]
    cases op with
    | default p => exact this
    | service n p =>
      have hne : ¬ n = name := by
        intro e
        subst e
        exact h p (by simp)
      simp only [Registry.registerProcessor, List.find?_cons]
      rw [show (n == name) = false by simpa using hne]
      exact this

theorem registry_unknown (ops : List (Registration σ τ χ ω)) (name : PyStr) (h : ∀ q, .service name q ∉ ops) :
    (registry ops).services.find? (·.1 == name) = none := by
  induction ops using snocInduction with
  | nil => rfl
  | append_singleton post op ih =>
    have := ih (fun q hq => h q (by simp [hq]))
    rw [registry_snoc]
    cases op with
    | default p => exact this
    | service n p =>
      have hne : ¬ n = name := by
        intro e
        subst e
        exact h p (by simp)
      simp only [Registry.registerProcessor, List.find?_cons]
      rw [show (n == name) = false by simpa using hne]
      exact this

theorem registry_default (pre post : List (Registration σ τ χ ω)) (proc : Processor σ τ χ ω)
    (h : ∀ q, .default q ∉ post) : (registry (pre ++ .default proc :: post)).dflt = some proc := by
  induction post using snocInduction with
  | nil => rw [registry_snoc]; rfl
  | append_singleton post op ih =>
    have := ih (fun q hq => h q (by simp [hq]))
    rw [← List.cons_append, ← List.append_assoc, registry_snoc]
    cases op with
    | default p => exact absurd (by simp) (h p)
    | service n p => exact this

theorem registry_no_default (ops : List (Registration σ τ χ ω)) (h : ∀ q, .default q ∉ ops) :
    (registry ops).dflt = none := by
  induction ops using snocInduction with
  | nil => rfl
  | append_singleton post op ih =>
    have := ih (fun q hq => h q (by simp [hq]))
    rw [registry_snoc]
    cases op with
    | default p => exact absurd (by simp) (h p)
    | service n p => exact this

/-- An object that is not multiplexed can be. -/
theorem multiplexed_ok {p : Proto σ} (hl : Linear p.mro) (hm : .multiplexed ∉ p.mro) (service : PyStr) : ∃ q mro, multiplexed p service = .ok q ∧
    Decorator.decorate .multiplexed p.mro = some mro ∧
    q = { p with
      mro := mro
      writeMessageBegin := fun name type seqid =>
        if type = TMessageType.CALL ∨ type = TMessageType.ONEWAY then
          p.writeMessageBegin (service ++ SEPARATOR ++ name) type seqid
        else p.writeMessageBegin name type seqid } := by
  unfold multiplexed
  cases h : Decorator.decorate .multiplexed p.mro with
  | none => exact absurd ((Decorator.decorate_iff (.inl rfl) hl).1 h) hm
  | some mro => exact ⟨_, mro, rfl, rfl, rfl⟩

/-- An object that is multiplexed cannot be multiplexed again: `TypeError`. -/
theorem multiplexed_twice {p : Proto σ} (hm : .multiplexed ∈ p.mro) (service : PyStr) : multiplexed p service = .error .typeError := by
  unfold multiplexed
  rw [Decorator.decorate_none hm]

/-- In particular, the object that `TMultiplexedProtocol` makes -/
theorem multiplexed_again {p q : Proto σ} {service : PyStr} (hl : Linear p.mro) (h : multiplexed p service = .ok q) (service' : PyStr) :
    multiplexed q service' = .error .typeError := by
  by_cases hm : .multiplexed ∈ p.mro
  · rw [multiplexed_twice hm] at h
    cases h
  · obtain ⟨q', mro, e, e1, e2⟩ := multiplexed_ok hl hm service
    rw [e] at h
    injection h with h
    subst h
    refine multiplexed_twice ?_ service'
    subst e2
    show Decorator.Cls.multiplexed ∈ mro
    obtain ⟨x, l, hx⟩ : ∃ x l, p.mro = x :: l := by
      cases hp : p.mro with
      | nil => rw [hp] at hl; cases hl.last
      | cons x l => exact ⟨x, l, rfl⟩
    rw [hx] at e1 hl hm
    rw [Decorator.decorate_some (.inl rfl) hl hm] at e1
    injection e1 with e1
    subst e1
    simp

theorem storedClass_ok {p : Proto σ} (hl : Linear p.mro) (hs : .stored ∉ p.mro) (m : PyStr × Int × Int) : ∃ mro, .stored ∈ mro ∧
    storedClass p m = .ok { p with mro := mro, readMessageBegin := pure m } := by
  unfold storedClass
  cases h : Decorator.decorate .stored p.mro with
  | none => exact absurd ((Decorator.decorate_iff (.inr rfl) hl).1 h) hs
  | some mro =>
    refine ⟨mro, ?_, rfl⟩
    obtain ⟨x, l, hx⟩ : ∃ x l, p.mro = x :: l := by
      cases hp : p.mro with
      | nil => rw [hp] at hl; cases hl.last
      | cons x l => exact ⟨x, l, rfl⟩
    rw [hx] at h hl hs
    rw [Decorator.decorate_some (.inr rfl) hl hs] at h
    injection h with h
    subst h
    simp

variable [HasDepth σ] [HasDepth τ]

/-- C34, client side: a message written through `TMultiplexedProtocol(service)` is the message with the
name `service:name`, if it is a call. -/
theorem multiplexed_writes {p q : Proto σ} {F : Format} {Idle : σ → Prop} (hp : Sends p F Idle)
    (service name : PyStr) (hm : multiplexed p service = .ok q) (type : Nat) (seqid : Int) (sch : Schema) (mode : Mode)
    (sid : Nat) (v : Val) (s : σ) (out : Bytes) (hi : Idle s) (hn : TextOK (service ++ [58] ++ name)) (hn' : TextOK name) (ht : IsMessageType type)
    (hq : InRange 32 seqid) (hs : SchemaOK mode sch) (hv : WT sch (.struct sid) v)
    (hd : mode = .gen → structDepth v ≤ 64) :
    ∃ s', Idle s' ∧
      message q name type seqid (writeVal q.wr sch mode (.struct sid) v) s out
        = (.ok (), s', out ++ (F.header (if type = 1 ∨ type = 4 then service ++ [58] ++ name else name) type seqid ++
            F.value sch (.struct sid) v)) := by
  obtain ⟨mro, rfl⟩ : ∃ mro, q = { p with
      mro := mro
      writeMessageBegin := fun name type seqid =>
        if type = TMessageType.CALL ∨ type = TMessageType.ONEWAY then
          p.writeMessageBegin (service ++ SEPARATOR ++ name) type seqid
        else p.writeMessageBegin name type seqid } := by
    unfold multiplexed at hm
    split at hm
    · cases hm
    · rename_i mro _
      injection hm with hm
      exact ⟨mro, hm.symm⟩
  by_cases hc : type = 1 ∨ type = 4
  · obtain ⟨s', e, hi'⟩ := hp (service ++ [58] ++ name) type seqid sch mode sid v s out hi hn ht hq hs hv hd
    refine ⟨s', hi', ?_⟩
    rw [if_pos hc, ← e]
    have : (if (type : Int) = TMessageType.CALL ∨ (type : Int) = TMessageType.ONEWAY then
        p.writeMessageBegin (service ++ SEPARATOR ++ name) type seqid else p.writeMessageBegin name type seqid)
        = p.writeMessageBegin (service ++ [58] ++ name) type seqid := by
      refine if_pos ?_
      simp only [TMessageType.CALL, TMessageType.ONEWAY]
      omega
    unfold message
    dsimp only
    rw [this]
  · obtain ⟨s', e, hi'⟩ := hp name type seqid sch mode sid v s out hi hn' ht hq hs hv hd
    refine ⟨s', hi', ?_⟩
    rw [if_neg hc, ← e]
    have : (if (type : Int) = TMessageType.CALL ∨ (type : Int) = TMessageType.ONEWAY then
        p.writeMessageBegin (service ++ SEPARATOR ++ name) type seqid else p.writeMessageBegin name type seqid)
        = p.writeMessageBegin name type seqid := by
      refine if_neg ?_
      simp only [TMessageType.CALL, TMessageType.ONEWAY]
      omega
    unfold message
    dsimp only
    rw [this]

omit [HasDepth τ] in
/-- The replies are read as before. -/
theorem multiplexed_reads {p q : Proto σ} {F : Format} {Idle : σ → Prop} {sl cl : Option Int} (hp : Receives p F Idle sl cl)
    {service : PyStr} (hm : multiplexed p service = .ok q) : Receives q F Idle sl cl := by
  unfold multiplexed at hm
  split at hm
  · cases hm
  · injection hm with hm
    subst hm
    exact ⟨hp.header, hp.value, hp.skip, hp.finish, hp.share⟩

/-- The same for a client object: every request is sent under the name `service:name`. -/
theorem multiplexed_send {p q : Proto σ} {F : Format} {Idle : σ → Prop} (hp : Sends p F Idle)
    (fl : Bytes → ω → Except Exc Unit × ω) (service : PyStr) (hm : multiplexed p service = .ok q) (mode : Mode) (sch : Schema) (fn : Fn)
    (as : List (Option Val)) (c : Client σ ω) (hi : Idle c.prot) (hn : TextOK (service ++ [58] ++ fn.name))
    (hn' : TextOK fn.name)
    (hq : InRange 32 c.seqid) (hs : SchemaOK mode sch) (hv : WT sch (.struct fn.argsId) (.struct as))
    (hd : mode = .gen → structDepth (.struct as) ≤ 64) :
    ∃ s' msg, Idle s' ∧
      msg = F.header (service ++ [58] ++ fn.name) (if fn.oneway then 4 else 1) c.seqid ++
        F.value sch (.struct fn.argsId) (.struct as) ∧
      send q fl sch mode fn as c
        = ((fl (c.buf ++ msg) c.sink).1, { c with prot := s', buf := [], sink := (fl (c.buf ++ msg) c.sink).2 }) := by
  obtain ⟨s', hi', e⟩ := multiplexed_writes hp service fn.name hm (if fn.oneway then 4 else 1) c.seqid sch mode fn.argsId
    (.struct as) c.prot c.buf hi hn hn' (by unfold IsMessageType; split <;> omega) hq hs hv hd
  refine ⟨s', _, hi', rfl, ?_⟩
  have hc : (if fn.oneway = true then 4 else 1) = 1 ∨ (if fn.oneway = true then 4 else 1) = 4 := by
    split <;> simp
  rw [if_pos hc] at e
  have ht : (if fn.oneway then TMessageType.ONEWAY else TMessageType.CALL) =
      (((if fn.oneway then 4 else 1 : Nat)) : Int) := by split <;> rfl
  unfold send
  rw [ht]
  simp only [e]

omit [HasDepth τ] in
theorem exec_multiProcess {p : Proto σ} {F : Format} {Idle : σ → Prop} {sl cl : Option Int}
    (hp : Receives p F Idle sl cl) (r : Registry σ τ χ ω) (name : PyStr) (type : Nat) (seqid : Int)
    (hh : HeaderOK sl name type seqid) (c : Call σ τ χ ω) (hi : Idle c.inp) (body : Bytes) :
    exec (multiProcess r p) c (F.header name type seqid ++ body)
      = exec (dispatch r p (name, (type : Int), seqid)) c body := by
  unfold multiProcess
  rw [exec_bind, exec_onIn_of (hp.header name type seqid c.inp body hi hh), Res.andThen_ok]

omit [HasDepth σ] [HasDepth τ] in
theorem exec_stored (proc : Processor σ τ χ ω) {p : Proto σ} (hl : Linear p.mro) (hs : .stored ∉ p.mro) (m : PyStr × Int × Int) : ∃ mro, .stored ∈ mro ∧
    ∀ (c : Call σ τ χ ω) (b : Bytes), exec (stored proc p m) c b = (exec (proc { p with mro := mro, readMessageBegin := pure m }) c b).map
      fun r => ((r.1.1, { r.1.2 with inp := p.share c.inp r.1.2.inp }), r.2) := by
  obtain ⟨mro, h1, h2⟩ := storedClass_ok hl hs m
  refine ⟨mro, h1, fun c b => ?_⟩
  unfold stored exec
  rw [h2]
  dsimp only
  rw [Prog.run_bind]
  cases (proc _ c).run memStep b with
  | none => rfl
  | some r => rfl

/-- A generated processor behaves on `StoredMessageProtocol(iprot, m)` as on a message with header `m`. -/
theorem process_stored {p : Proto σ} {F : Format} {Idle : σ → Prop} {sl cl : Option Int}
    (hp : Receives p F Idle sl cl) (env : Env σ τ ω) (h : Handler χ)
    (cb : Option (PyStr → Int → Int → χ → Except Exc Unit × χ)) (fns : List Fn) (name : PyStr) (type : Nat)
    (seqid : Int) (hh : HeaderOK sl name type seqid) (c : Call σ τ χ ω) (hi : Idle c.inp) (body : Bytes) (mro : List Decorator.Cls) :
    exec (process env h cb fns { p with mro := mro, readMessageBegin := pure (name, (type : Int), seqid) }) c body
      = exec (process env h cb fns p) c (F.header name type seqid ++ body) := by
  unfold process
  rw [exec_bind, exec_bind, exec_onIn_of (hp.header name type seqid c.inp body hi hh),
    exec_onIn_of (show exec (pure (name, (type : Int), seqid) : P σ _) c.inp body
      = some ((.ok (name, (type : Int), seqid), c.inp), body) from rfl)]
  rfl

/-- C34: a call with the name `service:name` is answered exactly as the generated processor last
registered for the service answers the call with the name `name`: same exception or return, same
reply, same effect on the application, same bytes read. (The protocol object given to the multiplexer
differs, see `stored`; it is again between messages.) -/
theorem multiplexed_call {p : Proto σ} {F : Format} {Idle : σ → Prop} {sl cl : Option Int}
    (hp : Receives p F Idle sl cl) (hl : Linear p.mro) (hst : .stored ∉ p.mro) (ops : List (Registration σ τ χ ω)) (service name : PyStr)
    (hsep : 58 ∉ service) (env : Env σ τ ω) (h : Handler χ)
    (cb : Option (PyStr → Int → Int → χ → Except Exc Unit × χ)) (fns : List Fn)
    (hreg : Registered ops service (process env h cb fns)) (type : Nat) (ht : type = 1 ∨ type = 4) (seqid : Int)
    (hh : HeaderOK sl (service ++ [58] ++ name) type seqid) (hh' : HeaderOK sl name type seqid)
    (c : Call σ τ χ ω) (hi : Idle c.inp) (body : Bytes) :
    exec (multiProcess (registry ops) p) c (F.header (service ++ [58] ++ name) type seqid ++ body)
      = (exec (process env h cb fns p) c (F.header name type seqid ++ body)).map
        (fun r => ((r.1.1, { r.1.2 with inp := p.share c.inp r.1.2.inp }), r.2)) ∧
    (∀ r c' b', exec (process env h cb fns p) c (F.header name type seqid ++ body) = some ((r, c'), b') →
      Idle c'.inp → Idle (p.share c.inp c'.inp)) := by
  refine ⟨?_, fun r c' b' _ h' => hp.share _ _ hi h'⟩
  obtain ⟨pre, post, rfl, hlast⟩ := hreg
  have hfind := registry_services pre post service (process env h cb fns) hlast
  rw [exec_multiProcess hp _ _ type seqid hh c hi body]
  unfold dispatch
  rw [if_neg (by simp only [TMessageType.CALL, TMessageType.ONEWAY]; omega)]
  simp only [splitFirst_some hsep]
  cases hf : (registry (pre ++ .service service (process env h cb fns) :: post)).services.find?
      (·.1 == service) with
  | none => rw [hf] at hfind; cases hfind
  | some x =>
    obtain ⟨n, q⟩ := x
    rw [hf] at hfind
    simp only [Option.map_some, Option.some.injEq] at hfind
    subst hfind
    simp only
    obtain ⟨mro, _, e⟩ := exec_stored (process env h cb fns) hl hst (name, (type : Int), seqid)
    rw [e, process_stored hp env h cb fns name type seqid hh' c hi body]

omit [HasDepth τ] in
/-- C34: for any other processor: it is run on an object whose `readMessageBegin` returns the name without the
service. (If it is a multiplexer again, see `multiplexer_nested`.) -/
theorem multiplexed_any {p : Proto σ} {F : Format} {Idle : σ → Prop} {sl cl : Option Int}
    (hp : Receives p F Idle sl cl) (hl : Linear p.mro) (hst : .stored ∉ p.mro) (ops : List (Registration σ τ χ ω)) (service name : PyStr)
    (hsep : 58 ∉ service) (proc : Processor σ τ χ ω)
    (hreg : Registered ops service proc) (type : Nat) (ht : type = 1 ∨ type = 4) (seqid : Int)
    (hh : HeaderOK sl (service ++ [58] ++ name) type seqid)
    (c : Call σ τ χ ω) (hi : Idle c.inp) (body : Bytes) :
    ∃ mro, .stored ∈ mro ∧
    exec (multiProcess (registry ops) p) c (F.header (service ++ [58] ++ name) type seqid ++ body)
      = (exec (proc { p with mro := mro, readMessageBegin := pure (name, (type : Int), seqid) }) c body).map
        (fun r => ((r.1.1, { r.1.2 with inp := p.share c.inp r.1.2.inp }), r.2)) := by
  obtain ⟨pre, post, rfl, hlast⟩ := hreg
  have hfind := registry_services pre post service proc hlast
  rw [exec_multiProcess hp _ _ type seqid hh c hi body]
  unfold dispatch
  rw [if_neg (by simp only [TMessageType.CALL, TMessageType.ONEWAY]; omega)]
  simp only [splitFirst_some hsep]
  cases hf : (registry (pre ++ .service service proc :: post)).services.find? (·.1 == service) with
  | none => rw [hf] at hfind; cases hfind
  | some x =>
    obtain ⟨n, q⟩ := x
    rw [hf] at hfind
    simp only [Option.map_some, Option.some.injEq] at hfind
    subst hfind
    simp only
    obtain ⟨mro, h1, e⟩ := exec_stored q hl hst (name, (type : Int), seqid)
    exact ⟨mro, h1, e c body⟩

omit [HasDepth τ] in
/-- C34: a service that is not registered: `process` raises; no processor runs, nothing is written and
the arguments are not read. -/
theorem multiplexed_unregistered {p : Proto σ} {F : Format} {Idle : σ → Prop} {sl cl : Option Int}
    (hp : Receives p F Idle sl cl) (ops : List (Registration σ τ χ ω)) (service name : PyStr)
    (hsep : 58 ∉ service) (hreg : ∀ q, .service service q ∉ ops) (type : Nat) (seqid : Int)
    (hh : HeaderOK sl (service ++ [58] ++ name) type seqid)
    (c : Call σ τ χ ω) (hi : Idle c.inp) (body : Bytes) :
    exec (multiProcess (registry ops) p) c (F.header (service ++ [58] ++ name) type seqid ++ body)
      = some ((.error TProtocolException.NOT_IMPLEMENTED, c), body) := by
  rw [exec_multiProcess hp _ _ type seqid hh c hi body]
  unfold dispatch
  split
  · rfl
  · simp only [splitFirst_some hsep, registry_unknown ops service hreg]
    rfl

omit [HasDepth τ] in
/-- C34: messages that are not calls are refused, whatever their name. -/
theorem multiplexed_not_call {p : Proto σ} {F : Format} {Idle : σ → Prop} {sl cl : Option Int}
    (hp : Receives p F Idle sl cl) (r : Registry σ τ χ ω) (name : PyStr) (type : Nat)
    (ht : ¬ (type = 1 ∨ type = 4)) (seqid : Int) (hh : HeaderOK sl name type seqid)
    (c : Call σ τ χ ω) (hi : Idle c.inp) (body : Bytes) :
    exec (multiProcess r p) c (F.header name type seqid ++ body)
      = some ((.error TProtocolException.NOT_IMPLEMENTED, c), body) := by
  rw [exec_multiProcess hp _ _ type seqid hh c hi body]
  unfold dispatch
  rw [if_pos (by simp only [TMessageType.CALL, TMessageType.ONEWAY]; omega)]
  rfl

/-- C34: a name without separator goes to the default processor last registered. -/
theorem multiplexed_default {p : Proto σ} {F : Format} {Idle : σ → Prop} {sl cl : Option Int}
    (hp : Receives p F Idle sl cl) (hl : Linear p.mro) (hst : .stored ∉ p.mro) (ops : List (Registration σ τ χ ω)) (name : PyStr) (hsep : 58 ∉ name)
    (env : Env σ τ ω) (h : Handler χ)
    (cb : Option (PyStr → Int → Int → χ → Except Exc Unit × χ)) (fns : List Fn)
    (hreg : RegisteredDefault ops (process env h cb fns)) (type : Nat) (ht : type = 1 ∨ type = 4) (seqid : Int)
    (hh : HeaderOK sl name type seqid) (c : Call σ τ χ ω) (hi : Idle c.inp) (body : Bytes) :
    exec (multiProcess (registry ops) p) c (F.header name type seqid ++ body)
      = (exec (process env h cb fns p) c (F.header name type seqid ++ body)).map
        (fun r => ((r.1.1, { r.1.2 with inp := p.share c.inp r.1.2.inp }), r.2)) := by
  obtain ⟨pre, post, rfl, hlast⟩ := hreg
  rw [exec_multiProcess hp _ _ type seqid hh c hi body]
  unfold dispatch
  rw [if_neg (by simp only [TMessageType.CALL, TMessageType.ONEWAY]; omega)]
  simp only [splitFirst_none.mpr hsep, registry_default pre post _ hlast]
  obtain ⟨mro, _, e⟩ := exec_stored (process env h cb fns) hl hst (name, (type : Int), seqid)
  rw [e, process_stored hp env h cb fns name type seqid hh c hi body]

omit [HasDepth τ] in
/-- C34: a name without separator and no default processor: `process` raises. -/
theorem multiplexed_no_default {p : Proto σ} {F : Format} {Idle : σ → Prop} {sl cl : Option Int}
    (hp : Receives p F Idle sl cl) (ops : List (Registration σ τ χ ω)) (name : PyStr) (hsep : 58 ∉ name)
    (hreg : ∀ q, .default q ∉ ops) (type : Nat) (seqid : Int)
    (hh : HeaderOK sl name type seqid) (c : Call σ τ χ ω) (hi : Idle c.inp) (body : Bytes) :
    exec (multiProcess (registry ops) p) c (F.header name type seqid ++ body)
      = some ((.error TProtocolException.NOT_IMPLEMENTED, c), body) := by
  rw [exec_multiProcess hp _ _ type seqid hh c hi body]
  unfold dispatch
  split
  · rfl
  · simp only [splitFirst_none.mpr hsep, registry_no_default ops hreg]
    rfl

omit [HasDepth σ] [HasDepth τ] in
/-- A multiplexer never gets to a processor on an object that is already stored. -/
theorem dispatch_stored (r : Registry σ τ χ ω) {p : Proto σ} (hs : .stored ∈ p.mro) (m : PyStr × Int × Int) :
    dispatch r p m = P.raise TProtocolException.NOT_IMPLEMENTED ∨ dispatch r p m = P.raise .typeError := by
  have key : ∀ proc m, stored proc p m = (P.raise .typeError : P (Call σ τ χ ω) Unit) := by
    intro proc m
    unfold stored storedClass
    rw [Decorator.decorate_none hs]
  unfold dispatch
  split
  · exact .inl rfl
  · split
    · split
      · exact .inr (key _ _)
      · exact .inl rfl
    · split
      · exact .inl rfl
      · exact .inr (key _ _)

omit [HasDepth τ] in
/-- C98 fails: a multiplexer registered with a multiplexer. Every call to it raises; a call of a service registered with it
raises `TypeError`; no processor runs, nothing is written, and the arguments are not read. -/
theorem multiplexer_nested {p : Proto σ} {F : Format} {Idle : σ → Prop} {sl cl : Option Int}
    (hp : Receives p F Idle sl cl) (hl : Linear p.mro) (hst : .stored ∉ p.mro) (ops inner : List (Registration σ τ χ ω)) (outer name : PyStr)
    (hsep : 58 ∉ outer) (hreg : Registered ops outer (multiProcess (registry inner))) (type : Nat) (ht : type = 1 ∨ type = 4) (seqid : Int)
    (hh : HeaderOK sl (outer ++ [58] ++ name) type seqid) (c : Call σ τ χ ω) (hi : Idle c.inp) (body : Bytes) :
    (∃ e, (e = TProtocolException.NOT_IMPLEMENTED ∨ e = .typeError) ∧
      exec (multiProcess (registry ops) p) c (F.header (outer ++ [58] ++ name) type seqid ++ body)
        = some ((.error e, { c with inp := p.share c.inp c.inp }), body)) ∧
    (∀ service call proc, name = service ++ [58] ++ call → 58 ∉ service → Registered inner service proc →
      exec (multiProcess (registry ops) p) c (F.header (outer ++ [58] ++ name) type seqid ++ body)
        = some ((.error .typeError, { c with inp := p.share c.inp c.inp }), body)) := by
  obtain ⟨mro, hm, e⟩ := multiplexed_any hp hl hst ops outer name hsep _ hreg type ht seqid hh c hi body
  have e1 : exec (multiProcess (registry inner) { p with mro := mro, readMessageBegin := pure (name, (type : Int), seqid) }) c body
      = exec (dispatch (registry inner) { p with mro := mro, readMessageBegin := pure (name, (type : Int), seqid) } (name, (type : Int), seqid)) c body := by
    unfold multiProcess
    rw [exec_bind, exec_onIn_of (show exec (pure (name, (type : Int), seqid) : P σ _) c.inp body
      = some ((.ok (name, (type : Int), seqid), c.inp), body) from rfl), Res.andThen_ok]
  constructor
  · rcases dispatch_stored (registry inner) (p := { p with mro := mro, readMessageBegin := pure (name, (type : Int), seqid) }) hm (name, (type : Int), seqid) with h | h
    · exact ⟨_, .inl rfl, by rw [e, e1, h]; rfl⟩
    · exact ⟨_, .inr rfl, by rw [e, e1, h]; rfl⟩
  · rintro service call proc rfl hs ⟨pre, post, rfl, hlast⟩
    have hfind := registry_services pre post service proc hlast
    have h : dispatch (registry (pre ++ .service service proc :: post)) { p with mro := mro, readMessageBegin := pure (service ++ [58] ++ call, (type : Int), seqid) }
        (service ++ [58] ++ call, (type : Int), seqid) = P.raise .typeError := by
      unfold dispatch
      rw [if_neg (by simp only [TMessageType.CALL, TMessageType.ONEWAY]; omega)]
      simp only [splitFirst_some hs]
      cases hf : (registry (pre ++ .service service proc :: post)).services.find? (·.1 == service) with
      | none => rw [hf] at hfind; cases hfind
      | some x =>
        simp only
        unfold stored storedClass
        dsimp only
        rw [Decorator.decorate_none hm]
    rw [e, e1, h]
    rfl

omit [HasDepth τ] in
/-- The same for a multiplexer that is the default of another -/
theorem multiplexer_default {p : Proto σ} {F : Format} {Idle : σ → Prop} {sl cl : Option Int}
    (hp : Receives p F Idle sl cl) (hl : Linear p.mro) (hst : .stored ∉ p.mro) (ops inner : List (Registration σ τ χ ω)) (name : PyStr)
    (hsep : 58 ∉ name) (hreg : RegisteredDefault ops (multiProcess (registry inner))) (type : Nat) (ht : type = 1 ∨ type = 4) (seqid : Int)
    (hh : HeaderOK sl name type seqid) (c : Call σ τ χ ω) (hi : Idle c.inp) (body : Bytes) :
    ∃ e, (e = TProtocolException.NOT_IMPLEMENTED ∨ e = .typeError) ∧
      exec (multiProcess (registry ops) p) c (F.header name type seqid ++ body)
        = some ((.error e, { c with inp := p.share c.inp c.inp }), body) := by
  obtain ⟨pre, post, rfl, hlast⟩ := hreg
  rw [exec_multiProcess hp _ _ type seqid hh c hi body]
  unfold dispatch
  rw [if_neg (by simp only [TMessageType.CALL, TMessageType.ONEWAY]; omega)]
  simp only [splitFirst_none.mpr hsep, registry_default pre post _ hlast]
  obtain ⟨mro, hm, e⟩ := exec_stored (multiProcess (registry inner)) hl hst (name, (type : Int), seqid)
  have e1 : exec (multiProcess (registry inner) { p with mro := mro, readMessageBegin := pure (name, (type : Int), seqid) }) c body
      = exec (dispatch (registry inner) { p with mro := mro, readMessageBegin := pure (name, (type : Int), seqid) } (name, (type : Int), seqid)) c body := by
    unfold multiProcess
    rw [exec_bind, exec_onIn_of (show exec (pure (name, (type : Int), seqid) : P σ _) c.inp body
      = some ((.ok (name, (type : Int), seqid), c.inp), body) from rfl), Res.andThen_ok]
  rcases dispatch_stored (registry inner) (p := { p with mro := mro, readMessageBegin := pure (name, (type : Int), seqid) }) hm (name, (type : Int), seqid) with h | h
  · exact ⟨_, .inl rfl, by rw [e, e1, h]; rfl⟩
  · exact ⟨_, .inr rfl, by rw [e, e1, h]; rfl⟩

/-- The restriction to service names without the separator is necessary: with a service name
`pre:post` the call goes to the service `pre`, with the method name `post:name`, even if `pre:post` is
registered. -/
theorem multiplexed_misrouted {p : Proto σ} {F : Format} {Idle : σ → Prop} {sl cl : Option Int}
    (hp : Receives p F Idle sl cl) (hl : Linear p.mro) (hst : .stored ∉ p.mro) (ops : List (Registration σ τ χ ω)) (pre post name : PyStr)
    (hsep : 58 ∉ pre) (env : Env σ τ ω) (h : Handler χ)
    (cb : Option (PyStr → Int → Int → χ → Except Exc Unit × χ)) (fns : List Fn)
    (hreg : Registered ops pre (process env h cb fns)) (type : Nat) (ht : type = 1 ∨ type = 4) (seqid : Int)
    (hh : HeaderOK sl ((pre ++ [58] ++ post) ++ [58] ++ name) type seqid)
    (hh' : HeaderOK sl (post ++ [58] ++ name) type seqid)
    (c : Call σ τ χ ω) (hi : Idle c.inp) (body : Bytes) :
    exec (multiProcess (registry ops) p) c (F.header ((pre ++ [58] ++ post) ++ [58] ++ name) type seqid ++ body)
      = (exec (process env h cb fns p) c (F.header (post ++ [58] ++ name) type seqid ++ body)).map
        (fun r => ((r.1.1, { r.1.2 with inp := p.share c.inp r.1.2.inp }), r.2)) := by
  have he : (pre ++ [58] ++ post) ++ [58] ++ name = pre ++ [58] ++ (post ++ [58] ++ name) := by simp
  rw [he] at hh ⊢
  exact (multiplexed_call hp hl hst ops pre _ hsep env h cb fns hreg type ht seqid hh hh' c hi body).1

end

section
open SampleService

/-- The hypotheses of `multiplexed_call` hold for the sample service under the names "a" and "store",
registered twice. -/
example (q : Processor Compact.St Compact.St Nat (List Bytes)) (body : Bytes) :=
  multiplexed_call (Compact.reads { stringLimit := some 20 }) ⟨by decide, rfl, by decide⟩ (by decide)
    [.service (pyStr "store") q, .default q,
      .service (pyStr "store") (process (sampleEnv (Compact.proto {})) handler none fns),
      .service (pyStr "a") q] (pyStr "store") (pyStr "get") (by decide) (sampleEnv (Compact.proto {})) handler none fns
    ⟨[.service (pyStr "store") q, .default q], [.service (pyStr "a") q], rfl, by simp [pyStr]⟩ 1 (.inl rfl) 0
    ⟨by decide, by intro l h; cases h; decide, ⟨by omega, by omega⟩, by decide⟩
    (header_ok 1 ⟨by omega, by omega⟩) { inp := {}, out := {}, sink := [], app := 0 } ⟨rfl, rfl, rfl⟩ body

/-- `TMultiplexedProtocol(TCompactProtocol(…), "store")` -/
example : ∃ q, multiplexed (Compact.proto {}) (pyStr "store") = .ok q ∧ Receives q Format.compact Compact.Idle none none :=
  let ⟨q, _, h, _⟩ := multiplexed_ok (p := Compact.proto {}) ⟨by decide, rfl, by decide⟩ (by decide) (pyStr "store")
  ⟨q, h, multiplexed_reads (Compact.reads {}) h⟩

/-- A service "store" in a multiplexer "b" in a multiplexer: "b:store:get" -/
example (body : Bytes) (proc : Processor Compact.St Compact.St Nat (List Bytes)) :
    exec (multiProcess (registry [.service (pyStr "b") (multiProcess (registry [.service (pyStr "store") proc]))])
      (Compact.proto {})) { inp := {}, out := {}, sink := [], app := 0 } (Format.compact.header (pyStr "b" ++ [58] ++ (pyStr "store" ++ [58] ++ pyStr "get")) 1 0 ++ body)
    = some ((.error .typeError, { inp := {}, out := {}, sink := [], app := 0 }), body) :=
  (multiplexer_nested (Compact.reads {}) ⟨by decide, rfl, by decide⟩ (by decide)
    [.service (pyStr "b") (multiProcess (registry [.service (pyStr "store") proc]))] [.service (pyStr "store") proc] (pyStr "b") _ (by decide) ⟨[], [], rfl, by simp⟩ 1 (.inl rfl) 0
    ⟨by decide, by rintro l ⟨⟩, ⟨by omega, by omega⟩, by decide⟩ { inp := {}, out := {}, sink := [], app := 0 } ⟨rfl, rfl, rfl⟩ body).2 (pyStr "store") (pyStr "get") proc rfl (by decide)
    ⟨[], [], rfl, by simp⟩

end
end Thrift
