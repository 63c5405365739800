import Verif.Proofs.Rpc
import Verif.Spec.Sample
/-
Properties C34 to C38, C51 and C52: remote calls.
-/

namespace Thrift
open Spec Rpc

/-! ## The protocols speak their formats -/

namespace Binary

/-- Between messages. -/
def Idle (s : St) : Prop := s.depth = 0

theorem message_eq (cfg : Cfg) {F : PyStr → Nat → Int → Bytes} {name : PyStr} {type : Nat} {seqid : Int}
    (h : WritesExactly (writeMessageBegin cfg name type seqid) (F name type seqid)) (sch : Schema)
    (mode : Mode) (sid : Nat) (v : Val) (s : St) (out : Bytes) (hi : Idle s) (hs : SchemaOK mode sch)
    (hv : WT sch (.struct sid) v) (hd : mode = .gen → structDepth v ≤ 64) :
    message (proto cfg) name type seqid (writeVal wr sch mode (.struct sid) v) s out
      = (.ok (), s, out ++ (F name type seqid ++ Spec.Binary.value sch (.struct sid) v)) := by
  unfold message
  refine (W.bind_ok (h s out)).trans ?_
  refine (W.bind_ok (binary_wire_format mode sch _ v s _ hs hv (fun m => ?_))).trans ?_
  · have := hd m
    rw [show s.depth = 0 from hi]
    omega
  · rw [List.append_assoc]
    rfl

theorem writes (cfg : Cfg) (hc : cfg.strictWrite = true) : Sends (proto cfg) Format.binary Idle := by
  intro name type seqid sch mode sid v s out hi hn ht hq hs hv hd
  exact ⟨s, message_eq cfg ((binary_message_strict cfg {} name type seqid hc hn (by intro l h; cases h)
    (by unfold IsMessageType at ht; omega) hq).1) sch mode sid v s out hi hs hv hd, hi⟩

theorem writes_old (cfg : Cfg) (hc : cfg.strictWrite = false) : Sends (proto cfg) Format.binaryOld Idle := by
  intro name type seqid sch mode sid v s out hi hn ht hq hs hv hd
  exact ⟨s, message_eq cfg ((binary_message_nonstrict cfg { strictRead := false } name type seqid hc rfl hn
    (by unfold IsMessageType at ht; omega) hq).1) sch mode sid v s out hi hs hv hd, hi⟩

theorem reads_of (cfg : Cfg) (F : PyStr → Nat → Int → Bytes)
    (h : ∀ name type seqid, TextOK name → Within cfg.stringLimit (utf8Len name) → IsMessageType type →
      InRange 32 seqid → ReadsBack (readMessageBegin cfg) (F name type seqid) (name, (type : Int), seqid)) :
    Receives (proto cfg) ⟨F, Spec.Binary.value⟩ Idle cfg.stringLimit cfg.containerLimit where
  header name type seqid s rest _ hh := h name type seqid hh.text hh.limit hh.kind hh.range s rest
  value mode sch₁ sch₂ sid v s fuel hi h :=
    ⟨s, hi, (read_gen cfg mode sch₁ sch₂ _ v s fuel h.sender h.receiver h.versions h.typed h.limits
      (fun m => by have := h.depth m; rw [show s.depth = 0 from hi]; omega) h.unknown h.fuel).1⟩
  skip sch sid v s fuel hi hs hv hl hd hb hf :=
    ⟨s, hi, (skip_gen cfg sch (.struct sid) v s fuel skipDepth hs hv hl hd hb hf).1⟩
  finish _ _ _ := rfl
  share _ _ h _ := h

theorem reads (cfg : Cfg) : Receives (proto cfg) Format.binary Idle cfg.stringLimit cfg.containerLimit :=
  reads_of cfg _ fun name type seqid hn hl ht hq =>
    (binary_message_strict {} cfg name type seqid rfl hn hl (by unfold IsMessageType at ht; omega) hq).2

theorem reads_old (cfg : Cfg) (hc : cfg.strictRead = false) :
    Receives (proto cfg) Format.binaryOld Idle cfg.stringLimit cfg.containerLimit :=
  reads_of cfg _ fun name type seqid hn _ ht hq =>
    (binary_message_nonstrict { strictWrite := false } cfg name type seqid rfl hc hn
      (by unfold IsMessageType at ht; omega) hq).2

end Binary

namespace Compact

/-- Between messages. -/
def Idle (s : St) : Prop := s.depth = 0 ∧ s.state = .CLEAR ∧ s.structs = []

theorem idle_same {s s' : St} (hi : Idle s) (h : SameObject s s') : Idle s' := by
  obtain ⟨f, b, rfl⟩ := h
  exact hi

theorem writes (cfg : Cfg) : Sends (proto cfg) Format.compact Idle := by
  intro name type seqid sch mode sid v s out hi hn ht hq hs hv hd
  obtain ⟨h0, h1, h2⟩ := hi
  have hm := (compact_message {} name type seqid s h1 hn (by intro l h; cases h)
    (by unfold IsMessageType at ht; omega) hq).1 out
  obtain ⟨s', e, f, b, rfl⟩ := compact_wire_format mode sch (.struct sid) v { s with state := .VALUE_WRITE }
    (out ++ Spec.Compact.message name type seqid) hs hv (.inr (.inl ⟨rfl, by simp⟩))
    (fun m => by have := hd m; simp only [h0]; omega)
  refine ⟨{ s with state := .CLEAR, boolFid := f, boolValue := b }, ?_, h0, rfl, h2⟩
  unfold message
  refine (W.bind_ok hm).trans ?_
  refine (W.bind_ok e).trans ?_
  rw [List.append_assoc]
  rfl

theorem reads (cfg : Cfg) : Receives (proto cfg) Format.compact Idle cfg.stringLimit cfg.containerLimit where
  header name type seqid s rest hi h :=
    (compact_message cfg name type seqid s hi.2.1 h.text h.limit
      (by have := h.kind; unfold IsMessageType at this; omega) h.range).2 rest
  value mode sch₁ sch₂ sid v s fuel hi h := by
    obtain ⟨s', h, hs⟩ := read_gen cfg mode sch₁ sch₂ (.struct sid) v s fuel h.sender h.receiver
      h.versions h.typed h.limits (.inr (.inr ⟨hi.2.1, sid, rfl⟩))
      (fun m => by have := h.depth m; rw [hi.1]; omega) h.unknown h.fuel
    exact ⟨s', idle_same hi hs, h.1⟩
  skip sch sid v s fuel hi hs hv hl hd hb hf := by
    obtain ⟨s', h, hs⟩ := skip_gen cfg sch (.struct sid) v s fuel skipDepth hs hv hl
      (.inr (.inr ⟨hi.2.1, sid, rfl⟩)) hd hb hf
    exact ⟨s', idle_same hi hs, h.1⟩
  finish s rest hi := by
    show exec readMessageEnd s rest = _
    unfold readMessageEnd
    simp only [exec_bind, exec_get, Res.andThen_ok, hi.2.1, hi.2.2]
    rfl
  share s s' h h' := ⟨h.1, h.2.1, h'.2.2⟩

end Compact

/-! ## C38: `TApplicationException` -/

section
variable {σ τ : Type} [HasDepth σ] [HasDepth τ]

/-- C38, writing: a message with a `TApplicationException` is the header and the documented struct. -/
theorem app_write {p : Proto σ} {F : Format} {Idle : σ → Prop} (hp : Sends p F Idle) (name : PyStr)
    (type : Nat) (seqid : Int) (x : AppExc) (s : σ) (out : Bytes) (hi : Idle s)
    (hh : HeaderOK none name type seqid) (hx : AppOK x) :
    ∃ s', message p name type seqid (appWrite p x) s out
      = (.ok (), s', out ++ (F.header name type seqid ++ F.app x)) ∧ Idle s' := by
  rw [appWrite_eq]
  exact hp name type seqid appSchema .gen 0 (appVal x) s out hi hh.text hh.kind hh.range (appSchema_ok _)
    (appVal_wt hx) (fun _ => by rw [appVal_depth]; omega)

/-- C38, reading: of a struct written by any peer, whatever other fields it has, the exception gets the
text of field 1 and the number of field 2 as far as they were sent with these types; other fields are
ignored. -/
theorem app_read_any {p : Proto σ} {F : Format} {Idle : σ → Prop} {sl cl : Option Int}
    (hp : Receives p F Idle sl cl) (sch : Schema) (v : Val) (s : σ) (fuel : Nat) (hi : Idle s)
    (hv : BodyOK sl cl .gen sch appSchema 0 v (fuel + 1)) :
    ∃ x s', appVal x = project sch appSchema (.struct 0) v ∧ Idle s' ∧ ∀ rest,
      exec (appRead p fuel) s (F.value sch (.struct 0) v ++ rest) = some ((.ok x, s'), rest) := by
  obtain ⟨s', hi', e⟩ := hp.value .gen sch appSchema 0 v s (fuel + 1) hi hv
  have h0 := e []
  rw [appRead_eq, exec_map'] at h0
  cases hx : exec (appRead p fuel) s (F.value sch (.struct 0) v ++ []) with
  | none => rw [hx] at h0; cases h0
  | some r =>
    obtain ⟨⟨r, s1⟩, b1⟩ := r
    rw [hx] at h0
    cases r with
    | error e => simp [Except.map] at h0
    | ok x =>
      simp only [Option.map_some, Except.map, Option.some.injEq, Prod.mk.injEq, Except.ok.injEq] at h0
      refine ⟨x, s', h0.1.1, hi', fun rest => exec_appRead ?_⟩
      rw [h0.1.1]
      exact e rest

/-- C38: type and message are restored. (A type `None` becomes 0, the type of a new object.) -/
theorem app_roundtrip {p : Proto σ} {F : Format} {Idle : σ → Prop} {sl cl : Option Int}
    (hp : Receives p F Idle sl cl) (x : AppExc) (s : σ) (fuel : Nat) (hi : Idle s) (hx : AppOK x)
    (hl : ∀ m ∈ x.message, Within sl (utf8Len m)) (hf : 5 ≤ fuel) :
    ∃ s', Idle s' ∧ ∀ rest, exec (appRead p fuel) s (F.app x ++ rest)
      = some ((.ok ⟨some (x.type.getD 0), x.message⟩, s'), rest) := by
  have hb : BodyOK sl cl .gen appSchema appSchema 0 (appVal x) (fuel + 1) := {
    sender := appSchema_ok _
    receiver := appSchema_ok _
    versions := compatible_self (appSchema_ok .gen)
    typed := appVal_wt hx
    limits := by
      obtain ⟨t, m⟩ := x
      cases m <;> cases t <;> simp_all [appVal, WithinLimits, Sizes, Sizesf]
    depth := fun _ => by rw [appVal_depth]; omega
    unknown := Unknowns_self _ _ _ _
    fuel := by
      obtain ⟨t, m⟩ := x
      cases m <;> cases t <;> simp [appVal, size, sizef] <;> omega }
  obtain ⟨y, s', hy, hi', e⟩ := app_read_any hp appSchema (appVal x) s fuel hi hb
  have : y = ⟨some (x.type.getD 0), x.message⟩ := by
    apply appVal_inj
    rw [hy]
    obtain ⟨t, m⟩ := x
    cases m <;> cases t <;> simp [appVal, project, sentFields, attrOf, appSchema] <;> decide
  exact ⟨s', hi', by rw [← this]; exact e⟩

example : AppOK internalError ∧ AppOK ⟨some (-3), none⟩ ∧ AppOK ⟨none, some [233, 0x1F600]⟩ := by
  refine ⟨⟨?_, ?_⟩, ⟨?_, ?_⟩, ⟨?_, ?_⟩⟩ <;> intro m h <;> simp [internalError] at h <;>
    (subst h; decide)

end

/-! ## C35: the processor -/

section
variable {σ τ χ ω : Type}

theorem emptyResult_eq {sch : Schema} {fn : Fn} (h : ResultOK sch fn) :
    emptyResult fn = noField (sch fn.resultId) := by
  obtain ⟨excs, he, h⟩ := h.shape
  have : fn.throws.map (fun _ => (none : Option Val)) = excs.map fun _ => none := by
    have hl : fn.throws.length = excs.length := by
      have := congrArg List.length he
      simpa using this.symm
    simp [List.map_const', hl]
  unfold emptyResult noField
  rcases h with ⟨hr, ty, hs⟩ | ⟨hr, hs⟩
  · rw [hs, this, hr]
    rfl
  · rw [hs, this, hr]
    rfl

theorem onlyField_set (pre post : List Field) (f : Field) (v : Val)
    (h : (pre ++ f :: post).Pairwise fun f g => f.fid < g.fid) :
    onlyField (pre ++ f :: post) f.fid v = (noField (pre ++ f :: post)).set pre.length (some v) := by
  induction pre with
  | nil =>
    simp only [List.nil_append, onlyField, noField, List.map_cons, if_true, List.length_nil, List.set_cons_zero]
    congr 1
    apply List.map_congr_left
    intro g hg
    have := (List.pairwise_cons.mp h).1 g hg
    rw [if_neg (by omega)]
  | cons g pre ih =>
    obtain ⟨h1, h2⟩ := List.pairwise_cons.mp h
    have hg := h1 f (by simp)
    have := ih h2
    simp only [onlyField, noField] at this
    simp only [List.cons_append, onlyField, noField, List.map_cons, List.length_cons, List.set_cons_succ, this]
    rw [if_neg (by omega)]

theorem throws_index (ts : List Nat) (sid : Nat) : ∀ (pre post : List Field) (f : Field),
    (pre ++ f :: post).map (·.ty) = ts.map .struct → f.ty = .struct sid →
    (∀ g ∈ pre, g.ty ≠ .struct sid) → ts.findIdx? (· == sid) = some pre.length := by
  induction ts with
  | nil => intro pre post f h; simp at h
  | cons t ts ih =>
    intro pre post f h hf hp
    cases pre with
    | nil =>
      simp only [List.nil_append, List.map_cons, List.cons.injEq] at h
      have : t = sid := by
        have := h.1.symm.trans hf
        injection this
      simp [List.findIdx?_cons, this]
    | cons g pre =>
      simp only [List.cons_append, List.map_cons, List.cons.injEq] at h
      have hne : ¬ t = sid := by
        intro e
        exact hp g (by simp) (by rw [h.1, e])
      rw [List.findIdx?_cons, if_neg (by simpa using hne),
        ih pre post f (by simpa using h.2) hf fun g hg => hp g (by simp [hg])]
      rfl

theorem not_declared {ts : List Nat} {sid : Nat} (h : sid ∉ ts) : ts.findIdx? (· == sid) = none := by
  rw [List.findIdx?_eq_none_iff]
  intro x hx
  simp only [beq_eq_false_iff_ne]
  intro e
  exact h (e ▸ hx)

theorem setException_eq {sch : Schema} {fn : Fn} (h : ResultOK sch fn) {sid : Nat} {f : Field}
    (hd : DeclaredAs sch fn sid f) (v : Val) :
    ∃ i, fn.throws.findIdx? (· == sid) = some i ∧ setException fn i v = onlyField (sch fn.resultId) f.fid v := by
  obtain ⟨pre, post, hs, hf0, hty, hpre⟩ := hd
  obtain ⟨excs, he, hc⟩ := h.shape
  have hsort := h.sorted
  have hids := h.ids
  rcases hc with ⟨hr, ty, hs'⟩ | ⟨hr, hs'⟩
  · cases pre with
    | nil =>
      rw [hs, List.nil_append] at hs'
      injection hs' with h1 _
      rw [h1] at hf0
      exact absurd rfl hf0
    | cons g pre =>
      rw [hs, List.cons_append] at hs'
      injection hs' with h1 h2
      refine ⟨pre.length, throws_index _ _ pre post f (by rw [h2, he]) hty ?_, ?_⟩
      · intro x hx
        rcases hpre x (by simp [hx]) with h0 | h0
        · rw [hs] at hsort
          have := (List.pairwise_cons.mp hsort).1 x (by simp [hx])
          rw [h1] at this
          simp only [h0] at this
          omega
        · exact h0
      · unfold setException
        rw [emptyResult_eq h, hr, hs, onlyField_set _ _ _ _ (by rw [← hs]; exact hsort)]
        simp only [if_true, List.length_cons]
        rw [Nat.add_comm]
  · refine ⟨pre.length, throws_index _ _ pre post f (by rw [← hs, hs', he]) hty ?_, ?_⟩
    · intro x hx
      rcases hpre x hx with h0 | h0
      · have := hids x (by rw [hs]; simp [hx]) h0
        rw [hr] at this
        cases this
      · exact h0
    · unfold setException
      rw [emptyResult_eq h, hr, hs, onlyField_set _ _ _ _ (by rw [← hs]; exact hsort)]
      simp

theorem setSuccess_eq {sch : Schema} {fn : Fn} (h : ResultOK sch fn) (hr : fn.returns = true) (v : Val) :
    setSuccess fn (some v) = onlyField (sch fn.resultId) 0 v := by
  unfold setSuccess
  rw [if_pos hr, emptyResult_eq h]
  obtain ⟨excs, he, hc⟩ := h.shape
  have hsort := h.sorted
  rcases hc with ⟨-, ty, hs⟩ | ⟨hr', -⟩
  · rw [hs] at hsort ⊢
    exact (onlyField_set [] excs { fid := 0, ty := ty } v hsort).symm
  · rw [hr] at hr'; cases hr'

theorem setSuccess_none {sch : Schema} {fn : Fn} (h : ResultOK sch fn) (v : Option Val)
    (hv : fn.returns = true → v = none) : setSuccess fn v = noField (sch fn.resultId) := by
  unfold setSuccess
  rw [emptyResult_eq h]
  split
  · rename_i hr
    rw [hv hr]
    unfold noField
    cases sch fn.resultId <;> rfl
  · rfl

/-- Every outcome of a handler, except the exceptions that pass through, has an answer. -/
theorem answers_total {sch : Schema} {fn : Fn} (h : ResultOK sch fn) (o : Outcome)
    (h1 : ∀ t, o ≠ .transport t) (h2 : ∀ n, o ≠ .base n) :
    ∃ type sch' sid' w, Answers sch fn o type sch' sid' w := by
  cases o with
  | transport t => exact absurd rfl (h1 t)
  | base n => exact absurd rfl (h2 n)
  | application x => exact ⟨_, _, _, _, .application x⟩
  | other n => exact ⟨_, _, _, _, .other n⟩
  | returned v =>
    cases hr : fn.returns with
    | false => exact ⟨_, _, _, _, .void v hr⟩
    | true =>
      cases v with
      | none => exact ⟨_, _, _, _, .missing hr⟩
      | some v => exact ⟨_, _, _, _, .value v hr⟩
  | declared sid as =>
    by_cases hm : sid ∈ fn.throws
    · obtain ⟨excs, he, hc⟩ := h.shape
      have hx : ∃ pre f post, excs = pre ++ f :: post ∧ f.ty = .struct sid ∧ ∀ g ∈ pre, g.ty ≠ .struct sid := by
        have : Ty.struct sid ∈ excs.map (·.ty) := by rw [he]; exact List.mem_map.mpr ⟨sid, hm, rfl⟩
        clear hc he hm
        induction excs with
        | nil => simp at this
        | cons e es ih =>
          by_cases hty : e.ty = .struct sid
          · exact ⟨[], e, es, rfl, hty, by simp⟩
          · simp only [List.map_cons, List.mem_cons] at this
            rcases this with h | h
            · exact absurd h.symm hty
            · obtain ⟨pre, f, post, rfl, h1, h2⟩ := ih h
              refine ⟨e :: pre, f, post, rfl, h1, fun g hg => ?_⟩
              rcases List.mem_cons.mp hg with rfl | hg
              · exact hty
              · exact h2 g hg
      obtain ⟨pre, f, post, rfl, hf, hp⟩ := hx
      refine ⟨_, _, _, _, .declared sid as f ?_⟩
      rcases hc with ⟨hr, ty, hs⟩ | ⟨hr, hs⟩
      · have hsort := h.sorted
        rw [hs] at hsort
        refine ⟨{ fid := 0, ty := ty } :: pre, post, hs, ?_, hf, ?_⟩
        · have := (List.pairwise_cons.mp hsort).1 f (by simp)
          simp only at this
          omega
        · intro g hg
          rcases List.mem_cons.mp hg with rfl | hg
          · exact .inl rfl
          · exact .inr (hp g hg)
      · refine ⟨pre, post, hs, ?_, hf, fun g hg => .inr (hp g hg)⟩
        intro h0
        have := h.ids f (by rw [hs]; simp) h0
        rw [hr] at this
        cases this
    · exact ⟨_, _, _, _, .undeclared sid as hm⟩

variable [HasDepth σ] [HasDepth τ]

omit [HasDepth σ] in
theorem answer_of {env : Env σ τ ω} {fn : Fn} (hr : ResultOK env.sch fn) (hone : fn.oneway = false)
    (hsch : SchemaOK env.mode env.sch) {o : Outcome} {type : Nat} {sch' : Schema} {sid' : Nat} {w : Val}
    (h : Answers env.sch fn o type sch' sid' w) :
    ∃ r mode, answer fn o = .ok (some ((type : Int), r)) ∧ SchemaOK mode sch' ∧
      writeReply env fn r = writeVal env.q.wr sch' mode (.struct sid') w := by
  cases h with
  | value v h1 =>
    refine ⟨_, env.mode, by simp only [answer, hone]; rfl, hsch, ?_⟩
    rw [setSuccess_eq hr h1]; rfl
  | void v h1 =>
    refine ⟨_, env.mode, by simp only [answer, hone]; rfl, hsch, ?_⟩
    rw [setSuccess_none hr _ (fun h => by rw [h1] at h; cases h)]; rfl
  | missing h1 =>
    refine ⟨_, env.mode, by simp only [answer, hone]; rfl, hsch, ?_⟩
    rw [setSuccess_none hr _ (fun _ => rfl)]; rfl
  | declared sid as f hd =>
    obtain ⟨i, hi, he⟩ := setException_eq hr hd (.struct as)
    refine ⟨_, env.mode, by simp only [answer, hone, hi]; rfl, hsch, ?_⟩
    rw [he]; rfl
  | undeclared sid as hd =>
    refine ⟨_, .gen, by simp only [answer, hone, not_declared hd]; rfl, appSchema_ok _, ?_⟩
    exact appWrite_eq _ _
  | application x =>
    exact ⟨.application x, .gen, by simp only [answer, hone]; rfl, appSchema_ok _, appWrite_eq _ _⟩
  | other n =>
    exact ⟨.application internalError, .gen, by simp only [answer, hone]; rfl, appSchema_ok _, appWrite_eq _ _⟩

theorem lookup_serves {fns : List Fn} {name : PyStr} {fn : Fn} (h : Serves fns name fn) :
    lookup fns name = some fn := by
  obtain ⟨hn, pre, post, rfl, hp⟩ := h
  unfold lookup
  rw [List.reverse_append, List.reverse_cons, List.append_assoc, List.find?_append,
    List.find?_eq_none.mpr (by
      intro x hx
      simpa using hp x (by simpa using hx))]
  simp [hn]

theorem lookup_none {fns : List Fn} {name : PyStr} (h : ∀ g ∈ fns, g.name ≠ name) : lookup fns name = none := by
  unfold lookup
  rw [List.find?_eq_none]
  intro x hx
  simpa using h x (by simpa using hx)

omit [HasDepth σ] [HasDepth τ] in
theorem exec_onBegin {cb : Option (PyStr → Int → Int → χ → Except Exc Unit × χ)} {name : PyStr}
    {type seqid : Int} {c : Call σ τ χ ω} {app' : χ} (h : Began cb name type seqid c.app app') (b : Bytes) :
    exec (onBegin cb (name, type, seqid)) c b = some ((.ok (), { c with app := app' }), b) := by
  unfold Began at h
  unfold onBegin
  cases cb with
  | none => simp only at h; rw [h]; rfl
  | some f =>
    simp only at h
    simp only [exec_bind, exec_onApp, Res.andThen_ok, h]
    rfl

/-- The common part: header, callback, arguments, handler. -/
theorem exec_process_known {env : Env σ τ ω} {h : Handler χ}
    {cb : Option (PyStr → Int → Int → χ → Except Exc Unit × χ)} {fns : List Fn} {p : Proto σ} {F : Format}
    {Idle : σ → Prop} {sl cl : Option Int} (hp : Receives p F Idle sl cl)
    {c : Call σ τ χ ω} (hi : Idle c.inp) {name : PyStr} {type : Nat} {seqid : Int} {fn : Fn}
    (hh : HeaderOK sl name type seqid) (hfn : Serves fns name fn) {sch₁ : Schema} {v : Val}
    (hv : BodyOK sl cl env.mode sch₁ env.sch fn.argsId v env.fuel) {app₁ app₂ : χ}
    (hcb : Began cb name type seqid c.app app₁) {o : Outcome}
    (ho : h fn (attrsOf (project sch₁ env.sch (.struct fn.argsId) v)) app₁ = (o, app₂)) (rest : Bytes) :
    ∃ s', Idle s' ∧
      exec (process env h cb fns p) c (F.header name type seqid ++ (F.value sch₁ (.struct fn.argsId) v ++ rest))
        = exec (match answer fn o with
            | .error e => P.raise e
            | .ok none => pure ()
            | .ok (some (type, r)) => sendReply env fn.name type seqid (writeReply env fn r) :
              P (Call σ τ χ ω) Unit)
          { c with inp := s', app := app₂ } rest := by
  have h1 := hp.header name type seqid c.inp (F.value sch₁ (.struct fn.argsId) v ++ rest) hi hh
  obtain ⟨s', hi', h2⟩ := hp.value env.mode sch₁ env.sch fn.argsId v c.inp env.fuel hi hv
  refine ⟨s', hi', ?_⟩
  unfold process
  rw [exec_bind, exec_onIn_of h1, Res.andThen_ok, exec_bind]
  rw [exec_onBegin (c := { c with inp := c.inp }) hcb, Res.andThen_ok]
  simp only [lookup_serves hfn]
  unfold processFn
  rw [exec_bind, exec_onIn_of (c := { c with app := app₁ }) (h2 rest), Res.andThen_ok, exec_bind, exec_onIn_of (c := { c with inp := s', app := app₁ }) (hp.finish s' rest hi'),
    Res.andThen_ok, exec_bind, exec_onApp, Res.andThen_ok]
  simp only [ho]
  rfl

/-- C35: a two-way call. Whatever the handler does (unless it raises `TTransportException` or an
exception that is not an `Exception`), exactly one message is written and flushed, with the sequence id
and the method name of the request and the type and struct that `Answers` says; the handler ran once, with the
arguments as the peer sent them. -/
theorem process_reply (env : Env σ τ ω) (h : Handler χ)
    (cb : Option (PyStr → Int → Int → χ → Except Exc Unit × χ)) (fns : List Fn) {p : Proto σ} {F G : Format}
    {Idle : σ → Prop} {IdleOut : τ → Prop} {sl cl : Option Int} (hp : Receives p F Idle sl cl)
    (hq : Sends env.q G IdleOut) (c : Call σ τ χ ω) (hi : Idle c.inp) (ho : IdleOut c.out) (hbuf : c.buf = [])
    (name : PyStr) (type : Nat) (seqid : Int) (fn : Fn) (hh : HeaderOK sl name type seqid)
    (hfn : Serves fns name fn) (htwo : fn.oneway = false) (hres : ResultOK env.sch fn) (sch₁ : Schema) (v : Val)
    (hv : BodyOK sl cl env.mode sch₁ env.sch fn.argsId v env.fuel) (app₁ app₂ : χ)
    (hcb : Began cb name type seqid c.app app₁) (o : Outcome)
    (hrun : h fn (attrsOf (project sch₁ env.sch (.struct fn.argsId) v)) app₁ = (o, app₂))
    (type' : Nat) (sch' : Schema) (sid' : Nat) (w : Val) (hans : Answers env.sch fn o type' sch' sid' w)
    (hw : WT sch' (.struct sid') w) (hd : structDepth w ≤ 64) (rest : Bytes) :
    ∃ s' o', Idle s' ∧ IdleOut o' ∧
      exec (process env h cb fns p) c (F.header name type seqid ++ (F.value sch₁ (.struct fn.argsId) v ++ rest))
        = some (((env.flush (G.header name type' seqid ++ G.value sch' (.struct sid') w) c.sink).1,
          { inp := s', out := o', buf := [], app := app₂
            sink := (env.flush (G.header name type' seqid ++ G.value sch' (.struct sid') w) c.sink).2 }), rest) := by
  obtain ⟨s', hi', e⟩ := exec_process_known hp hi hh hfn hv hcb hrun rest
  obtain ⟨r, mode, ha, hsch, hwr⟩ := answer_of hres htwo hv.receiver hans
  have ht : IsMessageType type' := by cases hans <;> exact ⟨by omega, by omega⟩
  obtain ⟨o', hm, ho'⟩ := hq name type' seqid sch' mode sid' w c.out c.buf ho hh.text ht hh.range hsch hw
    (fun _ => hd)
  refine ⟨s', o', hi', ho', ?_⟩
  rw [e, ha]
  simp only
  rw [exec_sendReply env fn.name _ seqid _ { c with inp := s', app := app₂ } rest o' _
    (by rw [hwr, hfn.1]; exact hm)]
  simp only [hbuf, List.nil_append]

/-- C35: a oneway call writes nothing, whatever the handler returns or raises. -/
theorem process_oneway (env : Env σ τ ω) (h : Handler χ)
    (cb : Option (PyStr → Int → Int → χ → Except Exc Unit × χ)) (fns : List Fn) {p : Proto σ} {F : Format}
    {Idle : σ → Prop} {sl cl : Option Int} (hp : Receives p F Idle sl cl)
    (c : Call σ τ χ ω) (hi : Idle c.inp)
    (name : PyStr) (type : Nat) (seqid : Int) (fn : Fn) (hh : HeaderOK sl name type seqid)
    (hfn : Serves fns name fn) (hone : fn.oneway = true) (sch₁ : Schema) (v : Val)
    (hv : BodyOK sl cl env.mode sch₁ env.sch fn.argsId v env.fuel) (app₁ app₂ : χ)
    (hcb : Began cb name type seqid c.app app₁) (o : Outcome)
    (hrun : h fn (attrsOf (project sch₁ env.sch (.struct fn.argsId) v)) app₁ = (o, app₂))
    (h1 : ∀ t, o ≠ .transport t) (h2 : ∀ n, o ≠ .base n) (rest : Bytes) :
    ∃ s', Idle s' ∧
      exec (process env h cb fns p) c (F.header name type seqid ++ (F.value sch₁ (.struct fn.argsId) v ++ rest))
        = some ((.ok (), { c with inp := s', app := app₂ }), rest) := by
  obtain ⟨s', hi', e⟩ := exec_process_known hp hi hh hfn hv hcb hrun rest
  refine ⟨s', hi', ?_⟩
  have ha : answer fn o = .ok none := by
    cases o with
    | transport t => exact absurd rfl (h1 t)
    | base n => exact absurd rfl (h2 n)
    | _ => simp only [answer, hone]; rfl
  rw [e, ha]
  rfl

/-- C35: a `TTransportException` of the handler, and an exception that is not an `Exception`, pass
through; nothing is written. -/
theorem process_passes (env : Env σ τ ω) (h : Handler χ)
    (cb : Option (PyStr → Int → Int → χ → Except Exc Unit × χ)) (fns : List Fn) {p : Proto σ} {F : Format}
    {Idle : σ → Prop} {sl cl : Option Int} (hp : Receives p F Idle sl cl)
    (c : Call σ τ χ ω) (hi : Idle c.inp)
    (name : PyStr) (type : Nat) (seqid : Int) (fn : Fn) (hh : HeaderOK sl name type seqid)
    (hfn : Serves fns name fn) (sch₁ : Schema) (v : Val)
    (hv : BodyOK sl cl env.mode sch₁ env.sch fn.argsId v env.fuel) (app₁ app₂ : χ)
    (hcb : Began cb name type seqid c.app app₁) (o : Outcome) (e : Exc)
    (hrun : h fn (attrsOf (project sch₁ env.sch (.struct fn.argsId) v)) app₁ = (o, app₂))
    (ho : (∃ t, o = .transport t ∧ e = .ttransport t) ∨ (∃ n, o = .base n ∧ e = .user n)) (rest : Bytes) :
    ∃ s', Idle s' ∧
      exec (process env h cb fns p) c (F.header name type seqid ++ (F.value sch₁ (.struct fn.argsId) v ++ rest))
        = some ((.error e, { c with inp := s', app := app₂ }), rest) := by
  obtain ⟨s', hi', he⟩ := exec_process_known hp hi hh hfn hv hcb hrun rest
  refine ⟨s', hi', ?_⟩
  have ha : answer fn o = .error e := by
    rcases ho with ⟨t, rfl, rfl⟩ | ⟨n, rfl, rfl⟩ <;> rfl
  rw [he, ha]
  rfl

/-- C35: an unknown method is answered with `UNKNOWN_METHOD` after its arguments were skipped; no handler
method runs. -/
theorem process_unknown (env : Env σ τ ω) (h : Handler χ)
    (cb : Option (PyStr → Int → Int → χ → Except Exc Unit × χ)) (fns : List Fn) {p : Proto σ} {F G : Format}
    {Idle : σ → Prop} {IdleOut : τ → Prop} {sl cl : Option Int} (hp : Receives p F Idle sl cl)
    (hq : Sends env.q G IdleOut) (c : Call σ τ χ ω) (hi : Idle c.inp) (ho : IdleOut c.out) (hbuf : c.buf = [])
    (name : PyStr) (type : Nat) (seqid : Int) (hh : HeaderOK sl name type seqid)
    (hfn : ∀ g ∈ fns, g.name ≠ name) (sch₁ : Schema) (sid : Nat) (v : Val)
    (hs : ∀ sid, FieldsOK (sch₁ sid)) (hv : WT sch₁ (.struct sid) v) (hl : WithinLimits sl cl v)
    (hn : nesting v ≤ 64) (hb : BinariesAreText IsUtf8 v) (hf : size v ≤ env.fuel) (app₁ : χ)
    (hcb : Began cb name type seqid c.app app₁) (hx : AppOK (unknownMethod name)) (rest : Bytes) :
    ∃ s' o', Idle s' ∧ IdleOut o' ∧
      exec (process env h cb fns p) c (F.header name type seqid ++ (F.value sch₁ (.struct sid) v ++ rest))
        = some (((env.flush (G.header name 3 seqid ++ G.app (unknownMethod name)) c.sink).1,
          { inp := s', out := o', buf := [], app := app₁
            sink := (env.flush (G.header name 3 seqid ++ G.app (unknownMethod name)) c.sink).2 }), rest) := by
  have h1 := hp.header name type seqid c.inp (F.value sch₁ (.struct sid) v ++ rest) hi hh
  obtain ⟨s', hi', h2⟩ := hp.skip sch₁ sid v c.inp env.fuel hi hs hv hl hn hb hf
  obtain ⟨o', hm, ho'⟩ := app_write hq name 3 seqid (unknownMethod name) c.out c.buf ho
    ⟨hh.text, (by intro l h; cases h), ⟨by omega, by omega⟩, hh.range⟩ hx
  refine ⟨s', o', hi', ho', ?_⟩
  unfold process
  rw [exec_bind, exec_onIn_of h1, Res.andThen_ok, exec_bind]
  rw [exec_onBegin (c := { c with inp := c.inp }) hcb, Res.andThen_ok]
  simp only [lookup_none hfn]
  rw [exec_bind, exec_onIn_of (c := { c with app := app₁ }) (h2 rest), Res.andThen_ok, exec_bind, exec_onIn_of (c := { c with inp := s', app := app₁ }) (hp.finish s' rest hi'),
    Res.andThen_ok]
  refine Eq.trans (exec_sendReply env name _ seqid _ { c with inp := s', app := app₁ } rest o' _ hm) ?_
  simp only [hbuf, List.nil_append]

/-- C35: if the `on_message_begin` callback raises, the exception passes through; no handler method runs
(the state of the application is the one the callback left), nothing is written and the arguments are
not read. -/
theorem process_callback_raises (env : Env σ τ ω) (h : Handler χ)
    (f : PyStr → Int → Int → χ → Except Exc Unit × χ) (fns : List Fn) (p : Proto σ)
    (c : Call σ τ χ ω) (b b' : Bytes) (name : PyStr) (type seqid : Int) (s' : σ) (e : Exc) (app' : χ)
    (hr : exec p.readMessageBegin c.inp b = some ((.ok (name, type, seqid), s'), b'))
    (hf : f name type seqid c.app = (.error e, app')) :
    exec (process env h (some f) fns p) c b = some ((.error e, { c with inp := s', app := app' }), b') := by
  unfold process
  rw [exec_bind, exec_onIn_of hr, Res.andThen_ok, exec_bind]
  unfold onBegin
  simp only [exec_bind, exec_onApp, Res.andThen_ok, hf]
  rfl

/-- C35: if the header cannot be read, the exception passes through; nothing runs, nothing is written. -/
theorem process_bad_header (env : Env σ τ ω) (h : Handler χ)
    (cb : Option (PyStr → Int → Int → χ → Except Exc Unit × χ)) (fns : List Fn) (p : Proto σ)
    (c : Call σ τ χ ω) (b b' : Bytes) (e : Exc) (s' : σ)
    (hr : exec p.readMessageBegin c.inp b = some ((.error e, s'), b')) :
    exec (process env h cb fns p) c b = some ((.error e, { c with inp := s' }), b') := by
  unfold process
  rw [exec_bind, exec_onIn_of hr, Res.andThen_error]

/-- C35: if the arguments cannot be read, the exception passes through; no handler method runs, nothing is
written. -/
theorem process_bad_arguments (env : Env σ τ ω) (h : Handler χ)
    (cb : Option (PyStr → Int → Int → χ → Except Exc Unit × χ)) (fns : List Fn) (p : Proto σ)
    (c : Call σ τ χ ω) (name : PyStr) (type seqid : Int) (fn : Fn) (b b' b'' : Bytes) (e : Exc) (s' s'' : σ)
    (hr : exec p.readMessageBegin c.inp b = some ((.ok (name, type, seqid), s'), b'))
    (app₁ : χ) (hcb : Began cb name type seqid c.app app₁)
    (hfn : Serves fns name fn)
    (ha : exec (readVal p.rd env.sch env.mode env.fuel (.struct fn.argsId)) s' b' = some ((.error e, s''), b'')) :
    exec (process env h cb fns p) c b = some ((.error e, { c with inp := s'', app := app₁ }), b'') := by
  unfold process
  rw [exec_bind, exec_onIn_of hr, Res.andThen_ok, exec_bind]
  rw [exec_onBegin (c := { c with inp := s' }) hcb, Res.andThen_ok]
  simp only [lookup_serves hfn]
  unfold processFn
  rw [exec_bind, exec_onIn_of (c := { c with inp := s', app := app₁ }) ha, Res.andThen_error]

/-- What C35 does not promise: if the result cannot be serialized, `process` raises and no reply is
sent; the beginning of the message stays in the buffer of the transport. -/
theorem process_unserializable (env : Env σ τ ω) (h : Handler χ)
    (cb : Option (PyStr → Int → Int → χ → Except Exc Unit × χ)) (fns : List Fn) {p : Proto σ} {F : Format}
    {Idle : σ → Prop} {sl cl : Option Int} (hp : Receives p F Idle sl cl)
    (c : Call σ τ χ ω) (hi : Idle c.inp)
    (name : PyStr) (type : Nat) (seqid : Int) (fn : Fn) (hh : HeaderOK sl name type seqid)
    (hfn : Serves fns name fn) (hone : fn.oneway = false) (hret : fn.returns = true) (sch₁ : Schema) (v : Val)
    (hv : BodyOK sl cl env.mode sch₁ env.sch fn.argsId v env.fuel) (app₁ app₂ : χ)
    (hcb : Began cb name type seqid c.app app₁) (w : Val)
    (hrun : h fn (attrsOf (project sch₁ env.sch (.struct fn.argsId) v)) app₁ = (.returned (some w), app₂))
    (hres : ResultOK env.sch fn) (e : Exc) (o' : τ) (out : Bytes)
    (hw : message env.q name TMessageType.REPLY seqid (writeVal env.q.wr env.sch env.mode (.struct fn.resultId)
      (.struct (onlyField (env.sch fn.resultId) 0 w))) c.out c.buf = (.error e, o', out)) (rest : Bytes) :
    ∃ s', Idle s' ∧
      exec (process env h cb fns p) c (F.header name type seqid ++ (F.value sch₁ (.struct fn.argsId) v ++ rest))
        = some ((.error e, { c with inp := s', out := o', buf := out, app := app₂ }), rest) := by
  obtain ⟨s', hi', he⟩ := exec_process_known hp hi hh hfn hv hcb hrun rest
  refine ⟨s', hi', ?_⟩
  have ha : answer fn (.returned (some w)) = .ok (some (TMessageType.REPLY,
      .result (onlyField (env.sch fn.resultId) 0 w))) := by
    simp only [answer, hone]
    rw [setSuccess_eq hres hret]
    rfl
  rw [he, ha]
  simp only
  unfold sendReply
  rw [exec_bind, exec_onOut]
  simp only [writeReply]
  rw [hfn.1, hw]
  rfl

end
end Thrift
