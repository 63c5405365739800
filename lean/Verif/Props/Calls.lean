import Verif.Props.Rpc
import Verif.Props.Depth
import Verif.Spec.SampleService
/-
Properties C34, C36, C37, C51 and C52: clients, calls from end to end, multiplexing, failed calls and
`TSerialization`.
-/

namespace Thrift
open Spec Rpc

/-! ## C36: the client -/

theorem firstRaised_cases (ts : List Nat) (as : List (Option Val)) (h : ts.length = as.length) :
    (∃ (i : Nat) (sid : Nat) (v : Val), ts[i]? = some sid ∧ as[i]? = some (some v) ∧ (∀ j < i, as[j]? = some none) ∧
      firstRaised ts as = some (.declared sid (attrsOf v))) ∨
    ((∀ a ∈ as, a = none) ∧ firstRaised ts as = none) := by
  induction ts generalizing as with
  | nil =>
    cases as with
    | nil => exact .inr ⟨by simp, rfl⟩
    | cons a as => simp at h
  | cons t ts ih =>
    cases as with
    | nil => simp at h
    | cons a as =>
      cases a with
      | some v => exact .inl ⟨0, t, v, rfl, rfl, by simp, rfl⟩
      | none =>
        rcases ih as (by simpa using h) with ⟨i, sid, v, h1, h2, h3, h4⟩ | ⟨h1, h2⟩
        · refine .inl ⟨i + 1, sid, v, by simpa using h1, by simpa using h2, ?_, h4⟩
          intro j hj
          cases j with
          | zero => rfl
          | succ j => simpa using h3 j (by omega)
        · exact .inr ⟨by simpa using h1, h2⟩

theorem outcome_means {sch : Schema} {fn : Fn} (h : ResultOK sch fn) (as : List (Option Val))
    (hl : as.length = (sch fn.resultId).length) : Means sch fn as (outcome fn as) := by
  obtain ⟨excs, he, hc⟩ := h.shape
  have hlen : fn.throws.length = excs.length := by
    have := congrArg List.length he
    simpa using this.symm
  have hty : ∀ (i sid : Nat), fn.throws[i]? = some sid → excs[i]?.map (·.ty) = some (.struct sid) := by
    intro i sid hi
    have := congrArg (·[i]?) he
    simp only [List.getElem?_map, hi, Option.map_some] at this
    exact this
  unfold outcome
  rcases hc with ⟨hr, ty, hs⟩ | ⟨hr, hs⟩
  · rw [if_pos hr]
    cases as with
    | nil => rw [hs] at hl; simp at hl
    | cons a as =>
      cases a with
      | some v => exact .success v hr rfl
      | none =>
        rcases firstRaised_cases fn.throws as (by rw [hs] at hl; simp at hl; omega) with
          ⟨i, sid, v, h1, h2, h3, h4⟩ | ⟨h1, h2⟩
        · simp only [List.tail_cons, h4]
          refine .exception sid v (i + 1) (by rw [hs]; simpa using hty i sid h1) (by simpa using h2) ?_
            (fun _ => by omega)
          intro j hj
          cases j with
          | zero => rfl
          | succ j => simpa using h3 j (by omega)
        · simp only [List.tail_cons, h2]
          exact .missing hr (by simpa using h1)
  · rw [if_neg (by simp [hr])]
    rcases firstRaised_cases fn.throws as (by rw [hs] at hl; omega) with
      ⟨i, sid, v, h1, h2, h3, h4⟩ | ⟨h1, h2⟩
    · simp only [h4]
      exact .exception sid v i (by rw [hs]; exact hty i sid h1) h2 h3 (fun h => by rw [hr] at h; cases h)
    · simp only [h2]
      exact .void hr h1

/-- A reply means one thing only. -/
theorem means_unique {sch : Schema} {fn : Fn} {as : List (Option Val)} {r r' : Result}
    (h : Means sch fn as r) (h' : Means sch fn as r') : r = r' := by
  have head : ∀ {i : Nat} {v : Val}, as[i]? = some (some v) → (∀ a ∈ as, a = none) → False := by
    intro i v h1 h2
    have := h2 _ (List.mem_of_getElem? h1)
    cases this
  have h0 : as.head? = as[0]? := by cases as <;> rfl
  cases h with
  | success v h1 h2 =>
    rw [h0] at h2
    cases h' with
    | success v' h1' h2' => rw [h0, h2] at h2'; cases h2'; rfl
    | exception sid v' i h3 h4 h5 h6 => rw [h5 0 (h6 h1)] at h2; cases h2
    | void h1' => rw [h1] at h1'; cases h1'
    | missing _ h3 => exact (head h2 h3).elim
  | exception sid v i h3 h4 h5 h6 =>
    cases h' with
    | success v' h1' h2' => rw [h0, h5 0 (h6 h1')] at h2'; cases h2'
    | exception sid' v' i' h3' h4' h5' h6' =>
      rcases Nat.lt_trichotomy i i' with h | h | h
      · rw [h5' i h] at h4; cases h4
      · subst h
        rw [h3] at h3'
        rw [h4] at h4'
        cases h3'
        cases h4'
        rfl
      · rw [h5 i' h] at h4'; cases h4'
    | void _ h3' => exact (head h4 h3').elim
    | missing _ h3' => exact (head h4 h3').elim
  | void h1 h2 =>
    cases h' with
    | success v' h1' => rw [h1] at h1'; cases h1'
    | exception sid v' i h3 h4 => exact (head h4 h2).elim
    | void => rfl
    | missing h1' => rw [h1] at h1'; cases h1'
  | missing h1 h2 =>
    cases h' with
    | success v' h1' h2' => rw [h0] at h2'; exact (head h2' h2).elim
    | exception sid v' i h3 h4 => exact (head h4 h2).elim
    | void h1' => rw [h1] at h1'; cases h1'
    | missing => rfl

section
variable {σ : Type} [HasDepth σ]

/-- C36: a reply that is not an `EXCEPTION` message, sent by a peer with any compatible schema: the
client returns or raises what the struct means. The name and the sequence id play no part. -/
theorem recv_reply {p : Proto σ} {F : Format} {Idle : σ → Prop} {sl cl : Option Int}
    (hp : Receives p F Idle sl cl) (mode : Mode) (sch₁ sch : Schema) (fuel : Nat) (fn : Fn)
    (hres : ResultOK sch fn) (s : σ) (hi : Idle s) (name : PyStr) (type : Nat) (seqid : Int)
    (hh : HeaderOK sl name type seqid) (ht : type ≠ 3) (v : Val)
    (hv : BodyOK sl cl mode sch₁ sch fn.resultId v fuel) :
    ∃ r s', Idle s' ∧ Means sch fn (attrsOf (project sch₁ sch (.struct fn.resultId) v)) r ∧ ∀ rest,
      exec (recv p sch mode fuel fn) s
        (F.header name type seqid ++ (F.value sch₁ (.struct fn.resultId) v ++ rest))
        = some ((.ok r, s'), rest) := by
  obtain ⟨s', hi', h2⟩ := hp.value mode sch₁ sch fn.resultId v s fuel hi hv
  have hl : (attrsOf (project sch₁ sch (.struct fn.resultId) v)).length = (sch fn.resultId).length := by
    have hw := hv.typed
    cases v <;> simp only [WT] at hw
    simp only [project, attrsOf, List.length_map]
  refine ⟨_, s', hi', outcome_means hres _ hl, fun rest => ?_⟩
  unfold recv
  rw [exec_bind, hp.header name type seqid s _ hi hh, Res.andThen_ok]
  simp only
  rw [if_neg (by simp only [TMessageType.EXCEPTION]; omega), exec_bind, h2 rest, Res.andThen_ok, exec_bind,
    hp.finish s' rest hi', Res.andThen_ok]
  rfl

/-- C36: an `EXCEPTION` message: the client raises the `TApplicationException` it carries. -/
theorem recv_exception {p : Proto σ} {F : Format} {Idle : σ → Prop} {sl cl : Option Int}
    (hp : Receives p F Idle sl cl) (mode : Mode) (sch : Schema) (fuel : Nat) (fn : Fn)
    (s : σ) (hi : Idle s) (name : PyStr) (seqid : Int)
    (hh : HeaderOK sl name 3 seqid) (x : AppExc) (hx : AppOK x) (hl : ∀ m ∈ x.message, Within sl (utf8Len m))
    (hf : 5 ≤ fuel) :
    ∃ s', Idle s' ∧ ∀ rest,
      exec (recv p sch mode fuel fn) s (F.header name 3 seqid ++ (F.app x ++ rest))
        = some ((.ok (.application ⟨some (x.type.getD 0), x.message⟩), s'), rest) := by
  obtain ⟨s', hi', h2⟩ := app_roundtrip hp x s fuel hi hx hl hf
  refine ⟨s', hi', fun rest => ?_⟩
  unfold recv
  rw [exec_bind, hp.header name 3 seqid s _ hi hh, Res.andThen_ok]
  simp only
  rw [if_pos (by rfl), exec_bind, h2 rest, Res.andThen_ok, exec_bind,
    hp.finish s' rest hi', Res.andThen_ok]
  rfl

/-- C36: a reply that cannot be read raises what the reader raises. -/
theorem recv_fails (p : Proto σ) (mode : Mode) (sch : Schema) (fuel : Nat) (fn : Fn) (s s' : σ)
    (b b' : Bytes) (e : Exc) :
    (exec p.readMessageBegin s b = some ((.error e, s'), b') →
      exec (recv p sch mode fuel fn) s b = some ((.error e, s'), b')) ∧
    (∀ name type seqid s₁ b₁, exec p.readMessageBegin s b = some ((.ok (name, type, seqid), s₁), b₁) → type ≠ 3 →
      exec (readVal p.rd sch mode fuel (.struct fn.resultId)) s₁ b₁ = some ((.error e, s'), b') →
      exec (recv p sch mode fuel fn) s b = some ((.error e, s'), b')) := by
  constructor
  · intro h
    unfold recv
    rw [exec_bind, h, Res.andThen_error]
  · intro name type seqid s₁ b₁ h ht h2
    unfold recv
    rw [exec_bind, h, Res.andThen_ok]
    simp only
    rw [if_neg (by simpa [TMessageType.EXCEPTION] using ht), exec_bind, h2, Res.andThen_error]

end

/-! ## C37: calls -/

theorem Spec.Sendable.body {sl cl : Option Int} {mode : Mode} {sch : Schema} {sid : Nat} {v : Val} {fuel : Nat}
    (h : Sendable sl cl mode sch sid v fuel) (hs : SchemaOK mode sch) : BodyOK sl cl mode sch sch sid v fuel where
  sender := hs
  receiver := hs
  versions := compatible_self hs
  typed := h.typed
  limits := h.limits
  depth := h.depth
  unknown := Unknowns_self _ _ _ _
  fuel := h.fuel

theorem Spec.Sendable.same {sl cl : Option Int} {mode : Mode} {sch : Schema} {sid : Nat} {v : Val} {fuel : Nat}
    (h : Sendable sl cl mode sch sid v fuel) (hs : SchemaOK mode sch) :
    project sch sch (.struct sid) v = v :=
  project_self sch (fun sid => (hs sid).1) v _ h.typed h.hidden h.duplicates

theorem framedFlush_eq {ω : Type} (k : Sink ω) (b : Bytes) (w : ω) (h : b.length < 2 ^ 31) :
    framedFlush k b w = k.writeFlush (frame b) w := by
  have hv : ((BytesIO.of []).write b).value = b := by
    simp only [BytesIO.of, BytesIO.write]
    split <;> simp_all
  unfold framedFlush
  rw [framed_flush_eq k _ w (by rw [hv]; exact h)]
  simp only [hv]

/-- What the struct of a `REPLY` means to the client. -/
theorem answers_means {sch : Schema} {fn : Fn} (hres : ResultOK sch fn) {o : Outcome} {sch' : Schema} {sid' : Nat}
    {w : Val} (h : Answers sch fn o 2 sch' sid' w) :
    ∃ as r, w = .struct as ∧ sch' = sch ∧ sid' = fn.resultId ∧ Means sch fn as r ∧ Told fn o r := by
  have hnone : ∀ a ∈ noField (sch fn.resultId), a = none := by
    intro a ha
    simp only [noField, List.mem_map] at ha
    obtain ⟨_, _, rfl⟩ := ha
    rfl
  cases h with
  | value v hr =>
    refine ⟨_, _, rfl, rfl, rfl, .success v hr ?_, .value v hr⟩
    obtain ⟨excs, _, ⟨_, ty, hs⟩ | ⟨hr', _⟩⟩ := hres.shape
    · rw [hs]; rfl
    · rw [hr] at hr'; cases hr'
  | void v hr => exact ⟨_, _, rfl, rfl, rfl, .void hr hnone, .void v hr⟩
  | missing hr => exact ⟨_, _, rfl, rfl, rfl, .missing hr hnone, .missing hr⟩
  | declared sid as f hd =>
    have hm : sid ∈ fn.throws := by
      obtain ⟨i, hi, -⟩ := setException_eq hres hd (.struct as)
      by_cases hmem : sid ∈ fn.throws
      · exact hmem
      · rw [not_declared hmem] at hi; cases hi
    obtain ⟨pre, post, hs, hf0, hty, hpre⟩ := hd
    have hsort := hres.sorted
    rw [hs] at hsort
    refine ⟨_, _, rfl, rfl, rfl, ?_, .declared sid as hm⟩
    refine .exception sid (.struct as) pre.length (by rw [hs]; simp [hty]) (by rw [hs]; simp [onlyField]) ?_ ?_
    · intro j hj
      rw [hs]
      simp only [onlyField, List.getElem?_map]
      rw [List.getElem?_append_left hj, List.getElem?_eq_getElem hj, Option.map_some, if_neg]
      have := (List.pairwise_append.mp hsort).2.2 pre[j] (by simp) f (by simp)
      omega
    · intro hr
      obtain ⟨excs, _, ⟨_, ty, hs'⟩ | ⟨hr', _⟩⟩ := hres.shape
      · cases pre with
        | nil =>
          rw [hs, List.nil_append] at hs'
          injection hs' with h1 _
          rw [h1] at hf0
          exact absurd rfl hf0
        | cons g pre => simp
      · rw [hr] at hr'; cases hr'

section
variable {σ τ χ ω κ ω' : Type} [HasDepth σ] [HasDepth τ] [HasDepth κ]

/-- What `send_*` transmits: one message, of type `ONEWAY` or `CALL`. -/
theorem send_transmits {p : Proto κ} {F : Format} {Idle : κ → Prop} (hp : Sends p F Idle)
    (fl : Bytes → ω → Except Exc Unit × ω) (mode : Mode) (sch : Schema) (fn : Fn) (as : List (Option Val))
    (c : Client κ ω) (hi : Idle c.prot) (hn : TextOK fn.name) (hq : InRange 32 c.seqid) (hs : SchemaOK mode sch)
    (hv : WT sch (.struct fn.argsId) (.struct as)) (hd : mode = .gen → structDepth (.struct as) ≤ 64) :
    ∃ s', Idle s' ∧
      send p fl sch mode fn as c
        = ((fl (c.buf ++ (F.header fn.name (if fn.oneway then 4 else 1) c.seqid ++
              F.value sch (.struct fn.argsId) (.struct as))) c.sink).1,
          { c with
            prot := s', buf := []
            sink := (fl (c.buf ++ (F.header fn.name (if fn.oneway then 4 else 1) c.seqid ++
              F.value sch (.struct fn.argsId) (.struct as))) c.sink).2 }) := by
  obtain ⟨s', e, hi'⟩ := hp fn.name (if fn.oneway then 4 else 1) c.seqid sch mode fn.argsId (.struct as) c.prot c.buf
    hi hn (by unfold IsMessageType; split <;> omega) hq hs hv hd
  refine ⟨s', hi', ?_⟩
  have ht : (if fn.oneway then TMessageType.ONEWAY else TMessageType.CALL) =
      (((if fn.oneway then 4 else 1 : Nat)) : Int) := by split <;> rfl
  unfold send
  rw [ht]
  simp only [e]

/-- What the caller is told by the answer to what the handler did; the answer is well typed. -/
theorem recv_told {pc : Proto κ} {G : Format} {IdleC : κ → Prop} {slc clc : Option Int} (hrc : Receives pc G IdleC slc clc)
    (mode : Mode) (sch : Schema) (fuel : Nat) (fn : Fn) (hs : SchemaOK mode sch) (hres : ResultOK sch fn) (o : Outcome) (type : Nat)
    (sch' : Schema) (sid' : Nat) (w : Val) (seqid : Int) (hans : Answers sch fn o type sch' sid' w)
    (hh' : HeaderOK slc fn.name type seqid) (hw2 : type = 2 → Sendable slc clc mode sch' sid' w fuel)
    (hw3 : type = 3 → 5 ≤ fuel ∧ ∃ x, w = appVal x ∧ AppOK x ∧ ∀ m ∈ x.message, Within slc (utf8Len m)) :
    ∃ r, Told fn o r ∧ WT sch' (.struct sid') w ∧ ∀ s, IdleC s → ∃ s', IdleC s' ∧ ∀ more,
      exec (recv pc sch mode fuel fn) s
        ((G.header fn.name type seqid ++ G.value sch' (.struct sid') w) ++ more) = some ((.ok r, s'), more) := by
  by_cases h2 : type = 2
  · subst h2
    have hsend := hw2 rfl
    obtain ⟨as', r, rfl, rfl, rfl, hm, htold⟩ := answers_means hres hans
    refine ⟨r, htold, hsend.typed, fun s hi => ?_⟩
    obtain ⟨r', s', hi', hm', e⟩ := recv_reply hrc mode sch' sch' fuel fn hres s hi fn.name 2 seqid hh'
      (by omega) _ (hsend.body hs)
    rw [hsend.same hs] at hm'
    cases means_unique hm hm'
    exact ⟨s', hi', fun more => by rw [List.append_assoc]; exact e more⟩
  · have h3 : type = 3 := by cases hans <;> first | rfl | exact absurd rfl h2
    subst h3
    obtain ⟨hf, x, hwx, hx, hxl⟩ := hw3 rfl
    have hshape : sch' = appSchema ∧ sid' = 0 ∧ Told fn o (.application ⟨some (x.type.getD 0), x.message⟩) := by
      cases hans with
      | undeclared sid as' hd' =>
        have := appVal_inj hwx
        subst this
        exact ⟨rfl, rfl, .undeclared sid as' hd'⟩
      | application y =>
        have := appVal_inj hwx
        subst this
        exact ⟨rfl, rfl, .application _⟩
      | other n =>
        have := appVal_inj hwx
        subst this
        exact ⟨rfl, rfl, .other n⟩
    obtain ⟨rfl, rfl, htold⟩ := hshape
    subst hwx
    refine ⟨_, htold, appVal_wt hx, fun s hi => ?_⟩
    obtain ⟨s', hi', e⟩ := recv_exception hrc mode sch fuel fn s hi fn.name seqid hh' x hx hxl hf
    exact ⟨s', hi', fun more => by rw [List.append_assoc]; exact e more⟩

/-- C37: a two-way call through a generated client, framed transports and a generated processor.
There are a request and a reply such that

* the client transmits exactly the frame of the request,
* a server that receives it, in whatever pieces, runs the handler once, with equal arguments, and
  transmits exactly the frame of the reply,
* the client that receives it, in whatever pieces, returns or raises what the handler did. -/
theorem call_end_to_end (env : Env σ τ ω) (h : Handler χ)
    (cb : Option (PyStr → Int → Int → χ → Except Exc Unit × χ)) (fns : List Fn)
    -- the protocols on both sides
    {p : Proto σ} {pc : Proto κ} {F G : Format} {Idle : σ → Prop} {IdleOut : τ → Prop} {IdleC : κ → Prop}
    {sl cl slc clc : Option Int} (hp : Receives p F Idle sl cl) (hps : SteadyProto p)
    (hq : Sends env.q G IdleOut) (hpc : Sends pc F IdleC) (hrc : Receives pc G IdleC slc clc)
    (hcs : SteadyProto pc)
    -- framed transports
    (k : Sink ω) (hk : env.flush = framedFlush k) (kc : Sink ω') (fuel : Nat)
    -- the function, its arguments
    (fn : Fn) (hfn : Serves fns fn.name fn) (htwo : fn.oneway = false) (hs : SchemaOK env.mode env.sch)
    (hres : ResultOK env.sch fn) (seqid : Int) (hseq : InRange 32 seqid) (hname : TextOK fn.name)
    (hlim : Within sl (utf8Len fn.name) ∧ Within slc (utf8Len fn.name)) (as : List (Option Val))
    (has : Sendable sl cl env.mode env.sch fn.argsId (.struct as) env.fuel)
    -- what the handler does
    (app app₁ app₂ : χ) (hcb : Began cb fn.name 1 seqid app app₁) (o : Outcome)
    (hrun : h fn as app₁ = (o, app₂)) (type : Nat) (sch' : Schema) (sid' : Nat) (w : Val)
    (hans : Answers env.sch fn o type sch' sid' w) (hw2 : type = 2 → Sendable slc clc env.mode sch' sid' w fuel)
    (hw3 : type = 3 → 5 ≤ fuel ∧ ∃ x, w = appVal x ∧ AppOK x ∧ ∀ m ∈ x.message, Within slc (utf8Len m))
    (hd : structDepth w ≤ 64)
    -- no message is too long for a frame
    (hlen : (F.header fn.name 1 seqid ++ F.value env.sch (.struct fn.argsId) (.struct as)).length < 2 ^ 31)
    (hlen' : (G.header fn.name type seqid ++ G.value sch' (.struct sid') w).length < 2 ^ 31) :
    ∃ (req rep : Bytes) (r : Result), Told fn o r ∧
      (∀ c : Client κ ω', IdleC c.prot → c.buf = [] → c.seqid = seqid → ∃ s', IdleC s' ∧
        send pc (framedFlush kc) env.sch env.mode fn as c
          = ((kc.writeFlush (frame req) c.sink).1,
            { c with prot := s', sink := (kc.writeFlush (frame req) c.sink).2 })) ∧
      (∀ (ν : Type) (net : Nat → ν → Option (Except Exc Bytes × ν)) (rest : ν → Bytes) (c : Call σ τ χ ω)
        (f : Framed.St) (t : ν) (more : Bytes), DeliversUntil net rest → Idle c.inp → IdleOut c.out →
        c.buf = [] → c.app = app → carried f (rest t) = req ++ more →
        (k.writeFlush (frame rep) c.sink).1 = .ok () →
        ∃ s' o' f' t', Idle s' ∧ IdleOut o' ∧ carried f' (rest t') = more ∧
          (process env h cb fns p c).run (P.over Framed.read net) (f, t)
            = some ((.ok (), { inp := s', out := o', buf := [], app := app₂
                               sink := (k.writeFlush (frame rep) c.sink).2 }), (f', t'))) ∧
      (∀ (ν : Type) (net : Nat → ν → Option (Except Exc Bytes × ν)) (rest : ν → Bytes) (s : κ)
        (f : Framed.St) (t : ν) (more : Bytes), DeliversUntil net rest → IdleC s →
        carried f (rest t) = rep ++ more →
        ∃ s' f' t', IdleC s' ∧ carried f' (rest t') = more ∧
          (recv pc env.sch env.mode fuel fn s).run (P.over Framed.read net) (f, t)
            = some ((.ok r, s'), (f', t'))) := by
  have hh : HeaderOK sl fn.name 1 seqid := ⟨hname, hlim.1, ⟨by omega, by omega⟩, hseq⟩
  have ht : IsMessageType type := by cases hans <;> exact ⟨by omega, by omega⟩
  have hh' : HeaderOK slc fn.name type seqid := ⟨hname, hlim.2, ht, hseq⟩
  obtain ⟨r, htold, hwt, hcl⟩ := recv_told hrc env.mode env.sch fuel fn hs hres o type sch' sid' w seqid hans hh' hw2 hw3
  refine ⟨F.header fn.name 1 seqid ++ F.value env.sch (.struct fn.argsId) (.struct as),
    G.header fn.name type seqid ++ G.value sch' (.struct sid') w, r, htold, ?_, ?_, ?_⟩
  · intro c hi hb hsq
    obtain ⟨s', hi', e⟩ := send_transmits hpc (framedFlush kc) env.mode env.sch fn as c hi hname
      (by rw [hsq]; exact hseq) hs has.typed has.depth
    refine ⟨s', hi', ?_⟩
    rw [e, htwo, hb, hsq, List.nil_append]
    simp only [Bool.false_eq_true, if_false]
    rw [framedFlush_eq kc _ _ hlen]
  · intro ν net rest c f t more hnet hi ho hbuf happ hcar hflush
    obtain ⟨s', o', hi', ho', e⟩ := process_reply env h cb fns hp hq c hi ho hbuf fn.name 1 seqid fn hh hfn htwo hres
      env.sch (.struct as) (has.body hs) app₁ app₂ (by rw [happ]; exact hcb) o
      (by rw [has.same hs]; exact hrun) type sch' sid' w hans hwt hd more
    rw [hk, framedFlush_eq k _ _ hlen', hflush] at e
    obtain ⟨⟨f', t'⟩, e', hc'⟩ := (process_steady env h cb fns hps).upTo _ _ _ (framed_deliversUntil hnet) c (f, t)
      () _ more (by
        show exec _ c (carried f (rest t)) = _
        rw [hcar, List.append_assoc]
        exact e)
    exact ⟨s', o', f', t', hi', ho', hc', e'⟩
  · intro ν net rest s f t more hnet hi hcar
    obtain ⟨s', hi', e⟩ := hcl s hi
    obtain ⟨⟨f', t'⟩, e', hc'⟩ := (recv_steady hcs env.sch env.mode fuel fn).upTo _ _ _
      (framed_deliversUntil hnet) s (f, t) r s' more (by
        show exec _ s (carried f (rest t)) = _
        rw [hcar]
        exact e more)
    exact ⟨s', f', t', hi', hc', e'⟩

/-- C37: a oneway call. The client transmits one frame; the server runs the handler once, with equal
arguments, and transmits nothing. -/
theorem call_oneway (env : Env σ τ ω) (h : Handler χ)
    (cb : Option (PyStr → Int → Int → χ → Except Exc Unit × χ)) (fns : List Fn)
    {p : Proto σ} {pc : Proto κ} {F : Format} {Idle : σ → Prop} {IdleC : κ → Prop}
    {sl cl : Option Int} (hp : Receives p F Idle sl cl) (hps : SteadyProto p) (hpc : Sends pc F IdleC)
    (kc : Sink ω')
    (fn : Fn) (hfn : Serves fns fn.name fn) (hone : fn.oneway = true) (hs : SchemaOK env.mode env.sch)
    (seqid : Int) (hseq : InRange 32 seqid) (hname : TextOK fn.name)
    (hlim : Within sl (utf8Len fn.name)) (as : List (Option Val))
    (has : Sendable sl cl env.mode env.sch fn.argsId (.struct as) env.fuel)
    (app app₁ app₂ : χ) (hcb : Began cb fn.name 4 seqid app app₁) (o : Outcome)
    (hrun : h fn as app₁ = (o, app₂)) (h1 : ∀ t, o ≠ .transport t) (h2 : ∀ n, o ≠ .base n)
    (hlen : (F.header fn.name 4 seqid ++ F.value env.sch (.struct fn.argsId) (.struct as)).length < 2 ^ 31) :
    ∃ req : Bytes,
      (∀ c : Client κ ω', IdleC c.prot → c.buf = [] → c.seqid = seqid → ∃ s', IdleC s' ∧
        send pc (framedFlush kc) env.sch env.mode fn as c
          = ((kc.writeFlush (frame req) c.sink).1,
            { c with prot := s', sink := (kc.writeFlush (frame req) c.sink).2 })) ∧
      (∀ (ν : Type) (net : Nat → ν → Option (Except Exc Bytes × ν)) (rest : ν → Bytes) (c : Call σ τ χ ω)
        (f : Framed.St) (t : ν) (more : Bytes), DeliversUntil net rest → Idle c.inp → c.app = app →
        carried f (rest t) = req ++ more →
        ∃ s' f' t', Idle s' ∧ carried f' (rest t') = more ∧
          (process env h cb fns p c).run (P.over Framed.read net) (f, t)
            = some ((.ok (), { c with inp := s', app := app₂ }), (f', t'))) := by
  have hh : HeaderOK sl fn.name 4 seqid := ⟨hname, hlim, ⟨by omega, by omega⟩, hseq⟩
  refine ⟨F.header fn.name 4 seqid ++ F.value env.sch (.struct fn.argsId) (.struct as), ?_, ?_⟩
  · intro c hi hb hsq
    obtain ⟨s', hi', e⟩ := send_transmits hpc (framedFlush kc) env.mode env.sch fn as c hi hname
      (by rw [hsq]; exact hseq) hs has.typed has.depth
    refine ⟨s', hi', ?_⟩
    rw [e, hone, hb, hsq, List.nil_append]
    simp only [if_true]
    rw [framedFlush_eq kc _ _ hlen]
  · intro ν net rest c f t more hnet hi happ hcar
    obtain ⟨s', hi', e⟩ := process_oneway env h cb fns hp c hi fn.name 4 seqid fn hh hfn hone
      env.sch (.struct as) (has.body hs) app₁ app₂ (by rw [happ]; exact hcb) o
      (by rw [has.same hs]; exact hrun) h1 h2 more
    obtain ⟨⟨f', t'⟩, e', hc'⟩ := (process_steady env h cb fns hps).upTo _ _ _ (framed_deliversUntil hnet) c (f, t)
      () _ more (by
        show exec _ c (carried f (rest t)) = _
        rw [hcar, List.append_assoc]
        exact e)
    exact ⟨s', f', t', hi', hc', e'⟩

/-- What a framed transport carries at the beginning of a frame. -/
theorem carried_frame (f : Framed.St) (b more : Bytes) (hf : f.rbuf.unread = []) (h0 : b ≠ [])
    (h : b.length < 2 ^ 31) : carried f (frame b ++ more) = b ++ deframe more := by
  unfold carried
  rw [hf, deframe_frame b more h0 h]
  rfl

end
/-! ### A service -/

section
open SampleService

/-- A server of the sample service: protocol `q` over a framed transport over a log. -/
def sampleEnv {σ τ : Type} (q : Proto τ) : Env σ τ (List Bytes) where
  q := q
  flush := framedFlush { write := fun b w => (.ok (), w ++ [b]), flush := fun w => (.ok (), w) }
  sch := sch
  fuel := 100

/-- The hypotheses of `call_end_to_end` hold for `get(7)` with the compact protocol. -/
example := call_end_to_end (sampleEnv (Compact.proto {})) handler none fns
  (Compact.reads { stringLimit := some 20, containerLimit := some 20 }) (Compact.steadyProto _)
  (Compact.writes {}) (Compact.writes { stringLimit := some 20, containerLimit := some 20 })
  (Compact.reads { stringLimit := some 20, containerLimit := some 20 }) (Compact.steadyProto _)
  { write := fun b w => (.ok (), w ++ [b]), flush := fun w => (.ok (), w) } rfl
  { write := fun b w => (.ok (), w ++ [b]), flush := fun (w : List Bytes) => (.ok (), w) } 100 get serves.1 rfl
  (sch_ok .gen) get_ok 0 (by decide) (header_ok 1 ⟨by omega, by omega⟩).text
  ⟨(header_ok 1 ⟨by omega, by omega⟩).limit, (header_ok 1 ⟨by omega, by omega⟩).limit⟩ args (args_sendable .gen)
  4 4 5 rfl (.returned (some (.str (pyStr "seven")))) rfl 2 sch 2 seven
  (.value _ rfl) (fun _ => seven_sendable .gen) (fun h => by cases h) (by decide) (by decide +kernel) (by decide +kernel)

/-- The hypotheses of `call_oneway` hold for `log(7, ..)` with the binary protocol. -/
example := call_oneway (sampleEnv (Compact.proto {})) handler none fns
  (Binary.reads { stringLimit := some 20, containerLimit := some 20 }) (Binary.steadyProto _)
  (Binary.writes {} rfl) { write := fun b w => (.ok (), w ++ [b]), flush := fun (w : List Bytes) => (.ok (), w) }
  log serves.2.2 rfl (sch_ok .gen) 0 (by decide) (by decide) (by intro l h; cases h; decide) args
  (args_sendable .gen) 4 4 5 rfl (.returned none) rfl (by intro t h; cases h) (by intro t h; cases h) (by decide +kernel)

/-- What the handler may also do, and what is sent then. -/
example : Answers sch get (.declared 3 missing) 2 sch 2
      (.struct (onlyField (sch 2) 1 (.struct missing))) ∧
    onlyField (sch 2) 1 (.struct missing) = [none, some (.struct missing)] ∧
    Answers sch get (.declared 8 []) 3 appSchema 0 (appVal internalError) ∧
    Answers sch get (.returned none) 2 sch 2 (.struct [none, none]) ∧
    Means sch get [none, some (.struct missing)] (.declared 3 missing) ∧
    Means sch get [none, none] (.application ⟨some 5, some (pyStr "get failed: unknown result")⟩) :=
  ⟨.declared 3 missing _ declared, rfl, .undeclared 8 [] (by decide), .missing rfl,
    .exception 3 (.struct missing) 1 rfl rfl
      (by intro j hj; cases j with | zero => rfl | succ j => omega) (by decide), .missing rfl (by simp)⟩

end
end Thrift
