import Verif.Proofs.TornadoClient
import Verif.Props.Twisted
/-
C59: the Tornado client.
-/

namespace Thrift.TornadoClient
open Spec.TornadoClient Spec Rpc Thrift.Twisted

section
variable {σ τ : Type} [HasDepth σ] [HasDepth τ]

/-- C59: no future is resolved twice. -/
theorem tornado_client_once (env : Env σ τ) (es : List Event) (s : St) (os : List Obs) (hr : ({} : St).run env es = some (s, os)) :
    ((resolutions os).map (·.1)).Nodup :=
  (inv_run inv_init hr).once

/-- C59: the sequence ids of different calls are different. -/
theorem tornado_client_seqids (env : Env σ τ) (es : List Event) (s : St) (os : List Obs) (hr : ({} : St).run env es = some (s, os)) :
    ((issued os).map (·.1)).Nodup ∧ ((issued os).map (·.2)).Nodup :=
  have h := inv_run inv_init hr
  ⟨h.idsNodup, h.seqsNodup⟩

theorem call_resolutions {env : Env σ τ} {s : St} {fn : Fn} {args : List (Option Val)} {w : Option Tornado.Fail} :
    resolutions (s.call env fn args w).2 = [] := by
  unfold St.call
  dsimp only
  cases fn.oneway
  · split
    · simp [resolutions]
    · split <;> simp [resolutions]
  · split
    · simp [resolutions]
    · split <;> simp [resolutions]

theorem failAll_resolutions (t : Int) : ∀ (l : List (Nat × Nat)) (s : St), ∀ x ∈ resolutions (St.failAll t l s).2, x.2 = .lost t
  | [], s => by simp [St.failAll, resolutions]
  | e :: es, s => by
    unfold St.failAll
    split
    · simp [resolutions]
    · intro x hx
      simp only [resolutions, List.filterMap_cons_some] at hx
      rcases List.mem_cons.1 hx with h | h
      · rw [h]
      · exact failAll_resolutions t es _ x h

/-- C59: what a future is told as a reply comes from one received frame, whose sequence id is the one the future was entered under; the
frame has no other effect. -/
theorem tornado_client_own (env : Env σ τ) (es : List Event) (s s' : St) (os o : List Obs) (e : Event) (d : Nat) (r : Result)
    (hr : ({} : St).run env es = some (s, os)) (hs : s.step env e = some (s', o)) (hf : (d, .reply r) ∈ resolutions o) :
    ∃ b n, e = .frame b ∧ (d, n) ∈ issued os ∧ Spec.Twisted.seqidOf env b = some (n : Int) ∧ o = [.resolved d (.reply r)] := by
  have h := inv_run inv_init hr
  rw [List.nil_append] at h
  cases e with
  | call fn args w =>
    simp only [St.step, Option.some.injEq] at hs
    rw [show o = (s.call env fn args w).2 by rw [hs], call_resolutions] at hf
    cases hf
  | cancel d' =>
    simp only [St.step] at hs
    split at hs
    · split at hs <;> cases hs <;> simp [resolutions] at hf
    · cases hs
  | fail x =>
    simp only [St.step] at hs
    split at hs
    · simp only [Option.some.injEq] at hs
      rw [show o = (s.fail x).2 by rw [hs]] at hf
      unfold St.fail at hf
      split at hf
      · have := failAll_resolutions _ _ _ _ hf
        cases this
      · simp [resolutions] at hf
    · cases hs
  | frame b =>
    simp only [St.step] at hs
    split at hs
    · simp only [Option.some.injEq] at hs
      rw [show o = (s.frame env b).2 by rw [hs]] at hf ⊢
      unfold St.frame at hf ⊢
      split at hf
      · simp [resolutions] at hf
      · simp [resolutions] at hf
      · rename_i m i rest hx
        split at hf
        · simp [resolutions] at hf
        · split at hf
          · simp [resolutions] at hf
          · rename_i e he
            obtain ⟨h1, h2⟩ := getItem_mem he
            dsimp only at hf
            split at hf
            · simp [resolutions] at hf
            · unfold St.resolve at hf
              split at hf <;> simp [resolutions] at hf
            · unfold St.resolve at hf ⊢
              split at hf
              · simp [resolutions] at hf
              · rename_i hnd
                simp [resolutions] at hf
                obtain ⟨h5, h6⟩ := hf
                cases h6
                have h7 : (d, e.1) ∈ issued os := by rw [h5]; exact h.mem h1
                refine ⟨b, e.1, rfl, h7, by simp [Spec.Twisted.seqidOf, hx, h2], ?_⟩
                simp [if_neg hnd, h5]
    · cases hs

/-! ### Calls that wait for a reply -/

/-- Call `d` waits under sequence id `n`. -/
structure Waits (s : St) (d n : Nat) : Prop where
  entry : (n, d) ∈ s.reqs
  pending : d ∉ s.done

theorem waits_call {env : Env σ τ} {s : St} {os : List Obs} (h : Inv s os) {d n : Nat} (hw : Waits s d n) (fn : Fn)
    (args : List (Option Val)) (w : Option Tornado.Fail) : Waits (s.call env fn args w).1 d n := by
  unfold St.call
  simp only [setItem_fresh h.fresh]
  have hm : (n, d) ∈ s.reqs ++ [(s.seqid + 1, s.made)] := List.mem_append.2 (.inl hw.entry)
  cases fn.oneway with
  | true =>
    simp only [if_true]
    split
    · exact ⟨hw.entry, hw.pending⟩
    · split <;> exact ⟨hw.entry, hw.pending⟩
  | false =>
    simp only [Bool.false_eq_true, if_false]
    split
    · exact ⟨hm, hw.pending⟩
    · split <;> exact ⟨hm, hw.pending⟩

theorem waits_failAll (t : Int) : ∀ {l : List (Nat × Nat)} {s : St} {d n : Nat}, Waits s d n → (∀ e ∈ s.reqs, e ∈ l ∨ e.2 ∈ s.done) →
    Waits (St.failAll t l s).1 d n ∨ (d, .lost t) ∈ resolutions (St.failAll t l s).2
  | [], s, d, n, hw, hc => (hw.pending ((hc _ hw.entry).resolve_left (by simp))).elim
  | e :: es, s, d, n, hw, hc => by
    unfold St.failAll
    by_cases hd : e.2 ∈ s.done
    · simp only [if_pos hd]
      exact .inl ⟨hw.entry, hw.pending⟩
    · simp only [if_neg hd]
      by_cases he : d = e.2
      · right
        simp [resolutions, he]
      · have : Waits { s with done := e.2 :: s.done } d n := ⟨hw.entry, by simp [he, hw.pending]⟩
        rcases waits_failAll t (l := es) this (by
            intro x hx
            rcases hc x hx with h1 | h1
            · rcases List.mem_cons.1 h1 with h2 | h2
              · exact .inr (by simp [h2])
              · exact .inl h2
            · exact .inr (by simp [h1])) with h | h
        · exact .inl h
        · right
          simp only [resolutions, List.filterMap_cons_some]
          exact List.mem_cons.2 (.inr h)

/-- A waiting call waits on until a frame with its sequence id comes, it is cancelled or `readFrame` fails. -/
theorem waits_step {env : Env σ τ} {s s' : St} {os o : List Obs} {e : Event} (h : Inv s os) (hs : s.step env e = some (s', o))
    {d n : Nat} (hw : Waits s d n) (hf : ∀ b, e = .frame b → Spec.Twisted.seqidOf env b ≠ some (n : Int)) (hc : e ≠ .cancel d) :
    Waits s' d n ∨ ∃ t, e = .fail (.ttransport t) ∧ (d, .lost t) ∈ resolutions o := by
  cases e with
  | call fn args w =>
    simp only [St.step, Option.some.injEq] at hs
    have := waits_call (env := env) h hw fn args w
    rw [hs] at this
    exact .inl this
  | cancel d' =>
    have hd : d' ≠ d := fun h => hc (by rw [h])
    simp only [St.step] at hs
    split at hs
    · split at hs
      · cases hs; exact .inl hw
      · cases hs
        exact .inl ⟨hw.entry, by simp [Ne.symm hd, hw.pending]⟩
    · cases hs
  | fail x =>
    simp only [St.step] at hs
    split at hs
    · simp only [Option.some.injEq] at hs
      rw [show s' = (s.fail x).1 by rw [hs], show o = (s.fail x).2 by rw [hs]]
      unfold St.fail
      split
      · rename_i t
        rcases waits_failAll t hw (fun e he => .inl he) with h | h
        · exact .inl h
        · exact .inr ⟨t, rfl, h⟩
      · exact .inl ⟨hw.entry, hw.pending⟩
    · cases hs
  | frame b =>
    have hf := hf b rfl
    simp only [St.step] at hs
    split at hs
    · simp only [Option.some.injEq] at hs
      rw [show s' = (s.frame env b).1 by rw [hs]]
      left
      unfold St.frame
      split
      · exact ⟨hw.entry, hw.pending⟩
      · exact ⟨hw.entry, hw.pending⟩
      · rename_i m i rest hx
        split
        · exact ⟨hw.entry, hw.pending⟩
        · split
          · exact hw
          · rename_i e he
            obtain ⟨h1, h2⟩ := getItem_mem he
            have hne : e.1 ≠ n := by
              intro h3
              apply hf
              simp [Spec.Twisted.seqidOf, hx, ← h2, h3]
            have hentry : (n, d) ∈ delItem e.1 s.reqs := by simp [delItem, hw.entry, Ne.symm hne]
            have hd : d ≠ e.2 := by
              intro h6
              have hv := h.values
              rw [List.nodup_map_iff_inj_on (List.Nodup.of_map _ hv)] at hv
              have := hv e h1 _ hw.entry h6.symm
              exact hne (congrArg Prod.fst this)
            have hres : ∀ r, Waits ({ s with reqs := delItem e.1 s.reqs }.resolve e.2 r).1 d n := by
              intro r
              unfold St.resolve
              split
              · exact ⟨hentry, hw.pending⟩
              · exact ⟨hentry, by simp [hd, hw.pending]⟩
            dsimp only
            split
            · exact ⟨hentry, hw.pending⟩
            · exact hres _
            · exact hres _
    · cases hs

theorem waits_run {env : Env σ τ} : ∀ {es : List Event} {s s' : St} {os₀ os : List Obs} {d n : Nat}, Inv s os₀ →
    s.run env es = some (s', os) → Waits s d n → NoAnswer env es n → .cancel d ∉ es →
    Waits s' d n ∨ ∃ t, .fail (.ttransport t) ∈ es ∧ (d, .lost t) ∈ resolutions os
  | [], s, s', os₀, os, d, n, h, hr, hw, hn, hc => by
    cases hr
    exact .inl hw
  | e :: es, s, s', os₀, os, d, n, h, hr, hw, hn, hc => by
    obtain ⟨s₁, o, os', h1, h2, rfl⟩ := run_cons hr
    rcases waits_step h h1 hw (fun b hb => hn b (by simp [hb])) (fun h => hc (by simp [h])) with h3 | ⟨t, h3, h4⟩
    · rcases waits_run (inv_step h h1) h2 h3 (fun b hb => hn b (by simp [hb])) (fun h => hc (by simp [h])) with h5 | ⟨t, h5, h6⟩
      · exact .inl h5
      · exact .inr ⟨t, by simp [h5], by simp [resolutions_append, h6]⟩
    · exact .inr ⟨t, by simp [h3], by simp [resolutions_append, h4]⟩

/-- A call that was issued waits. -/
theorem waits_issued {env : Env σ τ} {s s' : St} {os o : List Obs} (h : Inv s os) {fn : Fn} {args : List (Option Val)}
    {w : Option Tornado.Fail} (hs : s.step env (.call fn args w) = some (s', o)) {d n : Nat} (hi : (d, n) ∈ issued o) :
    Waits s' d n := by
  simp only [St.step, Option.some.injEq] at hs
  have hd : s.made ∉ s.done := fun hm => by
    have := h.made _ hm
    omega
  rw [show s' = (s.call env fn args w).1 by rw [hs]]
  rw [show o = (s.call env fn args w).2 by rw [hs]] at hi
  unfold St.call at hi ⊢
  simp only [setItem_fresh h.fresh] at hi ⊢
  generalize message _ _ _ _ _ _ _ = m at hi ⊢
  obtain ⟨r, t, b⟩ := m
  cases hone : fn.oneway with
  | true =>
    simp only [hone, if_true] at hi
    cases r with
    | error e => simp [issued] at hi
    | ok u => cases w <;> simp [issued] at hi
  | false =>
    simp only [hone, Bool.false_eq_true, if_false] at hi ⊢
    have hm : (s.seqid + 1, s.made) ∈ s.reqs ++ [(s.seqid + 1, s.made)] := by simp
    cases r with
    | error e =>
      simp [issued] at hi
      obtain ⟨rfl, rfl⟩ := hi
      exact ⟨hm, hd⟩
    | ok u =>
      cases w <;> simp [issued] at hi <;> obtain ⟨rfl, rfl⟩ := hi <;> exact ⟨hm, hd⟩

/-- A call in an execution: made after the events `es₁`, entered as future `d` under sequence id `n`, and followed by the events `es₂`. -/
structure Called (env : Env σ τ) (es₁ es₂ : List Event) (s : St) (os : List Obs) (d n : Nat) : Prop where
  run : ∃ s₁ os₁ s₂ o os₂ fn args w, ({} : St).run env es₁ = some (s₁, os₁) ∧ s₁.step env (.call fn args w) = some (s₂, o) ∧
    s₂.run env es₂ = some (s, os₂) ∧ (d, n) ∈ issued o ∧ os = os₁ ++ o ++ os₂

theorem Called.waits {env : Env σ τ} {es₁ es₂ : List Event} {s : St} {os : List Obs} {d n : Nat} (hc : Called env es₁ es₂ s os d n)
    (hna : NoAnswer env es₂ n) (hx : .cancel d ∉ es₂) :
    Inv s os ∧ (Waits s d n ∨ ∃ t, .fail (.ttransport t) ∈ es₂ ∧ (d, .lost t) ∈ resolutions os) := by
  obtain ⟨s₁, os₁, s₂, o, os₂, fn, args, w, h1, h2, h3, h4, rfl⟩ := hc.run
  have hi := inv_run inv_init h1
  rw [List.nil_append] at hi
  have hi' := inv_step hi h2
  refine ⟨inv_run hi' h3, ?_⟩
  rcases waits_run hi' h3 (waits_issued hi h2 h4) hna hx with h | ⟨t, ht, h⟩
  · exact .inl h
  · exact .inr ⟨t, ht, by rw [resolutions_append]; simp [h]⟩

/-- While the client is receiving, a `TTransportException` has not been seen. -/
theorem not_failed {env : Env σ τ} : ∀ {es : List Event} {s s' : St} {os₀ os : List Obs}, Inv s os₀ → s.run env es = some (s', os) →
    s'.receiving = true → ∀ x, .fail x ∉ es
  | [], _, _, _, _, _, _, _, x => by simp
  | e :: es, s, s', os₀, os, h, hr, hrec, x => by
    obtain ⟨s₁, o, os', h1, h2, rfl⟩ := run_cons hr
    intro hm
    rcases List.mem_cons.1 hm with h3 | h3
    · subst h3
      have hs₁ : s₁.receiving = false := by
        simp only [St.step] at h1
        split at h1
        · simp only [Option.some.injEq] at h1
          rw [show s₁ = (s.fail x).1 by rw [h1]]
          unfold St.fail
          split
          · exact failAll_receiving _ _ _
          · rfl
        · cases h1
      have hst := (inv_step h h1).stopped.1 hs₁
      have hi := inv_run (inv_step h h1) h2
      have : s'.receiving = false := hi.stopped.2 (by
        obtain ⟨w, hw⟩ := hst
        exact ⟨w, by simp only [List.mem_append] at hw ⊢; exact .inl hw⟩)
      rw [this] at hrec
      cases hrec
    · exact not_failed (inv_step h h1) h2 hrec x h3

theorem Called.receiving {env : Env σ τ} {es₁ es₂ : List Event} {s : St} {os : List Obs} {d n : Nat} (hc : Called env es₁ es₂ s os d n)
    (hna : NoAnswer env es₂ n) (hx : .cancel d ∉ es₂) (hst : ¬ Stopped os) : Inv s os ∧ Waits s d n ∧ s.receiving = true := by
  obtain ⟨hi, hw⟩ := hc.waits hna hx
  have hrec : s.receiving = true := by
    cases h : s.receiving with
    | true => rfl
    | false => exact (hst (hi.stopped.1 h)).elim
  refine ⟨hi, ?_, hrec⟩
  rcases hw with h | ⟨t, ht, _⟩
  · exact h
  · obtain ⟨s₁, os₁, s₂, o, os₂, fn, args, w, h1, h2, h3, h4, rfl⟩ := hc.run
    exact (not_failed (inv_step (inv_run inv_init h1) h2) h3 hrec _ ht).elim

/-- A frame whose sequence id belongs to a waiting call. -/
theorem waits_frame {env : Env σ τ} {s : St} {os : List Obs} (h : Inv s os) {d n : Nat} (hw : Waits s d n) (hp : s.receiving = true)
    {fn : Fn} {name : PyStr} {type : Int} {b rest' : Bytes} {i i' : σ} {r : Except Exc Result} {rest : Bytes}
    (hfn : recvMethod env.fns name = some fn)
    (hh : exec env.p.readMessageBegin env.s₀ b = some ((.ok (name, type, (n : Int)), i), rest))
    (hr : exec (recv env.p env.sch env.mode env.fuel fn) env.s₀ b = some ((r, i'), rest')) :
    ∃ s', s'.receiving = true ∧ s.step env (.frame b)
      = some (s', [.resolved d (match r with | .ok r => .reply r | .error e => .unread e)]) := by
  rw [recv_eq hh] at hr
  simp only [St.step, if_pos hp, St.frame, hh, hfn, getItem_of_mem h.keys hw.entry]
  simp only at hr
  rw [hr]
  cases r <;> simp [St.resolve, hw.pending, hp]

/-- C59: the reply to a call, sent by a peer with any compatible schema, resolves the future of this call with what the struct means,
and no other; the client goes on receiving. The call was not answered nor cancelled before. -/
theorem tornado_client_reply {env : Env σ τ} {F : Format} {Idle : σ → Prop} {sl cl : Option Int} (hp : Receives env.p F Idle sl cl)
    (hidle : Idle env.s₀) {es₁ es₂ : List Event} {s : St} {os : List Obs} {d n : Nat} (hc : Called env es₁ es₂ s os d n)
    (hna : NoAnswer env es₂ n) (hx : .cancel d ∉ es₂) (hst : ¬ Stopped os) (fn : Fn)
    (hfn : Serves env.fns fn.name fn) (ho : fn.oneway = false) (hres : ResultOK env.sch fn) (sch₁ : Schema) (type : Nat) (ht : type ≠ 3)
    (hh : HeaderOK sl fn.name type n) (v : Val) (hv : BodyOK sl cl env.mode sch₁ env.sch fn.resultId v env.fuel) (rest : Bytes) :
    ∃ r s', Means env.sch fn (attrsOf (project sch₁ env.sch (.struct fn.resultId) v)) r ∧ s'.receiving = true ∧
      s.step env (.frame (F.header fn.name type n ++ (F.value sch₁ (.struct fn.resultId) v ++ rest)))
        = some (s', [.resolved d (.reply r)]) := by
  obtain ⟨hi, hw, hrec⟩ := hc.receiving hna hx hst
  obtain ⟨r, s', _, hm, he⟩ := recv_reply hp env.mode sch₁ env.sch env.fuel fn hres env.s₀ hidle fn.name type n hh ht v hv
  obtain ⟨s'', h⟩ := waits_frame hi hw hrec (find_serves hfn ho) (hp.header fn.name type n env.s₀ _ hidle hh) (he rest)
  exact ⟨r, s'', hm, h⟩

/-- C59: an `EXCEPTION` message resolves the future of the call with the `TApplicationException` it carries. -/
theorem tornado_client_exception {env : Env σ τ} {F : Format} {Idle : σ → Prop} {sl cl : Option Int} (hp : Receives env.p F Idle sl cl)
    (hidle : Idle env.s₀) {es₁ es₂ : List Event} {s : St} {os : List Obs} {d n : Nat} (hc : Called env es₁ es₂ s os d n)
    (hna : NoAnswer env es₂ n) (hx : .cancel d ∉ es₂) (hst : ¬ Stopped os) (fn : Fn)
    (hfn : Serves env.fns fn.name fn) (ho : fn.oneway = false) (hh : HeaderOK sl fn.name 3 n) (x : AppExc) (hax : AppOK x)
    (hl : ∀ m ∈ x.message, Within sl (utf8Len m)) (hf : 5 ≤ env.fuel) (rest : Bytes) :
    ∃ s', s'.receiving = true ∧ s.step env (.frame (F.header fn.name 3 n ++ (F.app x ++ rest)))
      = some (s', [.resolved d (.reply (.application ⟨some (x.type.getD 0), x.message⟩))]) := by
  obtain ⟨hi, hw, hrec⟩ := hc.receiving hna hx hst
  obtain ⟨s', _, he⟩ := recv_exception hp env.mode env.sch env.fuel fn env.s₀ hidle fn.name n hh x hax hl hf
  exact waits_frame hi hw hrec (find_serves hfn ho) (hp.header fn.name 3 n env.s₀ _ hidle hh) (he rest)

/-- C59: a reply with a readable header and an unreadable body resolves the future of its call with the exception that reading it
raises (unlike the Twisted client); the client goes on receiving. -/
theorem tornado_client_unreadable {env : Env σ τ} {F : Format} {Idle : σ → Prop} {sl cl : Option Int} (hp : Receives env.p F Idle sl cl)
    (hidle : Idle env.s₀) {es₁ es₂ : List Event} {s : St} {os : List Obs} {d n : Nat} (hc : Called env es₁ es₂ s os d n)
    (hna : NoAnswer env es₂ n) (hx : .cancel d ∉ es₂) (hst : ¬ Stopped os) (fn : Fn) (hfn : Serves env.fns fn.name fn)
    (ho : fn.oneway = false) (type : Nat) (hh : HeaderOK sl fn.name type n) (body : Bytes) (x : Exc) (i : σ) (rest : Bytes)
    (hb : exec (recv env.p env.sch env.mode env.fuel fn) env.s₀ (F.header fn.name type n ++ body) = some ((.error x, i), rest)) :
    ∃ s', s'.receiving = true ∧ s.step env (.frame (F.header fn.name type n ++ body)) = some (s', [.resolved d (.unread x)]) := by
  obtain ⟨hi, hw, hrec⟩ := hc.receiving hna hx hst
  exact waits_frame hi hw hrec (find_serves hfn ho) (hp.header fn.name type n env.s₀ _ hidle hh) hb

/-- C59: a frame with a sequence id that no waiting call has resolves nothing. If it can be read and names a function, the client goes
on receiving. -/
theorem tornado_client_unknown (env : Env σ τ) (es : List Event) (s s' : St) (os o : List Obs) (b : Bytes)
    (hr : ({} : St).run env es = some (s, os)) (hs : s.step env (.frame b) = some (s', o))
    (hn : ∀ d n, (d, n) ∈ issued os → Spec.Twisted.seqidOf env b ≠ some (n : Int)) :
    resolutions o = [] ∧ ∀ name type q i rest fn, exec env.p.readMessageBegin env.s₀ b = some ((.ok (name, type, q), i), rest) →
      Serves env.fns name fn → fn.oneway = false → ¬ Stopped o := by
  have h := inv_run inv_init hr
  rw [List.nil_append] at h
  simp only [St.step] at hs
  split at hs
  · simp only [Option.some.injEq] at hs
    rw [show o = (s.frame env b).2 by rw [hs]]
    unfold St.frame
    split
    · rename_i hx
      refine ⟨rfl, fun name type q i rest fn h1 => ?_⟩
      rw [hx] at h1
      cases h1
    · rename_i hx
      refine ⟨rfl, fun name type q i rest fn h1 => ?_⟩
      rw [hx] at h1
      cases h1
    · rename_i m i rest hx
      split
      · rename_i hnone
        refine ⟨rfl, fun name type q i rest fn h1 h2 h3 => ?_⟩
        rw [hx] at h1
        cases h1
        rw [find_serves h2 h3] at hnone
        cases hnone
      · split
        · exact ⟨rfl, fun _ _ _ _ _ _ _ _ _ => by simp [Stopped]⟩
        · rename_i e he
          obtain ⟨h1, h2⟩ := getItem_mem he
          exact (hn _ _ (h.mem h1) (by simp [Spec.Twisted.seqidOf, hx, h2])).elim
  · cases hs

theorem failAll_all (t : Int) : ∀ {l : List (Nat × Nat)} {s : St}, (∀ e ∈ l, e.2 ∉ s.done) → (l.map (·.2)).Nodup →
    (St.failAll t l s).2 = l.map (fun e => .resolved e.2 (.lost t)) ++ [.stopped .closed]
  | [], s, _, _ => rfl
  | e :: es, s, h, hn => by
    unfold St.failAll
    rw [List.map_cons, List.nodup_cons] at hn
    simp only [if_neg (h e (by simp)), List.map_cons, List.cons_append]
    rw [failAll_all t (l := es) ?_ hn.2]
    intro x hx
    simp only [List.mem_cons, not_or]
    refine ⟨?_, h x (by simp [hx])⟩
    intro h1
    exact hn.1 (List.mem_map.2 ⟨x, hx, h1⟩)

/-- C59: when `readFrame` raises a `TTransportException` (the connection is closed, for instance) and no call was cancelled, every
future that was not resolved before fails with it. -/
theorem tornado_client_lost_partial (env : Env σ τ) (es : List Event) (s : St) (os : List Obs) (hr : ({} : St).run env es = some (s, os))
    (hst : ¬ Stopped os) (hx : ∀ d, (d, .cancelled) ∉ resolutions os) (t : Int) :
    ∃ s' o, s.step env (.fail (.ttransport t)) = some (s', o) ∧ s'.reqs = [] ∧
      ∀ d n, (d, n) ∈ issued os → d ∉ (resolutions os).map (·.1) → (d, .lost t) ∈ resolutions o := by
  have hi := inv_run inv_init hr
  have hca := canc_run inv_init canc_init hr
  rw [List.nil_append] at hi hca
  have hrec : s.receiving = true := by
    cases h : s.receiving with
    | true => rfl
    | false => exact (hst (hi.stopped.1 h)).elim
  have hnd : ∀ e ∈ s.reqs, e.2 ∉ s.done := fun e he hd => hx _ (hca hrec e he hd)
  refine ⟨_, _, by simp only [St.step, if_pos hrec]; rfl, ?_, ?_⟩
  · have reqs_nil : ∀ (l : List (Nat × Nat)) (s : St), (∀ e ∈ l, e.2 ∉ s.done) → (l.map (·.2)).Nodup → (St.failAll t l s).1.reqs = [] := by
      intro l
      induction l with
      | nil => intro s _ _; rfl
      | cons e l ih =>
        intro s h hn
        rw [List.map_cons, List.nodup_cons] at hn
        unfold St.failAll
        simp only [if_neg (h e (by simp))]
        refine ih _ ?_ hn.2
        intro x hx
        simp only [List.mem_cons, not_or]
        exact ⟨fun h1 => hn.1 (List.mem_map.2 ⟨x, hx, h1⟩), h x (by simp [hx])⟩
    exact reqs_nil _ _ hnd hi.values
  · intro d n hd hu
    have : (n, d) ∈ s.reqs := by
      rcases hi.account (fun h => hst ⟨_, h⟩) _ hd with h | h
      · exact h
      · exact (hu ((hi.done d).1 h)).elim
    change (d, .lost t) ∈ resolutions (St.failAll t s.reqs s).2
    rw [failAll_all t hnd hi.values, resolutions_append]
    refine List.mem_append.2 (.inl ?_)
    simp only [resolutions, List.mem_filterMap, List.mem_map]
    exact ⟨_, ⟨_, this, rfl⟩, rfl⟩

/-- When `_start_receiving` has ended, no future is resolved, except by `cancel`. -/
theorem stopped_run {env : Env σ τ} : ∀ {es : List Event} {s s' : St} {os : List Obs}, s.receiving = false → s.run env es = some (s', os) →
    ∀ d r, (d, r) ∈ resolutions os → r = .cancelled
  | [], _, _, _, _, hr => by
    cases hr
    simp [resolutions]
  | e :: es, s, _, _, hg, hr => by
    obtain ⟨s₁, o, os', h1, h2, rfl⟩ := run_cons hr
    have : s₁.receiving = false ∧ ∀ d r, (d, r) ∈ resolutions o → r = .cancelled := by
      cases e with
      | call fn args w =>
        simp only [St.step, Option.some.injEq] at h1
        rw [show s₁ = (s.call env fn args w).1 by rw [h1], show o = (s.call env fn args w).2 by rw [h1], call_resolutions]
        refine ⟨?_, by simp⟩
        unfold St.call
        dsimp only
        cases fn.oneway
        · split
          · exact hg
          · split <;> exact hg
        · split
          · exact hg
          · split <;> exact hg
      | cancel d =>
        simp only [St.step] at h1
        split at h1
        · split at h1
          · cases h1
            exact ⟨hg, by simp [resolutions]⟩
          · cases h1
            exact ⟨hg, by simp [resolutions]⟩
        · cases h1
      | _ => simp [St.step, hg] at h1
    intro d r hm
    rw [resolutions_append, List.mem_append] at hm
    rcases hm with h | h
    · exact this.2 d r h
    · exact stopped_run this.1 h2 d r h

/-! ### What is sent -/

theorem call_sends {env : Env σ τ} {F : Format} {Idle : τ → Prop} (hp : Sends env.q F Idle) (hidle : Idle env.t₀) {s : St}
    (hq : (s.seqid + 1 : Int) < 2 ^ 31) (fn : Fn) (hn : TextOK fn.name)
    (hs : SchemaOK env.mode env.sch) (args : List (Option Val)) (hv : WT env.sch (.struct fn.argsId) (.struct args))
    (hd : env.mode = .gen → structDepth (.struct args) ≤ 64) :
    ∃ s', s'.wbuf = [] ∧ s.step env (.call fn args none) = some (s', (if fn.oneway then [] else [.issued s.made (s.seqid + 1)]) ++
      [.string (s.wbuf ++ (F.header fn.name (if fn.oneway then 4 else 1) (s.seqid + 1 : Nat) ++
        F.value env.sch (.struct fn.argsId) (.struct args))), .returned]) := by
  obtain ⟨t, ht, _⟩ := hp fn.name (if fn.oneway then 4 else 1) ((s.seqid + 1 : Nat) : Int) env.sch env.mode fn.argsId (.struct args) env.t₀ s.wbuf hidle hn
    (by cases fn.oneway <;> simp [IsMessageType]) (by constructor <;> omega) hs hv hd
  simp only [St.step, St.call, message_type]
  cases hone : fn.oneway with
  | true =>
    simp only [hone, if_true] at ht ⊢
    rw [ht]
    exact ⟨_, rfl, rfl⟩
  | false =>
    simp only [hone, Bool.false_eq_true, if_false] at ht ⊢
    rw [ht]
    exact ⟨_, rfl, rfl⟩

theorem seqid_step {env : Env σ τ} {s s' : St} {o : List Obs} {e : Event} (hs : s.step env e = some (s', o)) : s'.seqid ≤ s.seqid + 1 := by
  have hres : ∀ (s : St) d r, (s.resolve d r).1.seqid = s.seqid := by
    intro s d r
    unfold St.resolve
    split <;> rfl
  have hfail : ∀ (t : Int) (l : List (Nat × Nat)) (s : St), (St.failAll t l s).1.seqid = s.seqid := by
    intro t l
    induction l with
    | nil => intro s; rfl
    | cons e l ih =>
      intro s
      unfold St.failAll
      split
      · rfl
      · exact ih _
  cases e with
  | call fn args w =>
    simp only [St.step, Option.some.injEq] at hs
    rw [show s' = (s.call env fn args w).1 by rw [hs]]
    unfold St.call
    dsimp only
    cases fn.oneway
    · split
      · exact Nat.le_refl _
      · split <;> exact Nat.le_refl _
    · split
      · exact Nat.le_refl _
      · split <;> exact Nat.le_refl _
  | cancel d =>
    simp only [St.step] at hs
    split at hs
    · split at hs <;> cases hs <;> exact Nat.le_succ _
    · cases hs
  | fail x =>
    simp only [St.step] at hs
    split at hs
    · simp only [Option.some.injEq] at hs
      rw [show s' = (s.fail x).1 by rw [hs]]
      unfold St.fail
      split
      · rw [hfail]; exact Nat.le_succ _
      · exact Nat.le_succ _
    · cases hs
  | frame b =>
    simp only [St.step] at hs
    split at hs
    · simp only [Option.some.injEq] at hs
      rw [show s' = (s.frame env b).1 by rw [hs]]
      unfold St.frame
      split
      · exact Nat.le_succ _
      · exact Nat.le_succ _
      · split
        · exact Nat.le_succ _
        · split
          · exact Nat.le_succ _
          · dsimp only
            split
            · exact Nat.le_succ _
            · rw [hres]; exact Nat.le_succ _
            · rw [hres]; exact Nat.le_succ _
    · cases hs

theorem seqid_run {env : Env σ τ} : ∀ {es : List Event} {s s' : St} {os : List Obs}, s.run env es = some (s', os) →
    s'.seqid ≤ s.seqid + es.length
  | [], _, _, _, hr => by
    cases hr
    simp
  | e :: es, _, _, _, hr => by
    obtain ⟨s₁, o, os', h1, h2, rfl⟩ := run_cons hr
    have := seqid_step h1
    have := seqid_run h2
    simp only [List.length_cons]
    omega

/-- No client method has raised. -/
def AllSent (os : List Obs) : Prop := ∀ e, .refused e ∉ os

theorem wbuf_step {env : Env σ τ} {s s' : St} {o : List Obs} {e : Event} (hs : s.step env e = some (s', o)) (hw : s.wbuf = [])
    (ha : AllSent o) : s'.wbuf = [] := by
  have hres : ∀ (s : St) d r, (s.resolve d r).1.wbuf = s.wbuf := by
    intro s d r
    unfold St.resolve
    split <;> rfl
  have hfail : ∀ (t : Int) (l : List (Nat × Nat)) (s : St), (St.failAll t l s).1.wbuf = s.wbuf := by
    intro t l
    induction l with
    | nil => intro s; rfl
    | cons e l ih =>
      intro s
      unfold St.failAll
      split
      · rfl
      · exact ih _
  cases e with
  | call fn args w =>
    simp only [St.step, Option.some.injEq] at hs
    unfold St.call at hs
    dsimp only at hs
    split at hs
    · cases hs
      exact (ha _ (by simp; exact .inr rfl)).elim
    · split at hs <;> cases hs <;> rfl
  | cancel d =>
    simp only [St.step] at hs
    split at hs
    · split at hs <;> cases hs <;> exact hw
    · cases hs
  | fail x =>
    simp only [St.step] at hs
    split at hs
    · simp only [Option.some.injEq] at hs
      rw [show s' = (s.fail x).1 by rw [hs]]
      unfold St.fail
      split
      · rw [hfail]; exact hw
      · exact hw
    · cases hs
  | frame b =>
    simp only [St.step] at hs
    split at hs
    · simp only [Option.some.injEq] at hs
      rw [show s' = (s.frame env b).1 by rw [hs]]
      unfold St.frame
      split
      · exact hw
      · exact hw
      · split
        · exact hw
        · split
          · exact hw
          · dsimp only
            split
            · exact hw
            · rw [hres]; exact hw
            · rw [hres]; exact hw
    · cases hs

theorem wbuf_run {env : Env σ τ} : ∀ {es : List Event} {s s' : St} {os : List Obs}, s.run env es = some (s', os) →
    s.wbuf = [] → AllSent os → s'.wbuf = []
  | [], _, _, _, hr, hw, _ => by
    cases hr
    exact hw
  | e :: es, _, _, _, hr, hw, ha => by
    obtain ⟨s₁, o, os', h1, h2, rfl⟩ := run_cons hr
    exact wbuf_run h2 (wbuf_step h1 hw fun e he => ha e (by simp [he])) fun e he => ha e (by simp [he])

/-- C59: a client method sends one message, with the sequence id its future is entered under; a `oneway` function makes no future. All
calls made before could be sent. -/
theorem tornado_client_request {env : Env σ τ} {F : Format} {Idle : τ → Prop} (hp : Sends env.q F Idle) (hidle : Idle env.t₀)
    (es : List Event) (s : St) (os : List Obs) (hr : ({} : St).run env es = some (s, os)) (ha : AllSent os)
    (hq : es.length + 1 < 2 ^ 31) (fn : Fn) (hn : TextOK fn.name) (hs : SchemaOK env.mode env.sch) (args : List (Option Val))
    (hv : WT env.sch (.struct fn.argsId) (.struct args)) (hd : env.mode = .gen → structDepth (.struct args) ≤ 64) :
    ∃ s' d n, s.step env (.call fn args none) = some (s', (if fn.oneway then [] else [.issued d n]) ++
      [.string (F.header fn.name (if fn.oneway then 4 else 1) (n : Nat) ++ F.value env.sch (.struct fn.argsId) (.struct args)),
        .returned]) := by
  have hlen := seqid_run hr
  obtain ⟨s', _, h⟩ := call_sends hp hidle (s := s) (by simp only [Nat.zero_add] at hlen; omega) fn hn hs args hv hd
  rw [wbuf_run hr rfl ha, List.nil_append] at h
  exact ⟨s', _, _, h⟩

/-- C51, C59: a call whose arguments cannot be written raises and leaves what was written of its message in the buffer of the transport; the
message of the next call comes after it, in the same frame. -/
theorem tornado_client_polluted {env : Env σ τ} {F : Format} {Idle : τ → Prop} (hp : Sends env.q F Idle)
    (hidle : Idle env.t₀) (es : List Event) (s : St) (os : List Obs) (hr : ({} : St).run env es = some (s, os))
    (hq : es.length + 2 < 2 ^ 31) (fn fn' : Fn) (args args' : List (Option Val)) (w : Option Tornado.Fail) (e : Exc) (t : τ) (b : Bytes)
    (he : message env.q fn.name (if fn.oneway then TMessageType.ONEWAY else TMessageType.CALL) ((s.seqid + 1 : Nat) : Int)
        (writeVal env.q.wr env.sch env.mode (.struct fn.argsId) (.struct args)) env.t₀ s.wbuf = (.error e, t, b)) (hn : TextOK fn'.name)
    (hs : SchemaOK env.mode env.sch) (hv : WT env.sch (.struct fn'.argsId) (.struct args'))
    (hd : env.mode = .gen → structDepth (.struct args') ≤ 64) :
    ∃ s₁ o₁ s' o n, s.step env (.call fn args w) = some (s₁, o₁) ∧ .refused e ∈ o₁ ∧ strings o₁ = [] ∧
      s₁.step env (.call fn' args' none) = some (s', o) ∧
      strings o = [b ++ (F.header fn'.name (if fn'.oneway then 4 else 1) (n : Nat) ++ F.value env.sch (.struct fn'.argsId) (.struct args'))] := by
  have hlen := seqid_run hr
  have hstep : ∃ s₁ o₁, s.step env (.call fn args w) = some (s₁, o₁) ∧ .refused e ∈ o₁ ∧ strings o₁ = [] ∧ s₁.wbuf = b := by
    refine ⟨_, _, rfl, ?_⟩
    simp only [St.call]
    rw [he]
    refine ⟨by simp, ?_, rfl⟩
    cases fn.oneway <;> simp [strings]
  obtain ⟨s₁, o₁, h1, h2, h3, h4⟩ := hstep
  have hlen' := seqid_step h1
  obtain ⟨s', _, h⟩ := call_sends hp hidle (s := s₁) (by simp only [Nat.zero_add] at hlen; omega) fn' hn hs args' hv hd
  refine ⟨s₁, o₁, s', _, s₁.seqid + 1, h1, h2, h3, h, ?_⟩
  rw [← h4]
  cases fn'.oneway <;> simp [strings]

end

/-! ### Executions -/

section
open SampleService

theorem of_check {env : Env Binary.St Binary.St} {es : List Event} (P : St → List Obs → Prop) [∀ s os, Decidable (P s os)]
    (h : (match ({} : St).run env es with | some (s, os) => decide (P s os) | none => false) = true) :
    ∃ s os, ({} : St).run env es = some (s, os) ∧ P s os := by
  cases hr : ({} : St).run env es with
  | none => rw [hr] at h; cases h
  | some r => rw [hr] at h; exact ⟨r.1, r.2, rfl, by simpa using h⟩

/-- Why `_start_receiving` ended. -/
def reasons (os : List Obs) : List Stop := os.filterMap fun | .stopped w => some w | _ => none

/-- Two calls and a `oneway` call; the replies come in the other order; a reply that nobody waits for is ignored. -/
example : ∃ s os, ({} : St).run sampleClient [.call get args none, .call log args none, .call get args none, .frame (getReply 3),
      .frame (getReply 7), .frame (getReply 1)] = some (s, os) ∧
    issued os = [(0, 1), (1, 3)] ∧ (resolutions os).map (·.1) = [1, 0] ∧ s.reqs = [] ∧ (strings os).length = 3 ∧ s.receiving = true :=
  of_check _ (by decide +kernel)

/-- A closed connection: the calls fail. -/
example : ∃ s os, ({} : St).run sampleClient [.call get args none, .call clear [] none, .call get args (some .io),
      .fail (.ttransport 4)] = some (s, os) ∧
    issued os = [(0, 1), (1, 2), (2, 3)] ∧ (resolutions os).map (·.1) = [0, 1, 2] ∧ reasons os = [.closed] :=
  of_check _ (by decide +kernel)

/-- The hypotheses of `tornado_client_reply` can be met: a call after which another call was made and answered. -/
example : ∃ s os, Called sampleClient [] [.call get args none, .frame (getReply 2)] s os 0 1 ∧
    NoAnswer sampleClient [.call get args none, .frame (getReply 2)] 1 ∧ ¬ Stopped os := by
  obtain ⟨s, os, hr, h1, h3⟩ := of_check (env := sampleClient) (es := [.call get args none, .call get args none, .frame (getReply 2)])
    (fun s os => s.receiving = true ∧ issued os = [(0, 1), (1, 2)]) (by decide +kernel)
  have hi := inv_run inv_init hr
  obtain ⟨s₁, o, os', g1, g2, rfl⟩ := run_cons hr
  have hstep : issued o = [(0, 1)] := by
    obtain ⟨s', _, h⟩ := call_sends (env := sampleClient) (s := {}) (Binary.writes {} rfl) (by exact rfl) (by decide) get
      (by unfold SampleService.get; decide) (sch_ok .gen) args (args_sendable .gen).typed (args_sendable .gen).depth
    rw [h] at g1
    cases g1
    simp [issued, SampleService.get]
  refine ⟨s, o ++ os', ⟨_, _, _, _, _, _, _, _, rfl, g1, g2, by rw [hstep]; simp, rfl⟩, ?_, ?_⟩
  · intro b hb
    simp only [List.mem_cons, reduceCtorEq, Event.frame.injEq, List.not_mem_nil, or_false, false_or] at hb
    subst hb
    decide +kernel
  · intro hst
    have := hi.stopped.2 (by simpa using hst)
    rw [h1] at this
    cases this

/-- C59 fails after a frame that is no message: `_start_receiving` ends with the exception of `readMessageBegin`. Neither the call that
was made before nor the one that is made afterwards is ever resolved (unless the user cancels them), although both were sent. -/
theorem tornado_client_deaf : ∃ es s os, ({} : St).run sampleClient es = some (s, os) ∧ (strings os).length = 2 ∧
    issued os = [(0, 1), (1, 2)] ∧ AllSent os ∧
    ∀ es' s' os', s.run sampleClient es' = some (s', os') → ∀ d r, (d, r) ∈ resolutions (os ++ os') → r = .cancelled := by
  obtain ⟨s, os, hr, h1, h2, h3, h4, h5⟩ := of_check (env := sampleClient)
    (es := [.call get args none, .frame [1, 2, 3], .call get args none])
    (fun s os => s.receiving = false ∧ issued os = [(0, 1), (1, 2)] ∧ (resolutions os).map (·.1) = [] ∧ (strings os).length = 2 ∧
      os.all (fun o => match o with | .refused _ => false | _ => true)) (by decide +kernel)
  refine ⟨_, s, os, hr, h4, h2, fun e he => ?_, ?_⟩
  · have := List.all_eq_true.1 h5 _ he
    cases this
  · intro es' s' os' hr' d r hm
    rw [resolutions_append, List.map_eq_nil_iff.1 h3, List.nil_append] at hm
    exact stopped_run h1 hr' _ _ hm

/-- It also fails after a reply for a function that the service does not have (or that is `oneway`). -/
theorem tornado_client_deaf_name : ∃ es s os, ({} : St).run sampleClient es = some (s, os) ∧ reasons os = [.raised .attributeError] ∧
    issued os = [(0, 1)] ∧
    ∀ es' s' os', s.run sampleClient es' = some (s', os') → ∀ d r, (d, r) ∈ resolutions (os ++ os') → r = .cancelled := by
  obtain ⟨s, os, hr, h1, h2, h3, h4⟩ := of_check (env := sampleClient)
    (es := [.call get args none, .frame (Format.binary.header log.name 2 1 ++ [0])])
    (fun s os => s.receiving = false ∧ issued os = [(0, 1)] ∧ (resolutions os).map (·.1) = [] ∧ reasons os = [.raised .attributeError])
    (by decide +kernel)
  refine ⟨_, s, os, hr, h4, h2, ?_⟩
  intro es' s' os' hr' d r hm
  rw [resolutions_append, List.map_eq_nil_iff.1 h3, List.nil_append] at hm
  exact stopped_run h1 hr' _ _ hm

/-- C59 fails when a future was cancelled (as `asyncio.wait_for` does after a timeout) and the reply comes nevertheless: `set_result`
raises `InvalidStateError`, `_start_receiving` ends, and the other call is never resolved. -/
theorem tornado_client_cancelled : ∃ es s os, ({} : St).run sampleClient es = some (s, os) ∧ reasons os = [.invalidState] ∧
    (1, 2) ∈ issued os ∧
    ∀ es' s' os', s.run sampleClient es' = some (s', os') → ∀ r, (1, r) ∈ resolutions (os ++ os') → r = .cancelled := by
  obtain ⟨s, os, hr, h1, h2, h3, h4⟩ := of_check (env := sampleClient)
    (es := [.call get args none, .call get args none, .cancel 0, .frame (getReply 1)])
    (fun s os => s.receiving = false ∧ issued os = [(0, 1), (1, 2)] ∧ (resolutions os).map (·.1) = [0] ∧ reasons os = [.invalidState])
    (by decide +kernel)
  refine ⟨_, s, os, hr, h4, by rw [h2]; simp, ?_⟩
  intro es' s' os' hr' r hm
  rw [resolutions_append, List.mem_append] at hm
  rcases hm with h | h
  · have := List.mem_map_of_mem (f := Prod.fst) h
    rw [h3] at this
    simp at this
  · exact stopped_run h1 hr' _ _ h

/-- It fails likewise when the connection is closed while a cancelled call is outstanding: the calls after it are never resolved. -/
theorem tornado_client_cancelled_lost : ∃ es s os, ({} : St).run sampleClient (es ++ [.fail (.ttransport 4)]) = some (s, os) ∧
    (1, 2) ∈ issued os ∧
    ∀ es' s' os', s.run sampleClient es' = some (s', os') → ∀ r, (1, r) ∈ resolutions (os ++ os') → r = .cancelled := by
  obtain ⟨s, os, hr, h1, h2, h3⟩ := of_check (env := sampleClient)
    (es := [.call get args none, .call get args none, .cancel 0] ++ [.fail (.ttransport 4)])
    (fun s os => s.receiving = false ∧ issued os = [(0, 1), (1, 2)] ∧ (resolutions os).map (·.1) = [0])
    (by decide +kernel)
  refine ⟨_, s, os, hr, by rw [h2]; simp, ?_⟩
  intro es' s' os' hr' r hm
  rw [resolutions_append, List.mem_append] at hm
  rcases hm with h | h
  · have := List.mem_map_of_mem (f := Prod.fst) h
    rw [h3] at this
    simp at this
  · exact stopped_run h1 hr' _ _ h

end
end Thrift.TornadoClient
