import Verif.Proofs.Twisted
import Verif.Props.Calls
/-
C44: the Twisted client.
-/

namespace Thrift.Twisted
open Spec.Twisted Spec Rpc

section
variable {σ τ : Type} [HasDepth σ] [HasDepth τ]

/-- C44: no `Deferred` is fired twice, and no attempt to do so is made. -/
theorem twisted_once (env : Env σ τ) (es : List Event) (s : St) (os : List Obs) (hr : ({} : St).run env es = some (s, os)) :
    ((firings os).map (·.1)).Nodup ∧ ∀ d, .already d ∉ os :=
  have h := inv_run inv_init hr
  ⟨h.once, h.already⟩

/-- C44: the sequence ids of different calls are different. -/
theorem twisted_seqids (env : Env σ τ) (es : List Event) (s : St) (os : List Obs) (hr : ({} : St).run env es = some (s, os)) :
    ((issued os).map (·.1)).Nodup ∧ ((issued os).map (·.2)).Nodup :=
  have h := inv_run inv_init hr
  ⟨h.idsNodup, h.seqsNodup⟩

theorem fire_firings (s : St) (d : Nat) (r : Fired) : ∀ x ∈ firings (s.fire d r).2, x = (d, r) ∧ (s.fire d r).2 = [.fired d r] := by
  intro x hx
  unfold St.fire at hx ⊢
  split at hx
  · split at hx <;> simp [firings] at hx
  · rename_i h
    simp [firings] at hx
    exact ⟨hx, by simp [h]⟩

theorem call_firings {env : Env σ τ} {s : St} {fn : Fn} {args : List (Option Val)} {d : Nat} {r : Fired}
    (h : (d, r) ∈ firings (s.call env fn args).2) : r = .sent ∨ ∃ e, r = .unsent e := by
  unfold St.call at h
  dsimp only at h
  split at h
  · simp [firings] at h
  · split at h
    · simp only [firings, List.filterMap_cons_none] at h
      have := fire_firings _ _ _ _ h
      exact .inr ⟨_, (Prod.mk.inj this.1).2⟩
    · split at h
      · simp only [firings, List.filterMap_cons_none] at h
        have := fire_firings _ _ _ _ h
        exact .inl (Prod.mk.inj this.1).2
      · simp [firings] at h

/-- C44: what a `Deferred` is told as a reply comes from one received frame, whose sequence id is the one the `Deferred` was entered
under; the frame has no other effect. -/
theorem twisted_own (env : Env σ τ) (es : List Event) (s s' : St) (os o : List Obs) (e : Event) (d : Nat) (r : Result)
    (hr : ({} : St).run env es = some (s, os)) (hs : s.step env e = some (s', o)) (hf : (d, .reply r) ∈ firings o) :
    ∃ b n, e = .frame b ∧ (d, n) ∈ issued os ∧ seqidOf env b = some (n : Int) ∧ o = [.fired d (.reply r)] := by
  have h := inv_run inv_init hr
  rw [List.nil_append] at h
  cases e with
  | call fn args =>
    simp only [St.step, Option.some.injEq] at hs
    rw [show o = (s.call env fn args).2 by rw [hs]] at hf
    rcases call_firings hf with h1 | ⟨e, h1⟩ <;> cases h1
  | cancel d' =>
    simp only [St.step] at hs
    split at hs
    · simp only [Option.some.injEq] at hs
      rw [show o = (s.cancel d').2 by rw [hs]] at hf
      unfold St.cancel at hf
      split at hf
      · simp [firings] at hf
      · have := (fire_firings _ _ _ _ hf).1
        cases this
    · cases hs
  | lose =>
    simp only [St.step] at hs
    split at hs
    · cases hs
      simp [firings] at hf
    · cases hs
  | pop =>
    simp only [St.step] at hs
    split at hs
    · simp only [Option.some.injEq] at hs
      rw [show o = s.pop.2 by rw [hs]] at hf
      unfold St.pop at hf
      split at hf
      · simp [firings] at hf
      · have := (fire_firings _ _ _ _ hf).1
        cases this
    · cases hs
  | frame b =>
    simp only [St.step] at hs
    split at hs
    · simp only [Option.some.injEq] at hs
      rw [show o = (s.frame env b).2 by rw [hs]] at hf ⊢
      unfold St.frame at hf ⊢
      split at hf
      · simp [firings] at hf
      · simp [firings] at hf
      · rename_i m i rest hx
        split at hf
        · simp [firings] at hf
        · split at hf
          · simp [firings] at hf
          · rename_i e he
            obtain ⟨h1, h2⟩ := getItem_mem he
            dsimp only at hf
            split at hf
            · simp [firings] at hf
            · simp [firings] at hf
            · obtain ⟨h3, h4⟩ := fire_firings _ _ _ _ hf
              obtain ⟨h5, h6⟩ := Prod.mk.inj h3
              cases h6
              have h7 : (d, e.1) ∈ issued os := by rw [h5]; exact h.mem h1
              refine ⟨b, e.1, rfl, h7, by simp [seqidOf, hx, h2], ?_⟩
              rw [h4, h5]
    · cases hs

/-! ### Calls that wait for a reply -/

/-- Call `d` waits under sequence id `n`. -/
structure Waits (s : St) (d n : Nat) : Prop where
  entry : (n, d) ∈ s.reqs
  pending : d ∉ s.called

theorem fire_other {s : St} {d d' : Nat} (r : Fired) (h : d ∉ s.called) (hd : d' ≠ d) : d ∉ (s.fire d' r).1.called := by
  unfold St.fire
  split
  · split <;> exact h
  · simp [h, Ne.symm hd]

theorem fire_reqs (s : St) (d : Nat) (r : Fired) : (s.fire d r).1.reqs = s.reqs ∧ (s.fire d r).1.phase = s.phase := by
  unfold St.fire
  split
  · split <;> exact ⟨rfl, rfl⟩
  · exact ⟨rfl, rfl⟩

theorem waits_call {env : Env σ τ} {s : St} {os : List Obs} (h : Inv s os) {d n : Nat} (hw : Waits s d n) (fn : Fn)
    (args : List (Option Val)) : Waits (s.call env fn args).1 d n := by
  have hd : s.made ≠ d := by
    have := h.valueLt hw.entry
    simp only at this
    omega
  unfold St.call
  dsimp only
  split
  · exact ⟨hw.entry, hw.pending⟩
  · simp only [setItem_fresh h.fresh, delItem_fresh h.fresh]
    split
    · refine ⟨?_, fire_other _ hw.pending hd⟩
      rw [(fire_reqs _ _ _).1]
      exact hw.entry
    · split
      · refine ⟨?_, fire_other _ hw.pending hd⟩
        rw [(fire_reqs _ _ _).1]
        exact hw.entry
      · exact ⟨by simp [hw.entry], hw.pending⟩

/-- A waiting call waits on until a frame with its sequence id comes, it is cancelled or the connection is lost. -/
theorem waits_step {env : Env σ τ} {s s' : St} {os o : List Obs} {e : Event} (h : Inv s os) (hs : s.step env e = some (s', o))
    {d n : Nat} (hw : Waits s d n) (hf : ∀ b, e = .frame b → seqidOf env b ≠ some (n : Int)) (hc : e ≠ .cancel d) :
    Waits s' d n ∨ (e = .pop ∧ o = [.fired d .lost]) := by
  cases e with
  | call fn args =>
    simp only [St.step, Option.some.injEq] at hs
    have := waits_call (env := env) h hw fn args
    rw [hs] at this
    exact .inl this
  | cancel d' =>
    simp only [St.step] at hs
    split at hs
    · simp only [Option.some.injEq] at hs
      rw [show s' = (s.cancel d').1 by rw [hs]]
      unfold St.cancel
      split
      · exact .inl hw
      · refine .inl ⟨by rw [(fire_reqs _ _ _).1]; exact hw.entry, fire_other _ hw.pending ?_⟩
        intro hd
        exact hc (by rw [hd])
    · cases hs
  | lose =>
    simp only [St.step] at hs
    split at hs
    · cases hs
      exact .inl ⟨hw.entry, hw.pending⟩
    · cases hs
  | pop =>
    simp only [St.step] at hs
    split at hs
    · simp only [Option.some.injEq] at hs
      unfold St.pop at hs
      split at hs
      · rename_i hn
        rw [List.getLast?_eq_none_iff] at hn
        have := hw.entry
        rw [hn] at this
        cases this
      · rename_i e he
        obtain ⟨h2, h3, h4⟩ := dropLast_props h.keys he
        rcases h3 _ hw.entry with h5 | h5
        · right
          subst h5
          simp only [St.fire, if_neg hw.pending] at hs
          cases hs
          exact ⟨rfl, rfl⟩
        · left
          rw [show s' = ({ s with reqs := s.reqs.dropLast }.fire e.2 .lost).1 by rw [hs]]
          refine ⟨by rw [(fire_reqs _ _ _).1]; exact h5, fire_other _ hw.pending ?_⟩
          intro h6
          have hv := h.values
          rw [List.nodup_map_iff_inj_on (List.Nodup.of_map _ hv)] at hv
          have := hv e (List.mem_of_getLast? he) _ hw.entry h6
          exact h4 (this ▸ h5)
    · cases hs
  | frame b =>
    have hf := hf b rfl
    simp only [St.step] at hs
    split at hs
    · simp only [Option.some.injEq] at hs
      rw [show s' = (s.frame env b).1 by rw [hs]]
      left
      unfold St.frame
      split
      · exact hw
      · exact hw
      · rename_i m i rest hx
        split
        · exact hw
        · split
          · exact hw
          · rename_i e he
            obtain ⟨h1, h2⟩ := getItem_mem he
            have hne : e.1 ≠ n := by
              intro h3
              apply hf
              simp [seqidOf, hx, ← h2, h3]
            have hentry : (n, d) ∈ delItem e.1 s.reqs := by simp [delItem, hw.entry, Ne.symm hne]
            dsimp only
            split
            · exact ⟨hentry, hw.pending⟩
            · exact ⟨hentry, hw.pending⟩
            · refine ⟨by rw [(fire_reqs _ _ _).1]; exact hentry, fire_other _ hw.pending ?_⟩
              intro h6
              have hv := h.values
              rw [List.nodup_map_iff_inj_on (List.Nodup.of_map _ hv)] at hv
              have := hv e h1 _ hw.entry h6
              exact hne (congrArg Prod.fst this)
    · cases hs

theorem waits_run {env : Env σ τ} : ∀ {es : List Event} {s s' : St} {os₀ os : List Obs} {d n : Nat}, Inv s os₀ →
    s.run env es = some (s', os) → Waits s d n → NoAnswer env es n → .cancel d ∉ es →
    Waits s' d n ∨ (d, .lost) ∈ firings os
  | [], s, s', os₀, os, d, n, h, hr, hw, hn, hc => by
    cases hr
    exact .inl hw
  | e :: es, s, s', os₀, os, d, n, h, hr, hw, hn, hc => by
    obtain ⟨s₁, o, os', h1, h2, rfl⟩ := run_cons hr
    rcases waits_step h h1 hw (fun b hb => hn b (by simp [hb])) (fun h => hc (by simp [h])) with h3 | ⟨h3, h4⟩
    · rcases waits_run (inv_step h h1) h2 h3 (fun b hb => hn b (by simp [hb])) (fun h => hc (by simp [h])) with h5 | h5
      · exact .inl h5
      · exact .inr (by simp [firings_append, h5])
    · right
      rw [firings_append, h4]
      simp [firings]

/-- A call that was issued and not fired at once waits. -/
theorem waits_issued {env : Env σ τ} {s s' : St} {os o : List Obs} (h : Inv s os) {fn : Fn} {args : List (Option Val)}
    (hs : s.step env (.call fn args) = some (s', o)) {d n : Nat} (hi : (d, n) ∈ issued o) (hf : d ∉ (firings o).map (·.1)) :
    Waits s' d n := by
  simp only [St.step, Option.some.injEq] at hs
  have hi' := inv_call (env := env) h fn args
  rw [hs] at hi'
  have hd : s.made ∉ s.called := fun hm => by
    have := h.made _ hm
    omega
  unfold St.call at hs
  dsimp only at hs
  split at hs
  · cases hs
    simp [issued] at hi
  · simp only [setItem_fresh h.fresh, delItem_fresh h.fresh] at hs
    split at hs
    · simp only [St.fire, if_neg hd] at hs
      cases hs
      simp [issued] at hi
      simp [firings] at hf
      omega
    · split at hs
      · simp only [St.fire, if_neg hd] at hs
        cases hs
        simp [issued] at hi
        simp [firings] at hf
        omega
      · cases hs
        simp [issued] at hi
        obtain ⟨rfl, rfl⟩ := hi
        exact ⟨by simp, hd⟩

/-- A call in an execution: made after the events `es₁`, answered with `Deferred` `d` and sequence id `n`, not fired at once (not `oneway`
and sent), and followed by the events `es₂`. -/
structure Called (env : Env σ τ) (es₁ es₂ : List Event) (s : St) (os : List Obs) (d n : Nat) : Prop where
  run : ∃ s₁ os₁ s₂ o fn args, ({} : St).run env es₁ = some (s₁, os₁) ∧ s₁.step env (.call fn args) = some (s₂, o) ∧
    s₂.run env es₂ = some (s, os) ∧ (d, n) ∈ issued o ∧ d ∉ (firings o).map (·.1)

theorem Called.waits {env : Env σ τ} {es₁ es₂ : List Event} {s : St} {os : List Obs} {d n : Nat} (hc : Called env es₁ es₂ s os d n)
    (hna : NoAnswer env es₂ n) (hx : .cancel d ∉ es₂) : (∃ os₀, Inv s os₀) ∧ (Waits s d n ∨ (d, .lost) ∈ firings os) := by
  obtain ⟨s₁, os₁, s₂, o, fn, args, h1, h2, h3, h4, h5⟩ := hc.run
  have hi := inv_run inv_init h1
  have hi' := inv_step hi h2
  exact ⟨⟨_, inv_run hi' h3⟩, waits_run hi' h3 (waits_issued hi h2 h4 h5) hna hx⟩

theorem find_serves {fns : List Fn} {name : PyStr} {fn : Fn} (h : Serves fns name fn) (ho : fn.oneway = false) :
    recvMethod fns name = some fn := by
  obtain ⟨h1, pre, post, h2, h3⟩ := h
  unfold recvMethod
  rw [h2, List.reverse_append, List.reverse_cons, List.append_assoc, List.find?_append]
  rw [List.find?_eq_none.2 (by intro g hg; have := h3 g (by simpa using hg); simp [this])]
  simp [h1, ho]

theorem recv_eq {p : Proto σ} {sch : Schema} {mode : Mode} {fuel : Nat} {fn : Fn} {s i : σ} {b rest : Bytes} {m : PyStr × Int × Int}
    (h : exec p.readMessageBegin s b = some ((.ok m, i), rest)) :
    exec (recv p sch mode fuel fn) s b = exec (recvBody p sch mode fuel fn m.2.1) i rest := by
  unfold recv
  rw [exec_bind, h, Res.andThen_ok]
  rfl

theorem getItem_of_mem {m : List (Nat × Nat)} (hk : (m.map (·.1)).Nodup) {n d : Nat} (h : (n, d) ∈ m) : getItem n m = some (n, d) := by
  unfold getItem
  cases hf : m.find? fun e => (e.1 : Int) = (n : Int) with
  | none =>
    have := List.find?_eq_none.1 hf _ h
    simp at this
  | some e =>
    have h1 := List.mem_of_find?_eq_some hf
    have h2 := List.find?_some hf
    rw [List.nodup_map_iff_inj_on (List.Nodup.of_map _ hk)] at hk
    rw [hk e h1 _ h (by simp at h2; omega)]

/-- A frame whose sequence id belongs to a waiting call. -/
theorem waits_frame {env : Env σ τ} {s : St} {os : List Obs} (h : Inv s os) {d n : Nat} (hw : Waits s d n) (hp : s.phase = .up)
    {fn : Fn} {name : PyStr} {type : Int} {b rest' : Bytes} {i i' : σ} {r : Result} {rest : Bytes}
    (hfn : recvMethod env.fns name = some fn)
    (hh : exec env.p.readMessageBegin env.s₀ b = some ((.ok (name, type, (n : Int)), i), rest))
    (hr : exec (recv env.p env.sch env.mode env.fuel fn) env.s₀ b = some ((.ok r, i'), rest')) :
    ∃ s', s.step env (.frame b) = some (s', [.fired d (.reply r)]) := by
  rw [recv_eq hh] at hr
  simp only [St.step, if_pos hp, St.frame, hh, hfn, getItem_of_mem h.keys hw.entry]
  simp only at hr
  rw [hr]
  simp [St.fire, hw.pending]

/-- C44: the reply to a call, sent by a peer with any compatible schema, fires the `Deferred` of this call with what the struct
means, and no other. The call was not answered nor cancelled before. -/
theorem twisted_reply {env : Env σ τ} {F : Format} {Idle : σ → Prop} {sl cl : Option Int} (hp : Receives env.p F Idle sl cl)
    (hidle : Idle env.s₀) {es₁ es₂ : List Event} {s : St} {os : List Obs} {d n : Nat} (hc : Called env es₁ es₂ s os d n)
    (hna : NoAnswer env es₂ n) (hx : .cancel d ∉ es₂) (hup : s.phase = .up) (hnl : (d, .lost) ∉ firings os) (fn : Fn)
    (hfn : Serves env.fns fn.name fn) (ho : fn.oneway = false) (hres : ResultOK env.sch fn) (sch₁ : Schema) (type : Nat) (ht : type ≠ 3)
    (hh : HeaderOK sl fn.name type n) (v : Val) (hv : BodyOK sl cl env.mode sch₁ env.sch fn.resultId v env.fuel) (rest : Bytes) :
    ∃ r s', Means env.sch fn (attrsOf (project sch₁ env.sch (.struct fn.resultId) v)) r ∧
      s.step env (.frame (F.header fn.name type n ++ (F.value sch₁ (.struct fn.resultId) v ++ rest)))
        = some (s', [.fired d (.reply r)]) := by
  obtain ⟨⟨os₀, hi⟩, hw | hl⟩ := hc.waits hna hx
  · obtain ⟨r, s', _, hm, he⟩ := recv_reply hp env.mode sch₁ env.sch env.fuel fn hres env.s₀ hidle fn.name type n hh ht v hv
    obtain ⟨s'', h⟩ := waits_frame hi hw hup (find_serves hfn ho) (hp.header fn.name type n env.s₀ _ hidle hh) (he rest)
    exact ⟨r, s'', hm, h⟩
  · exact (hnl hl).elim

/-- C44: an `EXCEPTION` message fires the `Deferred` of the call with the `TApplicationException` it carries. -/
theorem twisted_exception {env : Env σ τ} {F : Format} {Idle : σ → Prop} {sl cl : Option Int} (hp : Receives env.p F Idle sl cl)
    (hidle : Idle env.s₀) {es₁ es₂ : List Event} {s : St} {os : List Obs} {d n : Nat} (hc : Called env es₁ es₂ s os d n)
    (hna : NoAnswer env es₂ n) (hx : .cancel d ∉ es₂) (hup : s.phase = .up) (hnl : (d, .lost) ∉ firings os) (fn : Fn)
    (hfn : Serves env.fns fn.name fn) (ho : fn.oneway = false) (hh : HeaderOK sl fn.name 3 n) (x : AppExc) (hax : AppOK x)
    (hl : ∀ m ∈ x.message, Within sl (utf8Len m)) (hf : 5 ≤ env.fuel) (rest : Bytes) :
    ∃ s', s.step env (.frame (F.header fn.name 3 n ++ (F.app x ++ rest)))
      = some (s', [.fired d (.reply (.application ⟨some (x.type.getD 0), x.message⟩))]) := by
  obtain ⟨⟨os₀, hi⟩, hw | hlost⟩ := hc.waits hna hx
  · obtain ⟨s', _, he⟩ := recv_exception hp env.mode env.sch env.fuel fn env.s₀ hidle fn.name n hh x hax hl hf
    exact waits_frame hi hw hup (find_serves hfn ho) (hp.header fn.name 3 n env.s₀ _ hidle hh) (he rest)
  · exact (hnl hlost).elim

/-- C44: a frame with a sequence id that no waiting call has fires nothing. -/
theorem twisted_unknown (env : Env σ τ) (es : List Event) (s s' : St) (os o : List Obs) (b : Bytes)
    (hr : ({} : St).run env es = some (s, os)) (hs : s.step env (.frame b) = some (s', o))
    (hn : ∀ d n, (d, n) ∈ issued os → seqidOf env b ≠ some (n : Int)) : firings o = [] := by
  have h := inv_run inv_init hr
  rw [List.nil_append] at h
  simp only [St.step] at hs
  split at hs
  · simp only [Option.some.injEq] at hs
    rw [show o = (s.frame env b).2 by rw [hs]]
    unfold St.frame
    split
    · rfl
    · rfl
    · rename_i m i rest hx
      split
      · rfl
      · split
        · rfl
        · rename_i e he
          obtain ⟨h1, h2⟩ := getItem_mem he
          exact (hn _ _ (h.mem h1) (by simp [seqidOf, hx, h2])).elim
  · cases hs

/-- C44: when `connectionLost` has ended, a call that was not answered and not cancelled has failed, because the connection was lost. -/
theorem twisted_lost_partial (env : Env σ τ) {es₁ es₂ : List Event} {s : St} {os : List Obs} {d n : Nat}
    (hc : Called env es₁ es₂ s os d n) (hna : NoAnswer env es₂ n) (hx : .cancel d ∉ es₂) (hg : s.phase = .gone) :
    (d, .lost) ∈ firings os := by
  obtain ⟨⟨os₀, hi⟩, hw | hlost⟩ := hc.waits hna hx
  · have := hw.entry
    rw [hi.gone hg] at this
    cases this
  · exact hlost

/-- C44: when `connectionLost` has ended and no received frame has raised an exception, every `Deferred` has been fired (once, by
`twisted_once`). -/
theorem twisted_all_fired_partial (env : Env σ τ) (es : List Event) (s : St) (os : List Obs) (hr : ({} : St).run env es = some (s, os))
    (hg : s.phase = .gone) (hx : ∀ e, .raised e ∉ os) (hh : .hangs ∉ os) :
    ∀ d n, (d, n) ∈ issued os → d ∈ (firings os).map (·.1) := by
  have h := inv_run inv_init hr
  rw [List.nil_append] at h
  intro d n hd
  rcases h.account hx hh _ hd with h1 | h1
  · rw [h.gone hg] at h1
    cases h1
  · exact (h.called d).1 h1

/-- C44: `connectionLost` ends after one iteration for each entry if no new calls are made meanwhile. -/
theorem twisted_lost_ends (env : Env σ τ) (s : St) (hp : s.phase = .losing) :
    ∃ s' os, s.run env (List.replicate (s.reqs.length + 1) .pop) = some (s', os) ∧ s'.phase = .gone := by
  generalize hn : s.reqs.length = n
  induction n generalizing s with
  | zero =>
    rw [List.length_eq_zero_iff] at hn
    refine ⟨{ s with phase := .gone }, [], ?_, rfl⟩
    simp [St.run, St.step, hp, St.pop, hn]
  | succ n ih =>
    have hl : ∃ e, s.reqs.getLast? = some e := by
      cases h : s.reqs.getLast? with
      | none => rw [List.getLast?_eq_none_iff] at h; rw [h] at hn; cases hn
      | some e => exact ⟨e, rfl⟩
    obtain ⟨e, he⟩ := hl
    have hstep : s.step env .pop = some ({ s with reqs := s.reqs.dropLast }.fire e.2 .lost) := by
      simp [St.step, hp, St.pop, he]
    obtain ⟨s', os, h1, h2⟩ := ih ({ s with reqs := s.reqs.dropLast }.fire e.2 .lost).1
      (by rw [(fire_reqs _ _ _).2]; exact hp) (by rw [(fire_reqs _ _ _).1]; simp [hn])
    refine ⟨s', ({ s with reqs := s.reqs.dropLast }.fire e.2 .lost).2 ++ os, ?_, h2⟩
    rw [List.replicate_succ]
    simp only [St.run, hstep, h1]

/-- C44: a client method called after that raises, and nothing else happens. -/
theorem twisted_refused (env : Env σ τ) (s : St) (hg : s.phase = .gone) (fn : Fn) (args : List (Option Val)) :
    s.step env (.call fn args) = some ({ s with seqid := s.seqid + 1 }, [.refused .attributeError]) := by
  simp [St.step, St.call, hg]

/-! ### What is sent -/

theorem wbuf_step {env : Env σ τ} {s s' : St} {os o : List Obs} {e : Event} (hi : Inv s os) (hs : s.step env e = some (s', o)) (hw : s.wbuf = [])
    (ha : AllSent o) : s'.wbuf = [] := by
  have hfire : ∀ (s : St) d r, (s.fire d r).1.wbuf = s.wbuf := by
    intro s d r
    unfold St.fire
    split
    · split <;> rfl
    · rfl
  cases e with
  | call fn args =>
    simp only [St.step, Option.some.injEq] at hs
    unfold St.call at hs
    dsimp only at hs
    split at hs
    · cases hs; exact hw
    · split at hs
      · rename_i e _ _ _
        have hd : s.made ∉ s.called := fun hm => by
          have := hi.made _ hm
          omega
        simp only [St.fire, if_neg hd] at hs
        cases hs
        exact (ha s.made e (by simp [firings])).elim
      · split at hs
        · cases hs; rw [hfire]
        · cases hs; rfl
  | cancel d =>
    simp only [St.step] at hs
    split at hs
    · simp only [Option.some.injEq] at hs
      unfold St.cancel at hs
      split at hs
      · cases hs; exact hw
      · rw [show s' = ({ s with suppress := d :: s.suppress }.fire d .cancelled).1 by rw [hs], hfire]; exact hw
    · cases hs
  | lose =>
    simp only [St.step] at hs
    split at hs
    · cases hs; exact hw
    · cases hs
  | pop =>
    simp only [St.step] at hs
    split at hs
    · simp only [Option.some.injEq] at hs
      unfold St.pop at hs
      split at hs
      · cases hs; exact hw
      · rename_i e _
        rw [show s' = ({ s with reqs := s.reqs.dropLast }.fire e.2 .lost).1 by rw [hs], hfire]; exact hw
    · cases hs
  | frame b =>
    simp only [St.step] at hs
    split at hs
    · simp only [Option.some.injEq] at hs
      rw [show s' = (s.frame env b).1 by rw [hs]]
      unfold St.frame
      split
      · exact hw
      · exact hw
      · split
        · exact hw
        · split
          · exact hw
          · dsimp only
            split
            · exact hw
            · exact hw
            · rw [hfire]; exact hw
    · cases hs

theorem allSent_append {a b : List Obs} (h : AllSent (a ++ b)) : AllSent a ∧ AllSent b :=
  ⟨fun d e hm => h d e (by simp [firings_append, hm]), fun d e hm => h d e (by simp [firings_append, hm])⟩

theorem wbuf_run {env : Env σ τ} : ∀ {es : List Event} {s s' : St} {os₀ os : List Obs}, Inv s os₀ → s.run env es = some (s', os) →
    s.wbuf = [] → AllSent os → s'.wbuf = []
  | [], _, _, _, _, _, hr, hw, _ => by
    cases hr
    exact hw
  | e :: es, _, _, _, _, h, hr, hw, ha => by
    obtain ⟨s₁, o, os', h1, h2, rfl⟩ := run_cons hr
    have := allSent_append ha
    exact wbuf_run (inv_step h h1) h2 (wbuf_step h h1 hw this.1) this.2

theorem seqid_step {env : Env σ τ} {s s' : St} {o : List Obs} {e : Event} (hs : s.step env e = some (s', o)) : s'.seqid ≤ s.seqid + 1 := by
  have hfire : ∀ (s : St) d r, (s.fire d r).1.seqid = s.seqid := by
    intro s d r
    unfold St.fire
    split
    · split <;> rfl
    · rfl
  cases e with
  | call fn args =>
    simp only [St.step, Option.some.injEq] at hs
    rw [show s' = (s.call env fn args).1 by rw [hs]]
    unfold St.call
    dsimp only
    split
    · exact Nat.le_refl _
    · split
      · dsimp only
        rw [hfire]
        exact Nat.le_refl _
      · split
        · dsimp only
          rw [hfire]
          exact Nat.le_refl _
        · exact Nat.le_refl _
  | cancel d =>
    simp only [St.step] at hs
    split at hs
    · simp only [Option.some.injEq] at hs
      rw [show s' = (s.cancel d).1 by rw [hs]]
      unfold St.cancel
      split
      · exact Nat.le_succ _
      · rw [hfire]; exact Nat.le_succ _
    · cases hs
  | lose =>
    simp only [St.step] at hs
    split at hs
    · cases hs; exact Nat.le_succ _
    · cases hs
  | pop =>
    simp only [St.step] at hs
    split at hs
    · simp only [Option.some.injEq] at hs
      rw [show s' = s.pop.1 by rw [hs]]
      unfold St.pop
      split
      · exact Nat.le_succ _
      · rw [hfire]; exact Nat.le_succ _
    · cases hs
  | frame b =>
    simp only [St.step] at hs
    split at hs
    · simp only [Option.some.injEq] at hs
      rw [show s' = (s.frame env b).1 by rw [hs]]
      unfold St.frame
      split
      · exact Nat.le_succ _
      · exact Nat.le_succ _
      · split
        · exact Nat.le_succ _
        · split
          · exact Nat.le_succ _
          · dsimp only
            split
            · exact Nat.le_succ _
            · exact Nat.le_succ _
            · rw [hfire]; exact Nat.le_succ _
    · cases hs

theorem seqid_run {env : Env σ τ} : ∀ {es : List Event} {s s' : St} {os : List Obs}, s.run env es = some (s', os) →
    s'.seqid ≤ s.seqid + es.length
  | [], _, _, _, hr => by
    cases hr
    simp
  | e :: es, _, _, _, hr => by
    obtain ⟨s₁, o, os', h1, h2, rfl⟩ := run_cons hr
    have := seqid_step h1
    have := seqid_run h2
    simp only [List.length_cons]
    omega

theorem message_type (fn : Fn) : (if fn.oneway then TMessageType.ONEWAY else TMessageType.CALL) = ((if fn.oneway then 4 else 1 : Nat) : Int) := by
  cases fn.oneway <;> rfl

theorem call_sends {env : Env σ τ} {F : Format} {Idle : τ → Prop} (hp : Sends env.q F Idle) (hidle : Idle env.t₀) {s : St}
    {os : List Obs} (hi : Inv s os) (hg : s.phase ≠ .gone) (hq : (s.seqid + 1 : Int) < 2 ^ 31) (fn : Fn) (hn : TextOK fn.name)
    (hs : SchemaOK env.mode env.sch) (args : List (Option Val)) (hv : WT env.sch (.struct fn.argsId) (.struct args))
    (hd : env.mode = .gen → structDepth (.struct args) ≤ 64) :
    ∃ s', s.step env (.call fn args) = some (s', .issued s.made (s.seqid + 1) ::
      .string (s.wbuf ++ (F.header fn.name (if fn.oneway then 4 else 1) (s.seqid + 1 : Nat) ++ F.value env.sch (.struct fn.argsId) (.struct args))) ::
        (if fn.oneway then [.fired s.made .sent] else [])) := by
  obtain ⟨t, ht, _⟩ := hp fn.name (if fn.oneway then 4 else 1) ((s.seqid + 1 : Nat) : Int) env.sch env.mode fn.argsId (.struct args) env.t₀ s.wbuf hidle hn
    (by cases fn.oneway <;> simp [IsMessageType]) (by constructor <;> omega) hs hv hd
  have hd : s.made ∉ s.called := fun hm => by
    have := hi.made _ hm
    omega
  simp only [St.step, St.call, if_neg hg, message_type, ht]
  cases fn.oneway with
  | true => simp [St.fire, hd]
  | false => simp

/-- C44: a client method sends one message, with the sequence id its `Deferred` is entered under; of a `oneway` function the `Deferred`
is fired at once. All calls made before could be sent. -/
theorem twisted_request {env : Env σ τ} {F : Format} {Idle : τ → Prop} (hp : Sends env.q F Idle) (hidle : Idle env.t₀)
    (es : List Event) (s : St) (os : List Obs) (hr : ({} : St).run env es = some (s, os)) (ha : AllSent os) (hg : s.phase ≠ .gone)
    (hq : es.length + 1 < 2 ^ 31) (fn : Fn) (hn : TextOK fn.name) (hs : SchemaOK env.mode env.sch) (args : List (Option Val))
    (hv : WT env.sch (.struct fn.argsId) (.struct args)) (hd : env.mode = .gen → structDepth (.struct args) ≤ 64) :
    ∃ s' d n, s.step env (.call fn args) = some (s', .issued d n ::
      .string (F.header fn.name (if fn.oneway then 4 else 1) (n : Nat) ++ F.value env.sch (.struct fn.argsId) (.struct args)) ::
        (if fn.oneway then [.fired d .sent] else [])) := by
  have hi := inv_run inv_init hr
  have hlen := seqid_run hr
  obtain ⟨s', h⟩ := call_sends hp hidle hi hg (by simp only [Nat.zero_add] at hlen; omega) fn hn hs args hv hd
  rw [wbuf_run inv_init hr rfl ha, List.nil_append] at h
  exact ⟨s', _, _, h⟩

/-- C44: a call whose arguments cannot be written fails its `Deferred` at once, with the exception; nothing is sent. -/
theorem twisted_unsent (env : Env σ τ) (es : List Event) (s : St) (os : List Obs) (hr : ({} : St).run env es = some (s, os))
    (hg : s.phase ≠ .gone) (fn : Fn) (args : List (Option Val)) (e : Exc) (t : τ) (b : Bytes)
    (he : message env.q fn.name (if fn.oneway then TMessageType.ONEWAY else TMessageType.CALL) ((s.seqid + 1 : Nat) : Int)
        (writeVal env.q.wr env.sch env.mode (.struct fn.argsId) (.struct args)) env.t₀ s.wbuf = (.error e, t, b)) :
    ∃ s' d n, s.step env (.call fn args) = some (s', [.issued d n, .fired d (.unsent e)]) ∧ s'.reqs = s.reqs ∧ s'.wbuf = b := by
  have hi := inv_run inv_init hr
  have hd : s.made ∉ s.called := fun hm => by
    have := hi.made _ hm
    omega
  refine ⟨{ s with seqid := s.seqid + 1, made := s.made + 1, reqs := s.reqs, wbuf := b, called := s.made :: s.called }, s.made, s.seqid + 1, ?_,
    rfl, rfl⟩
  simp only [St.step, St.call, if_neg hg, he, St.fire, if_neg hd, setItem_fresh hi.fresh, delItem_fresh hi.fresh]

theorem call_phase (env : Env σ τ) (s : St) (fn : Fn) (args : List (Option Val)) : (s.call env fn args).1.phase = s.phase := by
  unfold St.call
  dsimp only
  split
  · rfl
  · split
    · dsimp only
      rw [(fire_reqs _ _ _).2]
    · split
      · dsimp only
        rw [(fire_reqs _ _ _).2]
      · rfl

/-- C44: if the application calls again whenever a call fails, `connectionLost` does not end: however often its loop has run, the state
is as before. -/
theorem twisted_lost_retried {env : Env σ τ} {F : Format} {Idle : τ → Prop} (hp : Sends env.q F Idle) (hidle : Idle env.t₀)
    (fn : Fn) (hn : TextOK fn.name) (ho : fn.oneway = false) (hs : SchemaOK env.mode env.sch) (args : List (Option Val))
    (hv : WT env.sch (.struct fn.argsId) (.struct args)) (hd : env.mode = .gen → structDepth (.struct args) ≤ 64) (k : Nat) :
    ∀ (es : List Event) (s : St) (os : List Obs), ({} : St).run env es = some (s, os) → s.phase = .losing → s.reqs ≠ [] →
      es.length + 2 * k < 2 ^ 31 →
      ∃ s' os', s.run env (List.replicate k [.pop, .call fn args]).flatten = some (s', os') ∧ s'.phase = .losing ∧ s'.reqs ≠ [] := by
  intro es s os hr hl hne hk
  have hi := inv_run inv_init hr
  have hlen := seqid_run hr
  simp only [Nat.zero_add] at hlen
  have hk' : s.seqid + 2 * k < 2 ^ 31 := by omega
  clear hlen hk hr
  generalize [] ++ os = os₁ at hi
  clear os
  induction k generalizing s os₁ with
  | zero => exact ⟨s, [], rfl, hl, hne⟩
  | succ k ih =>
    have hlast : ∃ e, s.reqs.getLast? = some e := by
      cases h : s.reqs.getLast? with
      | none => exact (hne (List.getLast?_eq_none_iff.1 h)).elim
      | some e => exact ⟨e, rfl⟩
    obtain ⟨e, he⟩ := hlast
    have hex : ∃ s₁ o₁, s.step env .pop = some (s₁, o₁) ∧ s₁.phase = .losing := by
      refine ⟨({ s with reqs := s.reqs.dropLast }.fire e.2 .lost).1, ({ s with reqs := s.reqs.dropLast }.fire e.2 .lost).2, ?_, ?_⟩
      · simp [St.step, hl, St.pop, he]
      · rw [(fire_reqs _ _ _).2]
        exact hl
    obtain ⟨s₁, o₁, hpop, h1⟩ := hex
    have hi₁ := inv_step hi hpop
    have hq := seqid_step hpop
    obtain ⟨s₂, h2⟩ := call_sends hp hidle hi₁ (by rw [h1]; decide) (by omega) fn hn hs args hv hd
    have hw := waits_issued hi₁ h2 (d := s₁.made) (n := s₁.seqid + 1) (by simp [issued, ho]) (by simp [firings, ho])
    have h3 : s₂.phase = .losing := by
      simp only [St.step, Option.some.injEq] at h2
      rw [show s₂ = (s₁.call env fn args).1 by rw [h2], call_phase]
      exact h1
    have hq' := seqid_step h2
    obtain ⟨s', os', h4, h5, h6⟩ := ih s₂ h3 (fun h => by have := hw.entry; rw [h] at this; cases this) (by omega) _ (inv_step hi₁ h2)
    refine ⟨s', _, by
      rw [List.replicate_succ, List.flatten_cons]
      simp only [List.cons_append, List.nil_append, St.run, hpop, h2, h4]
      rfl, h5, h6⟩

end

/-! ### Executions -/

section
open SampleService

/-- A client of the sample service with the binary protocol. -/
def sampleClient : Env Binary.St Binary.St where
  p := Binary.proto {}
  s₀ := {}
  q := Binary.proto {}
  t₀ := {}
  sch := sch
  fuel := 100
  fns := fns


theorem of_check {env : Env Binary.St Binary.St} {es : List Event} (P : St → List Obs → Prop) [∀ s os, Decidable (P s os)]
    (h : (match ({} : St).run env es with | some (s, os) => decide (P s os) | none => false) = true) :
    ∃ s os, ({} : St).run env es = some (s, os) ∧ P s os := by
  cases hr : ({} : St).run env es with
  | none => rw [hr] at h; cases h
  | some r => rw [hr] at h; exact ⟨r.1, r.2, rfl, by simpa using h⟩

/-- The reply to `get(7)` with sequence id `n`. -/
def getReply (n : Nat) : Bytes := Format.binary.header get.name 2 n ++ Format.binary.value sch (.struct 2) seven

/-- Two calls and a `oneway` call; the replies come in the other order. -/
example : ∃ s os, ({} : St).run sampleClient [.call get args, .call log args, .call get args, .frame (getReply 3), .frame (getReply 1)]
      = some (s, os) ∧
    issued os = [(0, 1), (1, 2), (2, 3)] ∧ (firings os).map (·.1) = [1, 2, 0] ∧ s.reqs = [] ∧ (strings os).length = 3 :=
  of_check _ (by decide +kernel)

/-- A lost connection: the calls fail, the last one first. Cancelling and calling in between. -/
example : ∃ s os, ({} : St).run sampleClient [.call get args, .call clear [], .call get args, .cancel 1, .lose, .pop, .call get args,
      .pop, .pop, .pop, .pop, .call get args] = some (s, os) ∧
    s.phase = .gone ∧ issued os = [(0, 1), (1, 2), (2, 3), (3, 4)] ∧ (firings os).map (·.1) = [1, 2, 3, 0] :=
  of_check _ (by decide +kernel)

/-- The hypotheses of `twisted_reply` and `twisted_lost_partial` can be met: a call after which another call was made and answered. -/
theorem called_sample : ∃ s os, Called sampleClient [] [.call get args, .frame (getReply 2)] s os 0 1 ∧
    NoAnswer sampleClient [.call get args, .frame (getReply 2)] 1 ∧ s.phase = .up ∧ (firings os).map (·.1) = [1] := by
  obtain ⟨s, os, hr, h1, h2, h3⟩ := of_check (env := sampleClient) (es := [.call get args, .call get args, .frame (getReply 2)])
    (fun s os => s.phase = .up ∧ (firings os).map (·.1) = [1] ∧ issued os = [(0, 1), (1, 2)]) (by decide +kernel)
  obtain ⟨s₁, o, os', g1, g2, rfl⟩ := run_cons hr
  have hstep : s₁.phase = .up ∧ issued o = [(0, 1)] ∧ firings o = [] := by
    simp only [St.step, Option.some.injEq] at g1
    rw [show s₁ = (({} : St).call sampleClient get args).1 by rw [g1], show o = (({} : St).call sampleClient get args).2 by rw [g1]]
    obtain ⟨s', h⟩ := call_sends (env := sampleClient) (Binary.writes {} rfl) (by exact rfl) inv_init (by decide) (by decide) get
      (by unfold SampleService.get; decide) (sch_ok .gen) args (args_sendable .gen).typed (args_sendable .gen).depth
    simp only [St.step, Option.some.injEq] at h
    rw [h]
    have : s' = (({} : St).call sampleClient get args).1 := by rw [h]
    rw [this]
    exact ⟨by decide +kernel, by simp [issued, SampleService.get], by simp [firings, SampleService.get]⟩
  refine ⟨s, os', ⟨_, _, _, _, _, _, rfl, g1, g2, by rw [hstep.2.1]; simp, by rw [hstep.2.2]; simp⟩, ?_, h1, ?_⟩
  · intro b hb
    simp only [List.mem_cons, reduceCtorEq, Event.frame.injEq, List.not_mem_nil, or_false, false_or] at hb
    subst hb
    decide +kernel
  · rw [firings_append, hstep.2.2] at h2
    exact h2

section
variable {σ τ : Type} [HasDepth σ] [HasDepth τ]

/-- After the end of `connectionLost` nothing is fired, except by `cancel`. -/
theorem gone_run {env : Env σ τ} : ∀ {es : List Event} {s s' : St} {os : List Obs}, s.phase = .gone → s.run env es = some (s', os) →
    ∀ d r, (d, r) ∈ firings os → r = .cancelled
  | [], _, _, _, _, hr => by
    cases hr
    simp [firings]
  | e :: es, s, _, _, hg, hr => by
    obtain ⟨s₁, o, os', h1, h2, rfl⟩ := run_cons hr
    have : s₁.phase = .gone ∧ ∀ d r, (d, r) ∈ firings o → r = .cancelled := by
      cases e with
      | call fn args =>
        rw [twisted_refused env s hg] at h1
        cases h1
        exact ⟨hg, by simp [firings]⟩
      | cancel d =>
        simp only [St.step] at h1
        split at h1
        · simp only [Option.some.injEq] at h1
          unfold St.cancel at h1
          split at h1
          · cases h1
            exact ⟨hg, by simp [firings]⟩
          · rw [show s₁ = ({ s with suppress := d :: s.suppress }.fire d .cancelled).1 by rw [h1],
              show o = ({ s with suppress := d :: s.suppress }.fire d .cancelled).2 by rw [h1]]
            refine ⟨by rw [(fire_reqs _ _ _).2]; exact hg, fun d' r hm => ?_⟩
            exact (Prod.mk.inj (fire_firings _ _ _ _ hm).1).2
        · cases h1
      | _ => simp [St.step, hg] at h1
    intro d r hm
    rw [firings_append, List.mem_append] at hm
    rcases hm with h | h
    · exact this.2 d r h
    · exact gone_run this.1 h2 d r h

end

/-- C44 fails for a reply that cannot be read: `recv_*` removes the `Deferred` before it reads the reply. Here the reply to the first
call ends in the middle. The exception makes Twisted close the connection, but the `Deferred` is never fired (unless the user cancels
it): the caller waits forever. -/
theorem twisted_never : ∃ es s os, ({} : St).run sampleClient es = some (s, os) ∧ s.phase = .gone ∧ (0, 1) ∈ issued os ∧
    ∀ es' s' os', s.run sampleClient es' = some (s', os') → ∀ r, (0, r) ∈ firings (os ++ os') → r = .cancelled := by
  obtain ⟨s, os, hr, h1, h2, h3⟩ := of_check (env := sampleClient)
    (es := [.call get args, .frame (Format.binary.header get.name 2 1 ++ [11, 0, 0]), .lose, .pop])
    (fun s os => s.phase = .gone ∧ issued os = [(0, 1)] ∧ (firings os).map (·.1) = []) (by decide +kernel)
  refine ⟨_, s, os, hr, h1, by rw [h2]; simp, ?_⟩
  intro es' s' os' hr' r hm
  rw [firings_append, List.map_eq_nil_iff.1 h3, List.nil_append] at hm
  exact gone_run h1 hr' _ _ hm

/-- C44: a failed call leaves what was written of its message in the buffer; the message of the next call comes after it, in the same
frame. -/
theorem twisted_polluted {σ τ : Type} [HasDepth σ] [HasDepth τ] {env : Env σ τ} {F : Format} {Idle : τ → Prop} (hp : Sends env.q F Idle)
    (hidle : Idle env.t₀) (es : List Event) (s s₁ : St) (os : List Obs) (hr : ({} : St).run env es = some (s, os)) (hg : s.phase ≠ .gone)
    (hq : es.length + 2 < 2 ^ 31) (fn fn' : Fn) (args args' : List (Option Val)) (e : Exc) (d n : Nat)
    (hf : s.step env (.call fn args) = some (s₁, [.issued d n, .fired d (.unsent e)])) (hn : TextOK fn'.name)
    (hs : SchemaOK env.mode env.sch) (hv : WT env.sch (.struct fn'.argsId) (.struct args'))
    (hd : env.mode = .gen → structDepth (.struct args') ≤ 64) :
    ∃ s' o, s₁.step env (.call fn' args') = some (s', o) ∧
      strings o = [s₁.wbuf ++ (F.header fn'.name (if fn'.oneway then 4 else 1) (s₁.seqid + 1 : Nat) ++
        F.value env.sch (.struct fn'.argsId) (.struct args'))] := by
  have hi := inv_run inv_init hr
  have hlen := seqid_run hr
  have hlen' := seqid_step hf
  have hg' : s₁.phase ≠ .gone := by
    simp only [St.step, Option.some.injEq] at hf
    unfold St.call at hf
    simp only [if_neg hg] at hf
    split at hf
    · rw [show s₁ = (St.fire _ s.made (.unsent _)).1 from (congrArg Prod.fst hf).symm, (fire_reqs _ _ _).2]
      exact hg
    · split at hf
      · simp at hf
      · simp at hf
  obtain ⟨s', h⟩ := call_sends hp hidle (inv_step hi hf) hg' (by simp only [Nat.zero_add] at hlen; omega) fn' hn hs args' hv hd
  refine ⟨s', _, h, ?_⟩
  cases fn'.oneway <;> simp [strings]

/-- It happens: the first argument is written, the second cannot be. -/
example : ∃ s os, ({} : St).run sampleClient [.call get [some (.int 7), some (.int 8)], .call clear []] = some (s, os) ∧
    (firings os).map (·.1) = [0] ∧
    ∀ b ∈ strings os, ∃ pre, pre.length = 25 ∧ b = pre ++ (Format.binary.header clear.name 1 2 ++ [0]) := by
  obtain ⟨s, os, hr, h1, h2⟩ := of_check (env := sampleClient) (es := [.call get [some (.int 7), some (.int 8)], .call clear []])
    (fun s os => (firings os).map (·.1) = [0] ∧
      (strings os).all fun b => b.length > 25 && b.drop 25 == Format.binary.header clear.name 1 2 ++ [0]) (by decide +kernel)
  refine ⟨s, os, hr, h1, fun b hb => ?_⟩
  have := List.all_eq_true.1 h2 b hb
  simp only [gt_iff_lt, Bool.and_eq_true, decide_eq_true_eq, beq_iff_eq] at this
  refine ⟨b.take 25, by rw [List.length_take]; omega, ?_⟩
  rw [← this.2, List.take_append_drop]

end
end Thrift.Twisted
