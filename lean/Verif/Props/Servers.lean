import Verif.Proofs.ServersRun
/-
C42: the blocking servers.
-/

namespace Thrift.Servers
open Spec.Servers

theorem nextCall_of {cfg : Cfg} {s : Srv} {t c : Nat} {th : Thread} {st : Stage} {pend : Option PyExc}
    (ht : s.threads[t]? = some th) (hpc : th.pc = .body c st pend) : NextCall cfg s t c st := by
  rintro r (rfl | ⟨e, rfl⟩)
  · exact ⟨_, by simp [Srv.step, ht, Srv.go, hpc]; rfl⟩
  · exact ⟨_, by simp [Srv.step, ht, Srv.go, hpc]; rfl⟩

/-- Somebody holds a connection that is not over. -/
theorem held_of {cfg : Cfg} {s : Srv} {ph : Nat → Phase} (h : Inv cfg s ph) {c : Nat} (hc : c < s.next) (hp : ph c ≠ .over) :
    c ∈ s.queue ∨ ∃ (t : Nat) (th : Thread), s.threads[t]? = some th ∧ th.pc.conn = some c := by
  have hz : cnt s c ≠ 0 := fun hz => hp (h.gone c hc hz)
  by_cases hq : c ∈ s.queue
  · exact .inl hq
  · right
    have : s.queue.count c = 0 := List.count_eq_zero.2 hq
    have h1 : 0 < s.threads.countP (held c) := by unfold cnt at hz; omega
    obtain ⟨th, hm, hh⟩ := List.countP_pos_iff.1 h1
    obtain ⟨t, ht⟩ := List.mem_iff_getElem?.1 hm
    exact ⟨t, th, ht, held_iff.1 hh⟩

theorem inCare {cfg : Cfg} {s : Srv} {ph : Nat → Phase} (h : Inv cfg s ph) (c : Nat) : InCare cfg s c (ph c) := by
  rcases Nat.lt_or_ge c s.next with hc | hc
  case inr => rw [(h.fresh c hc).2]; exact hc
  by_cases hover : ph c = .over
  · rw [hover]; exact hc
  rcases held_of h hc hover with hq | ⟨t, th, ht, hth⟩
  · rw [h.queue c hq]; exact .inl hq
  · have hfit := h.fits t th ht
    rcases th with ⟨pc, children⟩
    cases pc with
    | start d => cases hth; simp only [Fits] at hfit; rw [hfit]; exact .inr ⟨t, _, ht, .inl rfl⟩
    | put d => cases hth; simp only [Fits] at hfit; rw [hfit]; exact .inr ⟨t, _, ht, .inr (.inl rfl)⟩
    | fork d => cases hth; simp only [Fits] at hfit; rw [hfit]; exact .inr ⟨t, _, ht, .inr (.inr (.inl rfl))⟩
    | body d st pend =>
      cases hth
      simp only [Fits] at hfit
      obtain ⟨f1, f2, f3, f4⟩ := hfit
      have hn := nextCall_of (cfg := cfg) ht rfl
      rw [f1]
      cases st with
      | getI => exact .inr ⟨t, _, ht, .inr (.inr (.inr hn))⟩
      | closeI => exact hn
      | closeO => exact hn
      | _ =>
        refine ⟨_, hn, ?_, by simp, by simp⟩
        simp only [madeAt]
        split <;> (try split) <;> simp
    | _ => simp [PC.conn] at hth

/-- C42: every server, any number of workers, every interleaving and every outcome of every call: each connection goes through
the behaviour that `Phase.next` allows, and as long as it is not over somebody takes care of it. -/
theorem servers_protocol {cfg : Cfg} {workers : Nat} {es : List Event} {s' : Srv} {os : List Obs}
    (hr : (init cfg workers).run cfg es = some (s', os)) (c : Nat) :
    ∃ p, follow cfg .unseen (ofConn c os) = some p ∧ InCare cfg s' c p := by
  obtain ⟨ph, h1, h2, -⟩ := run_facts hr
  exact ⟨_, h1 c, inCare h2 c⟩

/-- C42: all that is done for a connection is done by one thread or process. -/
theorem servers_one_worker {cfg : Cfg} {workers : Nat} {es : List Event} {s' : Srv} {os : List Obs}
    (hr : (init cfg workers).run cfg es = some (s', os)) {c t t' : Nat} {st st' : Stage} {r r' : Res}
    (h : .did t c st r ∈ os) (h' : .did t' c st' r' ∈ os) : t = t' := by
  obtain ⟨ph, h1, h2, h3⟩ := run_facts hr
  have m := mem_ofConn.2 ⟨h, rfl⟩
  have m' := mem_ofConn.2 ⟨h', rfl⟩
  have := h3 c
  cases hp : ph c <;> rw [hp] at this <;> simp only [Facts] at this
  · rw [this] at m; simp at m
  · exact absurd m (this _ _ _ _)
  · rw [(this.1 _ _ _ _ m).1, (this.1 _ _ _ _ m').1]
  · rw [(this _ _ _ _ m).1, (this _ _ _ _ m').1]
  · rw [this.1 _ _ _ _ m, this.1 _ _ _ _ m']
  · obtain ⟨u, hu⟩ := this.1
    rw [hu _ _ _ _ m, hu _ _ _ _ m']

/-- C42: once the processor has raised, the thread closes the input transport: it has called `close`, or this is the next
thing it does. (`KeyboardInterrupt` and `SystemExit` only in the forking server.) -/
theorem servers_closes {cfg : Cfg} {workers : Nat} {es : List Event} {s' : Srv} {os : List Obs}
    (hr : (init cfg workers).run cfg es = some (s', os)) {c t : Nat} {e : PyExc}
    (h : .did t c .process (.raise e) ∈ os) (he : e.isException = true ∨ cfg.kind = .forking) :
    (∃ r, .did t c .closeI r ∈ os) ∨ NextCall cfg s' t c .closeI := by
  obtain ⟨ph, h1, h2, h3⟩ := run_facts hr
  have m := mem_ofConn.2 ⟨h, rfl⟩
  have hc := inCare h2 c
  have hone := fun (t' : Nat) (st' : Stage) (r' : Res) (h' : Obs.did t' c st' r' ∈ os) => servers_one_worker hr h' h
  have := h3 c
  have key : (∃ t' c' r, Obs.did t' c' .closeI r ∈ ofConn c os) → ∃ r, .did t c .closeI r ∈ os := by
    rintro ⟨t', c', r, h'⟩
    obtain ⟨g1, g2⟩ := mem_ofConn.1 h'
    cases g2
    exact ⟨r, by rw [← hone _ _ _ g1]; exact g1⟩
  cases hp : ph c <;> rw [hp] at this hc <;> simp only [Facts] at this
  · rw [this] at m; simp at m
  · exact absurd m (this _ _ _ _)
  · exact absurd m (this.2 _ _ _)
  · right
    rw [(this _ _ _ _ m).1]
    exact hc
  · exact .inl (key ⟨_, this.2⟩)
  · exact .inl (key (this.2.1 ⟨_, _, _, m, he⟩))

/-- C42: after the input transport was closed the thread closes the output transport, unless there is only one. -/
theorem servers_closes_out {cfg : Cfg} {workers : Nat} {es : List Event} {s' : Srv} {os : List Obs}
    (hr : (init cfg workers).run cfg es = some (s', os)) {c t : Nat}
    (h : .did t c .closeI .ok ∈ os) (ho : oneTransport cfg = false) :
    (∃ r, .did t c .closeO r ∈ os) ∨ NextCall cfg s' t c .closeO := by
  obtain ⟨ph, h1, h2, h3⟩ := run_facts hr
  have m := mem_ofConn.2 ⟨h, rfl⟩
  have hc := inCare h2 c
  have hone := fun (t' : Nat) (st' : Stage) (r' : Res) (h' : Obs.did t' c st' r' ∈ os) => servers_one_worker hr h' h
  have := h3 c
  cases hp : ph c <;> rw [hp] at this hc <;> simp only [Facts] at this
  · rw [this] at m; simp at m
  · exact absurd m (this _ _ _ _)
  · exact absurd rfl (this.1 _ _ _ _ m).2.1
  · exact absurd rfl (this _ _ _ _ m).2.1
  · right
    rw [this.1 _ _ _ _ m]
    exact hc
  · obtain ⟨t', c', r, h'⟩ := this.2.2 ⟨_, _, m⟩ ho
    obtain ⟨g1, g2⟩ := mem_ofConn.1 h'
    cases g2
    exact .inl ⟨r, by rw [← hone _ _ _ g1]; exact g1⟩

/-! ## Only the processor fails -/

/-- What is known of a connection when only processors fail. -/
def GoodFacts (cfg : Cfg) (os : List Obs) : Phase → Prop
  | .mustCloseOut t => ∃ c, Obs.did t c .closeI .ok ∈ os
  | .over => ∃ t c, Obs.did t c .closeI .ok ∈ os ∧ (oneTransport cfg = true ∨ ∃ c, Obs.did t c .closeO .ok ∈ os)
  | _ => True

theorem goodFacts_step {cfg : Cfg} {os : List Obs} {p q : Phase} {o : Obs} (h : GoodFacts cfg os p)
    (hn : Phase.next cfg p o = some q) (ho : OnlyProcessorFails cfg o) : GoodFacts cfg (os ++ [o]) q := by
  unfold Phase.next at hn
  split at hn
  · grind [GoodFacts]
  · exact ho.elim
  · grind [GoodFacts]
  · exact ho.elim
  · rename_i t made t' c st r
    split at hn
    · simp at hn
    · split at hn
      · grind [GoodFacts]
      · grind [GoodFacts, OnlyProcessorFails]
      · simp at hn
      · simp at hn
      · grind [GoodFacts]
      · cases st <;> first | exact ho.elim | grind
      · simp at hn
  · rename_i t t' c
    split at hn
    · simp at hn
    · rename_i hne
      simp only [ne_eq, Decidable.not_not] at hne
      subst hne
      unfold closedIn at hn
      split at hn <;> cases hn
      · exact ⟨t', c, by simp, .inl ‹_›⟩
      · exact ⟨c, by simp⟩
  · exact ho.elim
  · rename_i t t' c
    split at hn
    · simp at hn
    · rename_i hne
      simp only [ne_eq, Decidable.not_not] at hne
      subst hne
      cases hn
      obtain ⟨c', hc'⟩ := h
      exact ⟨_, _, List.mem_append_left _ hc', .inr ⟨c, by simp⟩⟩
  · exact ho.elim
  · simp at hn

theorem goodFacts_follow {cfg : Cfg} : ∀ {b a : List Obs} {p q : Phase}, GoodFacts cfg a p → follow cfg p b = some q →
    (∀ o ∈ b, OnlyProcessorFails cfg o) → GoodFacts cfg (a ++ b) q
  | [], a, p, q, h, hf, _ => by
    simp only [follow, List.foldlM_nil] at hf
    cases hf
    simpa using h
  | o :: b, a, p, q, h, hf, ho => by
    have e : follow cfg p (o :: b) = (Phase.next cfg p o).bind fun p' => follow cfg p' b := rfl
    rw [e, Option.bind_eq_some_iff] at hf
    obtain ⟨p', h1, h2⟩ := hf
    have := goodFacts_follow (goodFacts_step h h1 (ho o (by simp))) h2 (fun x hx => ho x (by simp [hx]))
    simpa using this

/-- C42, partial: no thread dies of a failure that the server is prepared for. In the two pools that is every `Exception` raised for a
connection, whoever raises it. What is missing: the same for the other servers, and for exceptions that are not `Exception`s; it is
false, see below. -/
theorem servers_survive_partial {cfg : Cfg} {workers : Nat} {es : List Event} {s' : Srv} {os : List Obs}
    (hr : (init cfg workers).run cfg es = some (s', os)) (ho : ∀ o ∈ os, Tolerated cfg o) : ∀ th ∈ s'.threads, ∀ e, th.pc ≠ .dead e := by
  intro th hth e he
  obtain ⟨t, ht⟩ := List.mem_iff_getElem?.1 hth
  have := (healthy_run (healthy_init cfg workers) hr ho).pcs t th ht
  rw [he] at this
  cases hk : cfg.kind <;> simp only [WellPC, hk] at this <;> (try split at this) <;> simp_all

/-- C42, partial: executions in which only processors fail (with `Exception`s, any number of times, for any connections;
`accept` may fail too where the server is prepared for it). No thread has died; every connection that is over had
its transports closed. What is missing: the same for failing factories, failing `close` and so on; it is false, see below. -/
theorem servers_isolation_partial {cfg : Cfg} {workers : Nat} {es : List Event} {s' : Srv} {os : List Obs}
    (hr : (init cfg workers).run cfg es = some (s', os)) (ho : ∀ o ∈ os, OnlyProcessorFails cfg o) :
    (∀ th ∈ s'.threads, ∀ e, th.pc ≠ .dead e) ∧
    ∀ c, follow cfg .unseen (ofConn c os) = some .over →
      ∃ t, .did t c .closeI .ok ∈ os ∧ (oneTransport cfg = true ∨ .did t c .closeO .ok ∈ os) := by
  constructor
  · exact servers_survive_partial hr fun o h => tolerated_of_only (ho o h)
  · intro c hc
    obtain ⟨t, c', h1, h2⟩ := goodFacts_follow (a := []) (cfg := cfg) (p := .unseen) (by trivial) hc
      (fun o h => ho o (mem_ofConn.1 h).1)
    obtain ⟨g1, g2⟩ := mem_ofConn.1 h1
    cases g2
    refine ⟨t, g1, h2.imp id ?_⟩
    rintro ⟨d, hd⟩
    obtain ⟨g3, g4⟩ := mem_ofConn.1 hd
    cases g4
    exact g3

/-- What the servers need in order to serve at all: workers, and not to have been stopped. -/
def Serves (cfg : Cfg) (workers : Nat) (s : Srv) : Prop :=
  match cfg.kind with
  | .pool => 0 < workers
  | .processPool => 0 < workers ∧ s.running = true
  | _ => True

/-- C42, partial: as long as all failures were such that the server is prepared for them it never loses the ability to serve: from
whatever state it is in it can go on, without any failure other than of processors, so that the next connection is accepted and its
processor is called and returns. -/
theorem servers_next_partial {cfg : Cfg} {workers : Nat} {es : List Event} {s : Srv} {os : List Obs}
    (hr : (init cfg workers).run cfg es = some (s, os)) (ho : ∀ o ∈ os, Tolerated cfg o) (hv : Serves cfg workers s) :
    ∃ es' s' os', s.run cfg es' = some (s', os') ∧ (∀ o ∈ os', OnlyProcessorFails cfg o) ∧
      (∃ t, .accepted t s.next ∈ os') ∧ ∃ t, .did t s.next .process .ok ∈ os' := by
  have h := healthy_run (healthy_init cfg workers) hr ho
  suffices hs : ∃ s' os', Can cfg s s' os' ∧ (∃ t, .accepted t s.next ∈ os') ∧ ∃ t, .did t s.next .process .ok ∈ os' by
    obtain ⟨s', os', ⟨es', h1, h2⟩, h3, h4⟩ := hs
    exact ⟨es', s', os', h1, h2, h3, h4⟩
  -- from a thread that is about to accept
  have direct : ∀ (s1 : Srv) (t : Nat) (th : Thread) (ps : List Obs), Can cfg s s1 ps → s1.next = s.next → s1.threads[t]? = some th →
      th.pc = .accept → afterAccept cfg s.next = .body s.next .getI none →
      ∃ s' os', Can cfg s s' os' ∧ (∃ t, .accepted t s.next ∈ os') ∧ ∃ t, .did t s.next .process .ok ∈ os' := by
    intro s1 t th ps h1 h2 h3 h4 h5
    have h6 := can_accept cfg h3 h4
    rw [h2, h5] at h6
    obtain ⟨s', qs, h7, h8⟩ := can_serve cfg (c := s.next)
      (at_get (s := { s1 with next := s.next + 1 }) (th := th) (th' := th) h3 (.body s.next .getI none)) rfl
    exact ⟨_, _, (h1.trans h6).trans h7, ⟨t, by simp⟩, ⟨t, by simp [h8]⟩⟩
  have get0 : 0 < s.threads.length → ∃ th, s.threads[0]? = some th := fun h0 => ⟨_, List.getElem?_eq_getElem h0⟩
  cases hk : cfg.kind with
  | simple =>
    have hs := h.size
    simp only [WellSized, hk] at hs
    obtain ⟨th, h0⟩ := get0 (by omega)
    have hw := h.pcs 0 th h0
    simp only [WellPC, hk] at hw
    rcases hw with hw | ⟨c, st, hw⟩
    · exact direct s 0 th [] (Can.refl _ _) rfl h0 hw (by simp [afterAccept, hk])
    · obtain ⟨ps, hf⟩ := can_finish cfg c h0 st
      rw [at_self h0 hw] at hf
      exact direct _ 0 _ ps hf rfl (at_get h0 _) (by simp [returned, hk]) (by simp [afterAccept, hk])
  | threaded =>
    have hs := h.size
    simp only [WellSized, hk] at hs
    obtain ⟨th, h0⟩ := get0 hs
    have hw := h.pcs 0 th h0
    simp only [WellPC, hk, if_true] at hw
    -- after `accept`
    have main : ∀ (s1 : Srv) (th : Thread) (ps : List Obs), Can cfg s s1 ps → s1.next = s.next → s1.threads[0]? = some th → th.pc = .accept →
        ∃ s' os', Can cfg s s' os' ∧ (∃ t, .accepted t s.next ∈ os') ∧ ∃ t, .did t s.next .process .ok ∈ os' := by
      intro s1 th ps h1 h2 h3 h4
      have h5 := can_accept cfg h3 h4
      rw [h2] at h5
      simp only [afterAccept, hk] at h5
      obtain ⟨s2, h6, k, th2, g1, g2⟩ : ∃ s2, Can cfg ({ s1 with next := s.next + 1 }.at_ 0 th (.start s.next)) s2 [] ∧
          ∃ (k : Nat) (th2 : Thread), s2.threads[k]? = some th2 ∧ th2.pc = .body s.next .getI none := by
        refine ⟨_, Can.one (at_get (s := { s1 with next := s.next + 1 }) (th := th) h3 _) (r := .ok) rfl (by simp), ?_⟩
        exact ⟨_, _, List.getElem?_concat_length, rfl⟩
      obtain ⟨s', qs, h7, h8⟩ := can_serve cfg g1 g2
      exact ⟨_, _, ((h1.trans h5).trans h6).trans h7, ⟨0, by simp⟩, ⟨k, by simp [h8]⟩⟩
    rcases hw with hw | ⟨c, hw⟩
    · exact main s th [] (Can.refl _ _) rfl h0 hw
    · have h1 : Can cfg s _ [] := Can.one h0 (r := .ok) (by simp only [Srv.go, hw]; rfl) (by simp)
      refine main _ { th with pc := .accept } [] h1 rfl ?_ rfl
      rw [List.getElem?_append_left (by simpa [Srv.at_] using hs)]
      exact at_get h0 _
  | pool =>
    have hs := h.size
    simp only [WellSized, hk] at hs
    simp only [Serves, hk] at hv
    obtain ⟨th, h0⟩ := get0 (by omega)
    have hw := h.pcs 0 th h0
    simp only [WellPC, hk, if_true] at hw
    obtain ⟨th1, h01⟩ : ∃ th1, s.threads[1]? = some th1 := ⟨_, List.getElem?_eq_getElem (by omega)⟩
    have hw1 := h.pcs 1 th1 h01
    simp only [WellPC, hk, Nat.one_ne_zero, if_false] at hw1
    have main : ∀ (s1 : Srv) (th : Thread) (ps : List Obs), Can cfg s s1 ps → s1.next = s.next → s1.threads[0]? = some th → th.pc = .accept →
        s1.threads[1]? = some th1 →
        ∃ s' os', Can cfg s s' os' ∧ (∃ t, .accepted t s.next ∈ os') ∧ ∃ t, .did t s.next .process .ok ∈ os' := by
      intro s1 th ps h1 h2 h3 h4 h5
      have h6 := can_accept cfg h3 h4
      rw [h2] at h6
      simp only [afterAccept, hk] at h6
      obtain ⟨s2, h7, hq2, ht2⟩ : ∃ s2, Can cfg ({ s1 with next := s.next + 1 }.at_ 0 th (.put s.next)) s2 [] ∧
          s2.queue = s1.queue ++ [s.next] ∧ s2.threads[1]? = some th1 := by
        refine ⟨_, Can.one (at_get (s := { s1 with next := s.next + 1 }) (th := th) h3 _) (r := .ok) rfl (by simp), rfl, ?_⟩
        simpa [Srv.at_] using h5
      have h8 := (h1.trans h6).trans h7
      rcases hw1 with hw1 | ⟨c, st, hw1⟩
      · obtain ⟨s', qs, g1, g2⟩ := can_queue cfg hk _ ht2 hw1 hq2
        exact ⟨_, _, h8.trans g1, ⟨0, by simp⟩, ⟨1, by simp [g2]⟩⟩
      · obtain ⟨rs, g0⟩ := can_finish cfg c ht2 st
        rw [at_self ht2 hw1] at g0
        obtain ⟨s', qs, g1, g2⟩ := can_queue cfg hk (c := s.next) s1.queue (at_get ht2 (returned cfg none)) (by simp [returned, hk]) hq2
        exact ⟨_, _, (h8.trans g0).trans g1, ⟨0, by simp⟩, ⟨1, by simp [g2]⟩⟩
    rcases hw with hw | ⟨c, hw⟩
    · exact main s th [] (Can.refl _ _) rfl h0 hw h01
    · have h1 : Can cfg s _ [] := Can.one h0 (r := .ok) (by simp only [Srv.go, hw]; rfl) (by simp)
      refine main _ { th with pc := .accept } [] h1 rfl (at_get (s := { s with queue := s.queue ++ [c] }) (th := th) h0 _) rfl ?_
      simpa [Srv.at_] using h01
  | forking =>
    have hs := h.size
    simp only [WellSized, hk] at hs
    obtain ⟨th, h0⟩ := get0 hs
    have hw := h.pcs 0 th h0
    simp only [WellPC, hk, if_true] at hw
    have main : ∀ (s1 : Srv) (th : Thread) (ps : List Obs), Can cfg s s1 ps → s1.next = s.next → s1.threads[0]? = some th → th.pc = .accept →
        ∃ s' os', Can cfg s s' os' ∧ (∃ t, .accepted t s.next ∈ os') ∧ ∃ t, .did t s.next .process .ok ∈ os' := by
      intro s1 th ps h1 h2 h3 h4
      have h5 := can_accept cfg h3 h4
      rw [h2] at h5
      simp only [afterAccept, hk] at h5
      obtain ⟨s2, h6, k, th2, g1, g2⟩ : ∃ s2, Can cfg ({ s1 with next := s.next + 1 }.at_ 0 th (.fork s.next)) s2 [] ∧
          ∃ (k : Nat) (th2 : Thread), s2.threads[k]? = some th2 ∧ th2.pc = .body s.next .getI none := by
        refine ⟨_, Can.one (at_get (s := { s1 with next := s.next + 1 }) (th := th) h3 _) (r := .pid 1) rfl (by simp), ?_⟩
        exact ⟨_, _, List.getElem?_concat_length, rfl⟩
      obtain ⟨s', qs, h7, h8⟩ := can_serve cfg g1 g2
      exact ⟨_, _, ((h1.trans h5).trans h6).trans h7, ⟨0, by simp⟩, ⟨k, by simp [h8]⟩⟩
    have par : ∀ c st, th.pc = .parent c st → (st = .getI ∨ st = .getO ∨ st = .closeI ∨ st = .closeO) →
        ∃ s' os', Can cfg s s' os' ∧ (∃ t, .accepted t s.next ∈ os') ∧ ∃ t, .did t s.next .process .ok ∈ os' := by
      intro c st hpc hst
      obtain ⟨ps, g⟩ := can_parent cfg c h0 hst
      rw [at_self h0 hpc] at g
      exact main _ _ ps g rfl (at_get h0 _) rfl
    rcases hw with hw | ⟨c, hw⟩ | ⟨c, hw⟩ | ⟨c, hw⟩ | ⟨c, hw⟩ | ⟨c, hw⟩ | ⟨c, hw⟩
    · exact main s th [] (Can.refl _ _) rfl h0 hw
    · have h1 : Can cfg s _ [] := Can.one h0 (r := .pid 1) (by simp only [Srv.go, hw]; rfl) (by simp)
      generalize hs2 : Srv.mk _ _ _ _ = s2 at h1
      have ht2 : s2.threads[0]? = some { pc := .collect c, children := th.children ++ [1] } := by
        rw [← hs2]
        simp only
        rw [List.getElem?_append_left (by simpa [Srv.at_] using hs)]
        exact at_get h0 _
      obtain ⟨ps, g⟩ := can_collect cfg c ht2 rfl
      exact main _ _ _ (h1.trans g) (by rw [← hs2]; rfl) (at_get ht2 _) rfl
    · obtain ⟨ps, g⟩ := can_collect cfg c h0 hw
      exact main _ _ _ g rfl (at_get h0 _) rfl
    · exact par _ _ hw (by simp)
    · exact par _ _ hw (by simp)
    · exact par _ _ hw (by simp)
    · exact par _ _ hw (by simp)
  | processPool =>
    have hs := h.size
    simp only [WellSized, hk] at hs
    simp only [Serves, hk] at hv
    obtain ⟨th, h0⟩ := get0 (by omega)
    have hw := h.pcs 0 th h0
    simp only [WellPC, hk, hv.2] at hw
    have fromCheck : ∀ (s1 : Srv) (th : Thread) (ps : List Obs), Can cfg s s1 ps → s1.next = s.next → s1.running = true →
        s1.threads[0]? = some th → th.pc = .check →
        ∃ s' os', Can cfg s s' os' ∧ (∃ t, .accepted t s.next ∈ os') ∧ ∃ t, .did t s.next .process .ok ∈ os' := by
      intro s1 th ps h1 h2 h3 h4 h5
      have h6 : Can cfg s1 (s1.at_ 0 th .accept) [] :=
        Can.one h4 (r := .ok) (by simp only [Srv.go, h5, h3, if_true]) (by simp)
      exact direct _ 0 _ _ (h1.trans h6) h2 (at_get h4 _) rfl (by simp [afterAccept, hk])
    rcases hw with hw | hw | ⟨c, st, hw⟩ | hw
    · exact fromCheck s th [] (Can.refl _ _) rfl hv.2 h0 hw
    · exact direct s 0 th [] (Can.refl _ _) rfl h0 hw (by simp [afterAccept, hk])
    · obtain ⟨ps, hf⟩ := can_finish cfg c h0 st
      rw [at_self h0 hw] at hf
      exact fromCheck _ _ ps hf rfl hv.2 (at_get h0 _) (by simp [returned, hk])
    · simp at hw

/-! ## A concrete execution -/

theorem of_check {cfg : Cfg} {s : Srv} {es : List Event} {P : Srv → List Obs → Prop} [∀ s os, Decidable (P s os)]
    (h : (match s.run cfg es with | some (s', os) => decide (P s' os) | none => false) = true) :
    ∃ s' os, s.run cfg es = some (s', os) ∧ P s' os := by
  cases hr : s.run cfg es with
  | none => rw [hr] at h; simp at h
  | some x => rw [hr] at h; exact ⟨x.1, x.2, rfl, by simpa using h⟩

instance (cfg : Cfg) (o : Obs) : Decidable (OnlyProcessorFails cfg o) := by
  unfold OnlyProcessorFails
  split <;> infer_instance

/-- A pool of two threads, three clients. The second thread serves the first client, whose processor is called twice and then fails; the
first thread serves the second client, whose processor fails with something else at once. -/
def poolSession : List Event := [.go 0 .client, .go 0 .ok, .go 0 .client, .go 2 .ok, .go 0 .ok, .go 2 .ok, .go 2 .ok, .go 1 .ok, .go 0 .client,
  .go 2 .ok, .go 2 .ok, .go 2 .ok, .go 1 .ok, .go 1 .ok, .go 1 .ok, .go 2 .ok, .go 1 .ok, .go 1 (.raise .other), .go 2 (.raise .ttransport),
  .go 2 .ok, .go 1 .ok, .go 2 .ok, .go 1 .ok, .go 0 (.raise .io)]

/-- The session meets the hypotheses above. -/
example : ∃ s os, (init ⟨.pool, false⟩ 2).run ⟨.pool, false⟩ (poolSession.dropLast ++ [.go 0 .ok, .go 0 (.raise .io)]) = some (s, os) ∧
    (∀ o ∈ os, OnlyProcessorFails ⟨.pool, false⟩ o) ∧ .did 2 0 .process (.raise .ttransport) ∈ os ∧ .did 1 1 .closeO .ok ∈ os ∧
    s.queue = [2] ∧ s.next = 3 ∧ follow ⟨.pool, false⟩ .unseen (ofConn 0 os) = some .over := of_check (by decide +kernel)

instance (cfg : Cfg) (o : Obs) : Decidable (Tolerated cfg o) := by
  unfold Tolerated
  split <;> infer_instance

/-- A pool whose thread gets an exception from a transport factory and from a `close`, and goes on. -/
example : ∃ s os, (init ⟨.pool, false⟩ 1).run ⟨.pool, false⟩ [.go 0 .client, .go 0 .ok, .go 0 .client, .go 0 .ok, .go 1 .ok, .go 1 (.raise .other),
      .go 1 .ok, .go 1 .ok, .go 1 .ok, .go 1 .ok, .go 1 .ok, .go 1 (.raise .other), .go 1 (.raise .io)] = some (s, os) ∧
    ((∀ o ∈ os, Tolerated ⟨.pool, false⟩ o) ∧ .did 1 0 .getI (.raise .other) ∈ os ∧ .did 1 1 .closeI (.raise .io) ∈ os ∧
      (s.threads[1]?.map (·.pc)) = some .take) := of_check (by decide +kernel)

/-! ## What is missing -/

/-- From the end of a connection on nothing more is done for it. -/
theorem nothing_after {cfg : Cfg} {workers : Nat} {es es' : List Event} {s s' : Srv} {os os' : List Obs} {c : Nat}
    (hr : (init cfg workers).run cfg es = some (s, os)) (hover : follow cfg .unseen (ofConn c os) = some .over)
    (hr' : s.run cfg es' = some (s', os')) : ∀ t st r, .did t c st r ∉ os' := by
  obtain ⟨ph, h1, h2⟩ := inv_run (inv_init cfg workers) hr
  obtain ⟨ph', h3, -⟩ := inv_run h2 hr'
  have := h1 c
  rw [hover, Option.some.injEq] at this
  have h4 := h3 c
  rw [← this] at h4
  intro t st r hm
  have hm' := mem_ofConn.2 ⟨hm, rfl⟩
  cases hl : ofConn c os' with
  | nil => rw [hl] at hm'; simp at hm'
  | cons o l =>
    rw [hl] at h4
    have e : follow cfg .over (o :: l) = (Phase.next cfg .over o).bind fun p' => follow cfg p' l := rfl
    have : Phase.next cfg .over o = none := by cases o <;> rfl
    rw [e, this] at h4
    simp at h4

/-- The connection is accepted by a server of this kind and given to a thread, which is about to make its transport. -/
def begins : Kind → List Event × Nat
  | .simple => ([.go 0 .client], 0)
  | .threaded => ([.go 0 .client, .go 0 .ok], 1)
  | .pool => ([.go 0 .client, .go 0 .ok, .go 1 .ok], 1)
  | .forking => ([.go 0 .client, .go 0 (.pid 9)], 1)
  | .processPool => ([.go 0 .ok, .go 0 .client], 0)

/-- C42 is not true when a factory raises: in none of the servers is the connection that was accepted ever closed. -/
theorem servers_factory_leak (cfg : Cfg) : ∃ es s os, (init cfg 1).run cfg es = some (s, os) ∧
    .accepted 0 0 ∈ os ∧ (∃ t, .did t 0 .getI .ok ∈ os) ∧ (∀ t st r, .did t 0 st r ∈ os → st ≠ .closeI ∧ st ≠ .closeO) ∧
    ∀ es' s' os', s.run cfg es' = some (s', os') → ∀ t st r, .did t 0 st r ∉ os' := by
  have key : ∃ s os, (init cfg 1).run cfg ((begins cfg.kind).1 ++ [.go (begins cfg.kind).2 .ok, .go (begins cfg.kind).2 (.raise .other)]) = some (s, os) ∧
      (.accepted 0 0 ∈ os ∧ .did (begins cfg.kind).2 0 .getI .ok ∈ os ∧
        (∀ o ∈ os, (match o with | .did _ _ .closeI _ => false | .did _ _ .closeO _ => false | _ => true) = true) ∧
        follow cfg .unseen (ofConn 0 os) = some .over) := by
    rcases cfg with ⟨kind, header⟩
    cases kind <;> cases header <;> exact of_check (by decide +kernel)
  obtain ⟨s, os, h1, h2, h3, h4, h5⟩ := key
  refine ⟨_, s, os, h1, h2, ⟨_, h3⟩, ?_, fun es' s' os' h6 => nothing_after h1 h5 h6⟩
  intro t st r hm
  have := h4 _ hm
  cases st <;> simp at this ⊢

/-- C42 is not true when the processor raises `KeyboardInterrupt` or `SystemExit`: except in the forking server the connection is not
closed; in the pools the worker has ended as well. -/
theorem servers_exit_leak (cfg : Cfg) (hk : cfg.kind ≠ .forking) (e : PyExc) (he : e.isException = false) :
    ∃ es s os t, (init cfg 1).run cfg es = some (s, os) ∧ .did t 0 .process (.raise e) ∈ os ∧
      (∀ t st r, .did t 0 st r ∈ os → st ≠ .closeI ∧ st ≠ .closeO) ∧
      (s.threads[t]?.map Thread.pc = some (.dead e) ∨ s.threads[t]?.map Thread.pc = some .done) ∧
      ∀ es' s' os', s.run cfg es' = some (s', os') → ∀ t st r, .did t 0 st r ∉ os' := by
  have key : ∃ s os, (init cfg 1).run cfg ((begins cfg.kind).1 ++ List.replicate (if oneTransport cfg then 2 else 4) (.go (begins cfg.kind).2 .ok) ++
        [.go (begins cfg.kind).2 (.raise e)]) = some (s, os) ∧
      (.did (begins cfg.kind).2 0 .process (.raise e) ∈ os ∧
        (∀ o ∈ os, (match o with | .did _ _ .closeI _ => false | .did _ _ .closeO _ => false | _ => true) = true) ∧
        (s.threads[(begins cfg.kind).2]?.map Thread.pc = some (.dead e) ∨ s.threads[(begins cfg.kind).2]?.map Thread.pc = some .done) ∧
        follow cfg .unseen (ofConn 0 os) = some .over) := by
    rcases cfg with ⟨kind, header⟩
    cases kind <;> first | exact absurd rfl hk | skip
    all_goals cases header <;> cases e <;> first | (simp [PyExc.isException] at he; done) | exact of_check (by decide +kernel)
  obtain ⟨s, os, h1, h2, h3, h4, h5⟩ := key
  refine ⟨_, s, os, _, h1, h2, ?_, h4, fun es' s' os' h6 => nothing_after h1 h5 h6⟩
  intro t st r hm
  have := h3 _ hm
  cases st <;> simp at this ⊢

/-- A server all of whose threads have died does nothing any more. -/
theorem all_dead {cfg : Cfg} {s : Srv} (hd : ∀ th ∈ s.threads, ∃ e, th.pc = .dead e) :
    ∀ {es : List Event} {s' : Srv} {os : List Obs}, s.run cfg es = some (s', os) → os = [] := by
  intro es
  induction es generalizing s with
  | nil => intro s' os h; simp only [Srv.run, Option.some.injEq, Prod.mk.injEq] at h; exact h.2.symm
  | cons e es ih =>
    intro s' os h
    obtain ⟨s1, o, os', h1, h2, rfl⟩ := run_cons h
    cases e with
    | stop =>
      simp only [Srv.step, Option.some.injEq, Prod.mk.injEq] at h1
      obtain ⟨rfl, rfl⟩ := h1
      exact ih (s := { s with running := false }) hd h2
    | go t r =>
      simp only [Srv.step] at h1
      split at h1
      · simp at h1
      · rename_i th ht
        obtain ⟨e, he⟩ := hd th (List.mem_of_getElem? ht)
        cases r <;> simp [Srv.go, he] at h1

/-- C42 is not true when `close` raises: the simple server ends (`serve` raises), the other transport of the connection stays open,
and no connection is ever accepted again. -/
theorem servers_close_fatal (header : Bool) (e : PyExc) : ∃ es s os, (init ⟨.simple, header⟩ 1).run ⟨.simple, header⟩ es = some (s, os) ∧
    .did 0 0 .process (.raise .ttransport) ∈ os ∧ .did 0 0 .closeI (.raise e) ∈ os ∧ (∀ r, .did 0 0 .closeO r ∉ os) ∧
    ∀ es' s' os', s.run ⟨.simple, header⟩ es' = some (s', os') → os' = [] := by
  have key : ∃ s os, (init ⟨.simple, header⟩ 1).run ⟨.simple, header⟩ ([.go 0 .client] ++ List.replicate (if header then 2 else 4) (.go 0 .ok) ++
        [.go 0 (.raise .ttransport), .go 0 (.raise e)]) = some (s, os) ∧
      (.did 0 0 .process (.raise .ttransport) ∈ os ∧ .did 0 0 .closeI (.raise e) ∈ os ∧
        (∀ o ∈ os, (match o with | .did _ _ .closeO _ => false | _ => true) = true) ∧ s.threads = [{ pc := .dead e }]) := by
    cases header <;> cases e <;> exact of_check (by decide +kernel)
  obtain ⟨s, os, h1, h2, h3, h4, h5⟩ := key
  refine ⟨_, s, os, h1, h2, h3, fun r hm => by simpa using h4 _ hm, fun es' s' os' h6 => ?_⟩
  exact all_dead (by rw [h5]; simp) h6

/-- An exception from `accept` ends the simple and the forking server. -/
theorem servers_accept_fatal (kind : Kind) (hk : kind = .simple ∨ kind = .forking) (header : Bool) (e : PyExc) :
    ∃ es s os, (init ⟨kind, header⟩ 1).run ⟨kind, header⟩ es = some (s, os) ∧ os = [.acceptRaised 0 e] ∧
    ∀ es' s' os', s.run ⟨kind, header⟩ es' = some (s', os') → os' = [] := by
  have key : ∃ s os, (init ⟨kind, header⟩ 1).run ⟨kind, header⟩ [.go 0 (.raise e)] = some (s, os) ∧
      (os = [.acceptRaised 0 e] ∧ s.threads = [{ pc := .dead e }]) := by
    rcases hk with rfl | rfl <;> cases header <;> cases e <;> exact of_check (by decide +kernel)
  obtain ⟨s, os, h1, h2, h3⟩ := key
  exact ⟨_, s, os, h1, h2, fun es' s' os' h6 => all_dead (by rw [h3]; simp) h6⟩

/-- A connection for which no thread or process can be started is never closed. -/
theorem servers_start_leak (kind : Kind) (hk : kind = .threaded ∨ kind = .forking) (header : Bool) (e : PyExc) :
    ∃ es s os, (init ⟨kind, header⟩ 1).run ⟨kind, header⟩ es = some (s, os) ∧ os = [.accepted 0 0, .startRaised 0 0 e] ∧
    ∀ es' s' os', s.run ⟨kind, header⟩ es' = some (s', os') → ∀ t st r, .did t 0 st r ∉ os' := by
  have key : ∃ s os, (init ⟨kind, header⟩ 1).run ⟨kind, header⟩ [.go 0 .client, .go 0 (.raise e)] = some (s, os) ∧
      (os = [.accepted 0 0, .startRaised 0 0 e] ∧ follow ⟨kind, header⟩ .unseen (ofConn 0 os) = some .over) := by
    rcases hk with rfl | rfl <;> cases header <;> cases e <;> exact of_check (by decide +kernel)
  obtain ⟨s, os, h1, h2, h3⟩ := key
  exact ⟨_, s, os, h1, h2, fun es' s' os' h6 => nothing_after h1 h3 h6⟩

/-- The forked process of one connection goes back to the loop of the server when a factory raises, or a `close` raises something that is not
an `IOError`: it accepts connections itself, next to its parent. -/
theorem servers_fork_returns (header : Bool) : ∃ es s os, (init ⟨.forking, header⟩ 1).run ⟨.forking, header⟩ es = some (s, os) ∧
    .did 1 0 .getI (.raise .other) ∈ os ∧ .accepted 1 1 ∈ os ∧ .accepted 0 2 ∈ os := by
  obtain ⟨s, os, h1, h2⟩ : ∃ s os, (init ⟨.forking, header⟩ 1).run ⟨.forking, header⟩ [.go 0 .client, .go 0 (.pid 9), .go 1 (.raise .other), .go 1 .client,
      .go 0 .nothing, .go 0 .ok, .go 0 .ok, .go 0 .ok, .go 0 .ok, .go 0 .client] = some (s, os) ∧
      (.did 1 0 .getI (.raise .other) ∈ os ∧ .accepted 1 1 ∈ os ∧ .accepted 0 2 ∈ os) := by
    cases header <;> exact of_check (by decide +kernel)
  exact ⟨_, s, os, h1, h2⟩

/-- When a process that is not one of its own children ends, the forking server does not close its copy of the connection
it has just accepted: `collect_children` raises. -/
theorem servers_foreign_child (header : Bool) : ∃ s os, (init ⟨.forking, header⟩ 1).run ⟨.forking, header⟩
      [.go 0 .client, .go 0 (.pid 9), .go 0 (.pid 7), .go 0 .client] = some (s, os) ∧ os = [.accepted 0 0, .accepted 0 1] := by
  cases header <;> exact of_check (by decide +kernel)

end Thrift.Servers
