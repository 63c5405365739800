import Verif.Proofs.Servers
/-
What the allowed behaviours say about connections, and servers in which only the processor fails.
-/

namespace Thrift.Servers
open Spec.Servers

/-- Observations about one connection, and the phase they lead to. -/
def Facts (cfg : Cfg) (os : List Obs) : Phase → Prop
  | .unseen => os = []
  | .accepted => ∀ t c st r, Obs.did t c st r ∉ os
  | .serving t _ => (∀ t' c st r, Obs.did t' c st r ∈ os → t' = t ∧ st ≠ .closeI ∧ st ≠ .closeO) ∧
      ∀ t' c e, Obs.did t' c .process (.raise e) ∉ os
  | .mustClose t => ∀ t' c st r, Obs.did t' c st r ∈ os → t' = t ∧ st ≠ .closeI ∧ st ≠ .closeO
  | .mustCloseOut t => (∀ t' c st r, Obs.did t' c st r ∈ os → t' = t) ∧ ∃ c r, Obs.did t c .closeI r ∈ os
  | .over => (∃ t, ∀ t' c st r, Obs.did t' c st r ∈ os → t' = t) ∧
      ((∃ t c e, Obs.did t c .process (.raise e) ∈ os ∧ (e.isException = true ∨ cfg.kind = .forking)) → ∃ t c r, Obs.did t c .closeI r ∈ os) ∧
      ((∃ t c, Obs.did t c .closeI .ok ∈ os) → oneTransport cfg = false → ∃ t c r, Obs.did t c .closeO r ∈ os)

theorem facts_step {cfg : Cfg} {os : List Obs} {p q : Phase} {o : Obs} (h : Facts cfg os p) (hn : Phase.next cfg p o = some q) :
    Facts cfg (os ++ [o]) q := by
  have key : ∀ t, q = .over → (∀ t' c st r, Obs.did t' c st r ∈ os ++ [o] → t' = t) → ((∃ t c e, Obs.did t c .process (.raise e) ∈ os ++ [o] ∧
      (e.isException = true ∨ cfg.kind = .forking)) → ∃ t c r, Obs.did t c .closeI r ∈ os ++ [o]) →
      ((∃ t c, Obs.did t c .closeI .ok ∈ os ++ [o]) → oneTransport cfg = false → ∃ t c r, Obs.did t c .closeO r ∈ os ++ [o]) →
      Facts cfg (os ++ [o]) q := fun t h0 h1 h2 h3 => by subst h0; exact ⟨⟨t, h1⟩, h2, h3⟩
  unfold Phase.next at hn
  split at hn
  · grind [Facts]
  · rename_i t c e
    exact key t (by grind) (by grind [Facts]) (by grind [Facts]) (by grind [Facts])
  · grind [Facts]
  · rename_i t c e
    exact key t (by grind) (by grind [Facts]) (by grind [Facts]) (by grind [Facts])
  · rename_i t made t' c st r
    split at hn
    · grind
    · split at hn
      · grind [Facts]
      · rename_i e
        by_cases he : (e.isException || decide (cfg.kind = .forking)) = true
        · grind [Facts]
        · exact key t (by grind) (by grind [Facts]) (by grind [Facts]) (by grind [Facts])
      · grind [Facts]
      · grind [Facts]
      · grind [Facts]
      · exact key t (by grind) (by grind [Facts]) (by grind [Facts]) (by grind [Facts])
      · grind [Facts]
  · rename_i t t' c
    by_cases ho : oneTransport cfg = true
    · exact key t (by grind [closedIn]) (by grind [Facts]) (by grind [Facts]) (by grind [Facts])
    · grind [Facts, closedIn]
  · rename_i t t' c e
    by_cases ho : harmless cfg e = true ∧ oneTransport cfg = false
    · grind [Facts, closedIn]
    · exact key t (by grind [closedIn]) (by grind [Facts]) (by grind [Facts]) (by grind [Facts])
  · rename_i t t' c
    exact key t (by grind) (by grind [Facts]) (by grind [Facts]) (by grind [Facts])
  · rename_i t t' c e
    exact key t (by grind) (by grind [Facts]) (by grind [Facts]) (by grind [Facts])
  · simp at hn

theorem facts_follow {cfg : Cfg} : ∀ {b a : List Obs} {p q : Phase}, Facts cfg a p → follow cfg p b = some q → Facts cfg (a ++ b) q
  | [], a, p, q, h, hf => by
    simp only [follow, List.foldlM_nil] at hf
    cases hf
    simpa using h
  | o :: b, a, p, q, h, hf => by
    have e : follow cfg p (o :: b) = (Phase.next cfg p o).bind fun p' => follow cfg p' b := rfl
    rw [e, Option.bind_eq_some_iff] at hf
    obtain ⟨p', h1, h2⟩ := hf
    have := facts_follow (facts_step h h1) h2
    simpa using this

/-- What every execution from the start satisfies. -/
theorem run_facts {cfg : Cfg} {workers : Nat} {es : List Event} {s' : Srv} {os : List Obs}
    (hr : (init cfg workers).run cfg es = some (s', os)) :
    ∃ ph, (∀ c, follow cfg .unseen (ofConn c os) = some (ph c)) ∧ Inv cfg s' ph ∧ ∀ c, Facts cfg (ofConn c os) (ph c) := by
  obtain ⟨ph, h1, h2⟩ := inv_run (inv_init cfg workers) hr
  exact ⟨ph, h1, h2, fun c => by simpa using facts_follow (a := []) (cfg := cfg) (p := .unseen) rfl (h1 c)⟩

theorem mem_ofConn {c : Nat} {os : List Obs} {o : Obs} : o ∈ ofConn c os ↔ o ∈ os ∧ aboutConn o = some c := by
  simp [ofConn]

/-! ## Only the processor fails -/

/-- Where a thread is when only processors fail. -/
def WellPC (cfg : Cfg) (running : Bool) (t : Nat) (pc : PC) : Prop :=
  match cfg.kind with
  | .simple => pc = .accept ∨ ∃ c st, pc = .body c st none
  | .threaded => if t = 0 then pc = .accept ∨ ∃ c, pc = .start c else pc = .done ∨ ∃ c st, pc = .body c st none
  | .pool => if t = 0 then pc = .accept ∨ ∃ c, pc = .put c else pc = .take ∨ ∃ c st, pc = .body c st none
  | .forking => if t = 0 then pc = .accept ∨ (∃ c, pc = .fork c) ∨ (∃ c, pc = .collect c) ∨
      (∃ c, pc = .parent c .getI) ∨ (∃ c, pc = .parent c .getO) ∨ (∃ c, pc = .parent c .closeI) ∨ (∃ c, pc = .parent c .closeO) else pc = .done ∨ ∃ c st, pc = .body c st none
  | .processPool => pc = .check ∨ pc = .accept ∨ (∃ c st, pc = .body c st none) ∨ (pc = .done ∧ running = false)

/-- How many threads there are. -/
def WellSized (cfg : Cfg) (workers n : Nat) : Prop :=
  match cfg.kind with
  | .simple => n = 1
  | .threaded => 0 < n
  | .pool => n = workers + 1
  | .forking => 0 < n
  | .processPool => n = workers

structure Healthy (cfg : Cfg) (workers : Nat) (s : Srv) : Prop where
  pcs : ∀ (t : Nat) (th : Thread), s.threads[t]? = some th → WellPC cfg s.running t th.pc
  size : WellSized cfg workers s.threads.length

theorem Healthy.set {cfg : Cfg} {workers : Nat} {s s' : Srv} (h : Healthy cfg workers s) {t : Nat} {th' : Thread}
    (e1 : s'.threads = s.threads.set t th') (e2 : s'.running = s.running) (hw : WellPC cfg s.running t th'.pc) :
    Healthy cfg workers s' := by
  refine ⟨?_, by rw [e1, List.length_set]; exact h.size⟩
  intro u x hx
  rw [e1, List.getElem?_set] at hx
  rw [e2]
  split at hx
  · rename_i hut
    subst hut
    split at hx
    · simp only [Option.some.injEq] at hx; subst hx; exact hw
    · simp at hx
  · exact h.pcs u x hx

theorem Healthy.spawn {cfg : Cfg} {workers : Nat} {s s' : Srv} (h : Healthy cfg workers s) {t : Nat} {th' x : Thread}
    (e1 : s'.threads = s.threads.set t th' ++ [x]) (e2 : s'.running = s.running) (hw : WellPC cfg s.running t th'.pc)
    (hx : ∀ u, 0 < u → WellPC cfg s.running u x.pc) (hk : cfg.kind = .threaded ∨ cfg.kind = .forking) :
    Healthy cfg workers s' := by
  have hpos : 0 < s.threads.length := by
    have := h.size
    rcases hk with hk | hk <;> simpa [WellSized, hk] using this
  refine ⟨?_, ?_⟩
  · intro u y hy
    have hl : (s.threads.set t th').length = s.threads.length := List.length_set
    rw [e1] at hy
    rw [e2]
    rcases Nat.lt_or_ge u s.threads.length with hu | hu
    · rw [List.getElem?_append_left (by omega), List.getElem?_set] at hy
      split at hy
      · rename_i hut
        subst hut
        rw [if_pos hu, Option.some.injEq] at hy
        subst hy
        exact hw
      · exact h.pcs u y hy
    · rw [List.getElem?_append_right (by omega)] at hy
      have := List.mem_of_getElem? hy
      simp only [List.mem_singleton] at this
      subst this
      exact hx u (by omega)
  · rw [e1]
    rcases hk with hk | hk <;> simp [WellSized, hk]

theorem well_continued {cfg : Cfg} {run : Bool} {t c : Nat} {st : Stage} (h : WellPC cfg run t (.body c st none)) :
    WellPC cfg run t (continued cfg c st none) := by
  cases hk : cfg.kind <;> simp only [WellPC, hk] at h ⊢ <;>
    simp only [continued] <;> cases st.after cfg <;> simp [returned, hk] <;>
    (try simp_all)

/-- A server in which only processors fail stays healthy. -/
theorem tolerated_of_only {cfg : Cfg} {o : Obs} (h : OnlyProcessorFails cfg o) : Tolerated cfg o := by
  cases o with
  | did t c st r =>
    cases r with
    | raise e => cases st <;> first | exact h.elim | exact ⟨h, .inl rfl⟩
    | _ => trivial
  | parent t c st r => cases r <;> first | exact h.elim | trivial
  | _ => exact h

theorem healthy_step {cfg : Cfg} {workers : Nat} {s s' : Srv} {e : Event} {o : List Obs} (h : Healthy cfg workers s)
    (hs : s.step cfg e = some (s', o)) (ho : ∀ x ∈ o, Tolerated cfg x) : Healthy cfg workers s' := by
  cases e with
  | stop =>
    simp only [Srv.step, Option.some.injEq, Prod.mk.injEq] at hs
    obtain ⟨rfl, rfl⟩ := hs
    refine ⟨fun t th ht => ?_, h.size⟩
    have := h.pcs t th ht
    unfold WellPC at this ⊢
    cases hk : cfg.kind <;> simp only [hk] at this ⊢ <;> first | exact this | skip
    rcases this with h1 | h1 | h1 | h1
    · exact .inl h1
    · exact .inr (.inl h1)
    · exact .inr (.inr (.inl h1))
    · exact .inr (.inr (.inr ⟨h1.1, trivial⟩))
  | go t r =>
    simp only [Srv.step] at hs
    split at hs
    · simp at hs
    rename_i th ht
    have hw := h.pcs t th ht
    have key : ∀ (th' : Thread) (pc' : PC) (s1 : Srv), s1.threads = s.threads → s1.running = s.running →
        WellPC cfg s.running t pc' → Healthy cfg workers (s1.at_ t th' pc') := fun th' pc' s1 h1 h2 h3 =>
      h.set (t := t) (th' := { th' with pc := pc' }) (by rw [at_threads, h1]) h2 h3
    cases hpc : th.pc with
    | accept =>
      rw [hpc] at hw
      cases r with
      | client =>
        simp only [Srv.go, hpc, Option.some.injEq, Prod.mk.injEq] at hs
        obtain ⟨rfl, rfl⟩ := hs
        refine key _ _ _ rfl rfl ?_
        cases hk : cfg.kind <;> simp only [WellPC, hk, afterAccept] at hw ⊢ <;> simp_all
      | nothing =>
        simp only [Srv.go, hpc, Option.some.injEq, Prod.mk.injEq] at hs
        obtain ⟨rfl, rfl⟩ := hs
        refine key _ _ _ rfl rfl ?_
        cases hk : cfg.kind <;> simp only [WellPC, hk, loopHead] at hw ⊢ <;> simp_all
      | raise e =>
        simp only [Srv.go, hpc, Option.some.injEq, Prod.mk.injEq] at hs
        obtain ⟨rfl, rfl⟩ := hs
        have he := ho _ (List.mem_singleton.2 rfl)
        simp only [Tolerated] at he
        refine key _ _ _ rfl rfl ?_
        cases hk : cfg.kind <;> simp only [WellPC, hk, acceptRaises] at hw ⊢ <;> simp_all
      | _ => simp [Srv.go, hpc] at hs
    | start c =>
      rw [hpc] at hw
      cases r with
      | ok =>
        simp only [Srv.go, hpc, Option.some.injEq, Prod.mk.injEq] at hs
        obtain ⟨rfl, rfl⟩ := hs
        have hk : cfg.kind = .threaded := by cases hk : cfg.kind <;> simp [WellPC, hk] at hw ⊢
        refine h.spawn (t := t) (th' := { th with pc := .accept }) rfl rfl ?_ ?_ (.inl hk)
        · simp only [WellPC, hk] at hw ⊢; simp_all
        · intro u hu
          simp only [WellPC, hk]
          rw [if_neg (by omega)]
          exact .inr ⟨_, _, rfl⟩
      | raise e =>
        simp only [Srv.go, hpc, Option.some.injEq, Prod.mk.injEq] at hs
        obtain ⟨rfl, rfl⟩ := hs
        exact (ho _ (List.mem_singleton.2 rfl)).elim
      | _ => simp [Srv.go, hpc] at hs
    | put c =>
      rw [hpc] at hw
      cases r with
      | ok =>
        simp only [Srv.go, hpc, Option.some.injEq, Prod.mk.injEq] at hs
        obtain ⟨rfl, rfl⟩ := hs
        refine key _ _ _ rfl rfl ?_
        cases hk : cfg.kind <;> simp only [WellPC, hk] at hw ⊢ <;> simp_all
      | _ => simp [Srv.go, hpc] at hs
    | take =>
      rw [hpc] at hw
      cases r with
      | ok =>
        simp only [Srv.go, hpc] at hs
        split at hs
        · simp at hs
        · rename_i c q hq
          simp only [Option.some.injEq, Prod.mk.injEq] at hs
          obtain ⟨rfl, rfl⟩ := hs
          refine key _ _ _ rfl rfl ?_
          cases hk : cfg.kind <;> simp only [WellPC, hk] at hw ⊢ <;> simp_all
      | _ => simp [Srv.go, hpc] at hs
    | fork c =>
      rw [hpc] at hw
      cases r with
      | pid n =>
        simp only [Srv.go, hpc, Option.some.injEq, Prod.mk.injEq] at hs
        obtain ⟨rfl, rfl⟩ := hs
        have hk : cfg.kind = .forking := by cases hk : cfg.kind <;> simp [WellPC, hk] at hw ⊢
        refine h.spawn (t := t) (th' := { pc := .collect c, children := th.children ++ [n] }) rfl rfl ?_ ?_ (.inr hk)
        · simp only [WellPC, hk] at hw ⊢; simp_all
        · intro u hu
          simp only [WellPC, hk]
          rw [if_neg (by omega)]
          exact .inr ⟨_, _, rfl⟩
      | raise e =>
        simp only [Srv.go, hpc, Option.some.injEq, Prod.mk.injEq] at hs
        obtain ⟨rfl, rfl⟩ := hs
        exact (ho _ (List.mem_singleton.2 rfl)).elim
      | _ => simp [Srv.go, hpc] at hs
    | collect c =>
      rw [hpc] at hw
      have hw1 : WellPC cfg s.running t (.parent c .getI) := by
        cases hk : cfg.kind <;> simp only [WellPC, hk] at hw ⊢ <;> simp_all
      have hw2 : WellPC cfg s.running t (outer .other) := by
        cases hk : cfg.kind <;> simp only [WellPC, hk] at hw ⊢ <;> simp_all [outer, PyExc.isException]
      simp only [Srv.go, hpc] at hs
      split at hs
      · split at hs
        · simp only [Option.some.injEq, Prod.mk.injEq] at hs
          obtain ⟨rfl, rfl⟩ := hs
          exact key _ _ _ rfl rfl hw1
        · simp at hs
      · split at hs
        · simp only [Option.some.injEq, Prod.mk.injEq] at hs
          obtain ⟨rfl, rfl⟩ := hs
          exact key _ _ _ rfl rfl hw1
        · simp only [Option.some.injEq, Prod.mk.injEq] at hs
          obtain ⟨rfl, rfl⟩ := hs
          exact key _ _ _ rfl rfl hw1
        · split at hs
          · simp only [Option.some.injEq, Prod.mk.injEq] at hs
            obtain ⟨rfl, rfl⟩ := hs
            exact key _ _ _ rfl rfl hw
          · simp only [Option.some.injEq, Prod.mk.injEq] at hs
            obtain ⟨rfl, rfl⟩ := hs
            exact key _ _ _ rfl rfl hw2
        · simp at hs
    | parent c st =>
      rw [hpc] at hw
      simp only [Srv.go, hpc] at hs
      split at hs
      · simp at hs
      · rename_i pc hps
        simp only [Option.some.injEq, Prod.mk.injEq] at hs
        obtain ⟨rfl, rfl⟩ := hs
        have he := ho _ (List.mem_singleton.2 rfl)
        refine key _ _ _ rfl rfl ?_
        cases r with
        | ok =>
          have hk : cfg.kind = .forking := by cases hk : cfg.kind <;> simp [WellPC, hk] at hw ⊢
          cases st <;> simp only [parentStep] at hps <;> cases hps <;> simp only [WellPC, hk] at hw ⊢ <;> simp_all
        | raise e => exact he.elim
        | _ => simp [parentStep] at hps
    | body c st pend =>
      rw [hpc] at hw
      have hp : pend = none := by
        cases hk : cfg.kind <;> simp only [WellPC, hk] at hw <;> (try split at hw) <;> simp_all
      subst hp
      cases r with
      | ok =>
        simp only [Srv.go, hpc, Option.some.injEq, Prod.mk.injEq] at hs
        obtain ⟨rfl, rfl⟩ := hs
        exact key _ _ _ rfl rfl (well_continued hw)
      | raise e =>
        simp only [Srv.go, hpc, Option.some.injEq, Prod.mk.injEq] at hs
        obtain ⟨rfl, rfl⟩ := hs
        have he := ho _ (List.mem_singleton.2 rfl)
        refine key _ _ _ rfl rfl ?_
        obtain ⟨he, hst⟩ := he
        by_cases h0 : st = .process
        · subst h0
          simp only [failed, he, if_true]
          cases hk : cfg.kind <;> simp only [WellPC, hk] at hw ⊢ <;> simp_all
        · rcases hst with hst | hst | hst
          · exact absurd hst h0
          · cases st <;> first | exact absurd rfl h0 | (simp only [failed, raised, hst, WellPC, he] at hw ⊢; simp_all)
          · cases st <;> first | exact absurd rfl h0 | (simp only [failed, raised, hst, WellPC, he] at hw ⊢; simp_all)
      | _ => simp [Srv.go, hpc] at hs
    | check =>
      rw [hpc] at hw
      cases r with
      | ok =>
        simp only [Srv.go, hpc, Option.some.injEq, Prod.mk.injEq] at hs
        obtain ⟨rfl, rfl⟩ := hs
        refine key _ _ _ rfl rfl ?_
        cases hr : s.running <;> rw [hr] at hw <;>
        cases hk : cfg.kind <;> simp only [WellPC, hk] at hw ⊢ <;> simp_all
      | _ => simp [Srv.go, hpc] at hs
    | done => cases r <;> simp [Srv.go, hpc] at hs
    | dead e => cases r <;> simp [Srv.go, hpc] at hs

theorem healthy_run {cfg : Cfg} {workers : Nat} : ∀ {es : List Event} {s s' : Srv} {os : List Obs}, Healthy cfg workers s →
    s.run cfg es = some (s', os) → (∀ x ∈ os, Tolerated cfg x) → Healthy cfg workers s'
  | [], s, s', os, h, hr, ho => by
    simp only [Srv.run, Option.some.injEq, Prod.mk.injEq] at hr
    obtain ⟨rfl, rfl⟩ := hr
    exact h
  | e :: es, s, s', os, h, hr, ho => by
    obtain ⟨s1, o, os', h1, h2, rfl⟩ := run_cons hr
    exact healthy_run (healthy_step h h1 (fun x hx => ho x (List.mem_append_left _ hx))) h2
      (fun x hx => ho x (List.mem_append_right _ hx))

theorem healthy_init (cfg : Cfg) (workers : Nat) : Healthy cfg workers (init cfg workers) := by
  constructor
  · intro t th ht
    cases hk : cfg.kind <;> simp only [init, hk] at ht <;> simp only [WellPC, hk, init]
    · cases t <;> simp at ht; subst ht; exact .inl rfl
    · cases t <;> simp at ht; subst ht; simp
    · cases t with
      | zero => simp at ht; subst ht; simp
      | succ t =>
        simp only [List.getElem?_cons_succ] at ht
        have := (List.mem_replicate.1 (List.mem_of_getElem? ht)).2
        subst this; simp
    · cases t <;> simp at ht; subst ht; simp
    · have := (List.mem_replicate.1 (List.mem_of_getElem? ht)).2
      subst this; exact .inl rfl
  · cases hk : cfg.kind <;> simp [init, hk, WellSized]

/-! ## The next connection -/

/-- The server can get from `s` to `s'`, with only processors failing. -/
def Can (cfg : Cfg) (s s' : Srv) (os : List Obs) : Prop :=
  ∃ es, s.run cfg es = some (s', os) ∧ ∀ o ∈ os, OnlyProcessorFails cfg o

theorem Can.refl (cfg : Cfg) (s : Srv) : Can cfg s s [] := ⟨[], rfl, by simp⟩

theorem run_append {cfg : Cfg} : ∀ {es fs : List Event} {s s' s'' : Srv} {os ps : List Obs}, s.run cfg es = some (s', os) →
    s'.run cfg fs = some (s'', ps) → s.run cfg (es ++ fs) = some (s'', os ++ ps)
  | [], fs, s, s', s'', os, ps, h1, h2 => by
    simp only [Srv.run, Option.some.injEq, Prod.mk.injEq] at h1
    obtain ⟨rfl, rfl⟩ := h1
    exact h2
  | e :: es, fs, s, s', s'', os, ps, h1, h2 => by
    obtain ⟨s1, o, os', g1, g2, rfl⟩ := run_cons h1
    have := run_append g2 h2
    simp only [List.cons_append, Srv.run, g1, this, List.append_assoc]

theorem Can.trans {cfg : Cfg} {s s' s'' : Srv} {os ps : List Obs} (h1 : Can cfg s s' os) (h2 : Can cfg s' s'' ps) :
    Can cfg s s'' (os ++ ps) := by
  obtain ⟨es, a1, a2⟩ := h1
  obtain ⟨fs, b1, b2⟩ := h2
  exact ⟨es ++ fs, run_append a1 b1, fun o ho => (List.mem_append.1 ho).elim (a2 o) (b2 o)⟩

theorem Can.one {cfg : Cfg} {s s' : Srv} {t : Nat} {th : Thread} {r : Res} {o : List Obs} (ht : s.threads[t]? = some th)
    (h : s.go cfg t th r = some (s', o)) (ho : ∀ x ∈ o, OnlyProcessorFails cfg x) : Can cfg s s' o := by
  refine ⟨[.go t r], ?_, ho⟩
  simp [Srv.run, Srv.step, ht, h]

theorem at_at (s : Srv) (t : Nat) (th : Thread) (p q : PC) : (s.at_ t th p).at_ t { th with pc := p } q = s.at_ t th q := by
  simp [Srv.at_]
theorem at_get {s : Srv} {t : Nat} {th th' : Thread} (ht : s.threads[t]? = some th) (p : PC) :
    (s.at_ t th' p).threads[t]? = some { th' with pc := p } := by
  have := (List.getElem?_eq_some_iff.1 ht).1
  simp [Srv.at_, List.getElem?_set, this]

/-- Thread `t` moves on from `body c st`. -/
theorem can_after {cfg : Cfg} {s : Srv} {t c : Nat} {th : Thread} {st st' : Stage} (ht : s.threads[t]? = some th)
    (ha : st.after cfg = some st') : Can cfg (s.at_ t th (.body c st none)) (s.at_ t th (.body c st' none)) [.did t c st .ok] := by
  refine Can.one (at_get ht _) (r := .ok) ?_ (by simp [OnlyProcessorFails])
  simp only [Srv.go, continued, ha, at_at]

theorem can_last {cfg : Cfg} {s : Srv} {t c : Nat} {th : Thread} {st : Stage} (ht : s.threads[t]? = some th)
    (ha : st.after cfg = none) : Can cfg (s.at_ t th (.body c st none)) (s.at_ t th (returned cfg none)) [.did t c st .ok] := by
  refine Can.one (at_get ht _) (r := .ok) ?_ (by simp [OnlyProcessorFails])
  simp only [Srv.go, continued, ha, at_at]

theorem at_self {s : Srv} {t : Nat} {th : Thread} {pc : PC} (ht : s.threads[t]? = some th) (hpc : th.pc = pc) : s.at_ t th pc = s := by
  subst hpc
  have : s.threads.set t th = s.threads := by
    rw [List.getElem?_eq_some_iff] at ht
    obtain ⟨hlt, he⟩ := ht
    rw [← he, List.set_getElem_self]
  rcases s with ⟨n, q, ths, r⟩
  simp only [Srv.at_] at this ⊢
  rw [this]

/-- The next connection is served as far as the processor. -/
theorem can_process (cfg : Cfg) {s : Srv} {t : Nat} {th : Thread} (c : Nat) (ht : s.threads[t]? = some th) {st : Stage}
    (h1 : st ≠ .closeI) (h2 : st ≠ .closeO) :
    ∃ os, Can cfg (s.at_ t th (.body c st none)) (s.at_ t th (.body c .process none)) os := by
  have step : ∀ {st st'}, st.after cfg = some st' → (∃ os, Can cfg (s.at_ t th (.body c st' none)) (s.at_ t th (.body c .process none)) os) →
      ∃ os, Can cfg (s.at_ t th (.body c st none)) (s.at_ t th (.body c .process none)) os :=
    fun ha ⟨os, h⟩ => ⟨_, (can_after ht ha).trans h⟩
  have p : ∃ os, Can cfg (s.at_ t th (.body c .process none)) (s.at_ t th (.body c .process none)) os := ⟨_, Can.refl _ _⟩
  have op := step (st := .getOP) rfl p
  by_cases hk : cfg.kind = .processPool
  · have ip := step (st := .getIP) (st' := .getOP) (by simp [Stage.after, hk]) op
    have ot := step (st := .getO) (st' := .getIP) (by simp [Stage.after, hk]) ip
    have it := step (st := .getI) (st' := .getO) (by simp [Stage.after, hk]) ot
    cases st <;> first | assumption | exact absurd rfl h1 | exact absurd rfl h2
  · have ot := step (st := .getO) (st' := .getOP) (by simp [Stage.after, hk]) op
    have ip : ∃ os, Can cfg (s.at_ t th (.body c .getIP none)) (s.at_ t th (.body c .process none)) os := by
      cases hh : cfg.header
      · exact step (st := .getIP) (st' := .getO) (by simp [Stage.after, hk, hh]) ot
      · exact step (st := .getIP) (st' := .process) (by simp [Stage.after, hk, hh]) p
    have it := step (st := .getI) (st' := .getIP) (by simp [Stage.after, hk]) ip
    cases st <;> first | assumption | exact absurd rfl h1 | exact absurd rfl h2

/-- The connection can come to its end. -/
theorem can_finish (cfg : Cfg) {s : Srv} {t : Nat} {th : Thread} (c : Nat) (ht : s.threads[t]? = some th) (st : Stage) :
    ∃ os, Can cfg (s.at_ t th (.body c st none)) (s.at_ t th (returned cfg none)) os := by
  have co : ∃ os, Can cfg (s.at_ t th (.body c .closeO none)) (s.at_ t th (returned cfg none)) os := ⟨_, can_last ht rfl⟩
  have ci : ∃ os, Can cfg (s.at_ t th (.body c .closeI none)) (s.at_ t th (returned cfg none)) os := by
    cases ha : Stage.closeI.after cfg with
    | none => exact ⟨_, can_last ht ha⟩
    | some st' =>
      have : st' = .closeO := by
        simp only [Stage.after] at ha
        split at ha
        · simp at ha
        · simpa using ha.symm
      subst this
      obtain ⟨os, h⟩ := co
      exact ⟨_, (can_after ht ha).trans h⟩
  by_cases h1 : st = .closeI
  · subst h1; exact ci
  by_cases h2 : st = .closeO
  · subst h2; exact co
  obtain ⟨os, h⟩ := can_process cfg c ht h1 h2
  obtain ⟨ps, h'⟩ := ci
  refine ⟨_, (h.trans (Can.one (at_get ht _) (r := .raise .other) (o := [.did t c .process (.raise .other)]) ?_ ?_)).trans h'⟩
  · simp [Srv.go, failed, PyExc.isException, at_at]
  · simp [OnlyProcessorFails, PyExc.isException]

/-- Served: the processor is called and returns. -/
theorem can_serve (cfg : Cfg) {s : Srv} {t : Nat} {th : Thread} {c : Nat} (ht : s.threads[t]? = some th)
    (hpc : th.pc = .body c .getI none) : ∃ s' os, Can cfg s s' os ∧ .did t c .process .ok ∈ os := by
  obtain ⟨os, h⟩ := can_process cfg c ht (st := .getI) (by simp) (by simp)
  rw [at_self ht hpc] at h
  refine ⟨_, _, h.trans (can_after ht (st := .process) (st' := .process) rfl), ?_⟩
  simp

theorem can_accept (cfg : Cfg) {s : Srv} {t : Nat} {th : Thread} (ht : s.threads[t]? = some th) (hpc : th.pc = .accept) :
    Can cfg s ({ s with next := s.next + 1 }.at_ t th (afterAccept cfg s.next)) [.accepted t s.next] := by
  refine Can.one ht (r := .client) ?_ (by simp [OnlyProcessorFails])
  simp only [Srv.go, hpc]

/-- Pool: a thread that waits serves what is in the queue, one after the other. -/
theorem can_queue (cfg : Cfg) (hk : cfg.kind = .pool) {t c : Nat} : ∀ (q : List Nat) {s : Srv} {th : Thread}, s.threads[t]? = some th →
    th.pc = .take → s.queue = q ++ [c] → ∃ s' os, Can cfg s s' os ∧ .did t c .process .ok ∈ os
  | [], s, th, ht, hpc, hq => by
    have h1 : Can cfg s ({ s with queue := [] }.at_ t th (.body c .getI none)) [] := by
      refine Can.one ht (r := .ok) ?_ (by simp)
      simp only [Srv.go, hpc, hq, List.nil_append]
    obtain ⟨s', os, h2, h3⟩ := can_serve cfg (s := { s with queue := [] }.at_ t th (.body c .getI none)) (t := t) (c := c)
      (th := { th with pc := .body c .getI none }) (at_get (s := { s with queue := [] }) (th := th) ht _) rfl
    exact ⟨_, _, h1.trans h2, by simpa using h3⟩
  | d :: q, s, th, ht, hpc, hq => by
    have ht' : ({ s with queue := q ++ [c] } : Srv).threads[t]? = some th := ht
    have h1 : Can cfg s ({ s with queue := q ++ [c] }.at_ t th (.body d .getI none)) [] := by
      refine Can.one ht (r := .ok) ?_ (by simp)
      simp only [Srv.go, hpc, hq, List.cons_append]
    obtain ⟨os, h2⟩ := can_finish cfg d ht' .getI
    obtain ⟨s', ps, h3, h4⟩ := can_queue cfg hk q (s := { s with queue := q ++ [c] }.at_ t th (returned cfg none))
      (th := { th with pc := returned cfg none }) (at_get ht' _) (by simp [returned, hk]) rfl
    exact ⟨_, _, (h1.trans h2).trans h3, by simp [h4]⟩

/-- Forking: the parent comes back to `accept`. -/
theorem can_parent (cfg : Cfg) {s : Srv} {t : Nat} {th : Thread} (c : Nat) (ht : s.threads[t]? = some th) {st : Stage}
    (hst : st = .getI ∨ st = .getO ∨ st = .closeI ∨ st = .closeO) :
    ∃ os, Can cfg (s.at_ t th (.parent c st)) (s.at_ t th .accept) os := by
  have step : ∀ (st : Stage) (pc' : PC), parentStep c st .ok = some pc' →
      Can cfg (s.at_ t th (.parent c st)) (s.at_ t th pc') [.parent t c st .ok] := by
    intro st pc' h
    refine Can.one (at_get ht _) (r := .ok) ?_ (by simp [OnlyProcessorFails])
    simp only [Srv.go, h, at_at]
  have h4 := step .closeO .accept rfl
  have h3 := (step .closeI _ rfl).trans h4
  have h2 := (step .getO _ rfl).trans h3
  have h1 := (step .getI _ rfl).trans h2
  rcases hst with rfl | rfl | rfl | rfl
  · exact ⟨_, h1⟩
  · exact ⟨_, h2⟩
  · exact ⟨_, h3⟩
  · exact ⟨_, h4⟩

theorem can_collect (cfg : Cfg) {s : Srv} {t : Nat} {th : Thread} (c : Nat) (ht : s.threads[t]? = some th) (hpc : th.pc = .collect c) :
    ∃ os, Can cfg s (s.at_ t th .accept) os := by
  obtain ⟨os, h⟩ := can_parent cfg c ht (st := .getI) (.inl rfl)
  have h1 : Can cfg s (s.at_ t th (.parent c .getI)) [] := by
    by_cases hc : th.children = []
    · refine Can.one ht (r := .ok) ?_ (by simp)
      simp only [Srv.go, hpc, hc, if_true]
    · refine Can.one ht (r := .nothing) ?_ (by simp)
      simp only [Srv.go, hpc, hc, if_false]
  exact ⟨_, h1.trans h⟩

end Thrift.Servers
