import Verif.Spec.Servers
/-
The invariant of the blocking servers.
-/

namespace Thrift.Servers
open Spec.Servers

/-- The connection a thread is responsible for. -/
def PC.conn : PC → Option Nat
  | .start c => some c
  | .put c => some c
  | .fork c => some c
  | .body c _ _ => some c
  | _ => none

def held (c : Nat) (th : Thread) : Bool := th.pc.conn == some c

/-- How many threads and places in the queue hold connection `c`. -/
def cnt (s : Srv) (c : Nat) : Nat := s.threads.countP (held c) + s.queue.count c

/-- What has been made before a stage. -/
def madeAt (cfg : Cfg) : Stage → List Stage
  | .getI => []
  | .getIP => if cfg.kind = .processPool then [.getO, .getI] else [.getI]
  | .getO => if cfg.kind = .processPool then [.getI] else [.getIP, .getI]
  | .getOP => if cfg.kind = .processPool then [.getIP, .getO, .getI] else [.getO, .getIP, .getI]
  | _ => if cfg.kind = .processPool then [.getOP, .getIP, .getO, .getI]
    else if cfg.header then [.getIP, .getI] else [.getOP, .getO, .getIP, .getI]

/-- The phase of the connection that belongs to a stage. -/
def phaseAt (cfg : Cfg) (t : Nat) : Stage → Phase
  | .getI => .accepted
  | .closeI => .mustClose t
  | .closeO => .mustCloseOut t
  | st => .serving t (madeAt cfg st)

/-- A stage that the configuration gets to. -/
def Reaches (cfg : Cfg) (st : Stage) : Prop :=
  oneTransport cfg = true → st ≠ .getO ∧ st ≠ .getOP ∧ st ≠ .closeO

def Fits (cfg : Cfg) (ph : Nat → Phase) (t : Nat) : PC → Prop
  | .start c => ph c = .accepted
  | .put c => ph c = .accepted
  | .fork c => ph c = .accepted
  | .body c st pend => ph c = phaseAt cfg t st ∧ Reaches cfg st ∧ (∀ e, pend = some e → e.isException = false) ∧
      (pend ≠ none → cfg.kind = .forking)
  | _ => True

structure Inv (cfg : Cfg) (s : Srv) (ph : Nat → Phase) : Prop where
  fits : ∀ (t : Nat) (th : Thread), s.threads[t]? = some th → Fits cfg ph t th.pc
  queue : ∀ c ∈ s.queue, ph c = .accepted
  one : ∀ c, cnt s c ≤ 1
  fresh : ∀ c, s.next ≤ c → cnt s c = 0 ∧ ph c = .unseen
  known : ∀ c, c < s.next → ph c ≠ .unseen
  gone : ∀ c, c < s.next → cnt s c = 0 → ph c = .over

theorem countP_set {α : Type} (p : α → Bool) : ∀ (l : List α) (i : Nat) (a a' : α), l[i]? = some a →
    (l.set i a').countP p + (if p a then 1 else 0) = l.countP p + (if p a' then 1 else 0)
  | [], i, a, a', h => by simp at h
  | b :: l, 0, a, a', h => by
    simp only [List.getElem?_cons_zero, Option.some.injEq] at h
    subst h
    simp only [List.set_cons_zero, List.countP_cons]
    omega
  | b :: l, i + 1, a, a', h => by
    simp only [List.getElem?_cons_succ] at h
    have := countP_set p l i a a' h
    simp only [List.set_cons_succ, List.countP_cons]
    omega

theorem countP_pos_of {l : List Thread} {p : Thread → Bool} {i : Nat} {a : Thread} (h : l[i]? = some a) (hp : p a = true) :
    0 < l.countP p := List.countP_pos_iff.2 ⟨a, List.mem_of_getElem? h, hp⟩

theorem two_le {l : List Thread} {c : Nat} {i j : Nat} {a b : Thread} (hi : l[i]? = some a) (hj : l[j]? = some b)
    (hne : i ≠ j) (ha : held c a = true) (hb : held c b = true) : 2 ≤ l.countP (held c) := by
  have h1 := countP_set (held c) l i a { pc := .done } hi
  have h2 : (l.set i { pc := .done })[j]? = some b := by rw [List.getElem?_set_ne hne]; exact hj
  have h3 := countP_pos_of h2 hb
  have h4 : held c { pc := .done } = false := rfl
  simp only [ha, h4, if_true, Bool.false_eq_true, if_false] at h1
  omega

theorem held_iff {c : Nat} {th : Thread} : held c th = true ↔ th.pc.conn = some c := by simp [held]

/-- A thread that does not hold `c` fits whatever the phase of `c` is. -/
theorem Fits.other {cfg : Cfg} {ph : Nat → Phase} {t c : Nat} {p : Phase} {pc : PC} (h : Fits cfg ph t pc)
    (hc : pc.conn ≠ some c) : Fits cfg (fun d => if d = c then p else ph d) t pc := by
  cases pc with
  | start d => simp only [PC.conn, ne_eq, Option.some.injEq] at hc; simp only [Fits, if_neg hc]; exact h
  | put d => simp only [PC.conn, ne_eq, Option.some.injEq] at hc; simp only [Fits, if_neg hc]; exact h
  | fork d => simp only [PC.conn, ne_eq, Option.some.injEq] at hc; simp only [Fits, if_neg hc]; exact h
  | body d st pend => simp only [PC.conn, ne_eq, Option.some.injEq] at hc; simp only [Fits, if_neg hc]; exact h
  | _ => trivial

theorem Fits.none {cfg : Cfg} {ph : Nat → Phase} {t : Nat} {pc : PC} (h : pc.conn = none) : Fits cfg ph t pc := by
  cases pc <;> first | trivial | simp [PC.conn] at h

/-- A step of thread `t` that concerns connection `c` (or none). -/
theorem Inv.move {cfg : Cfg} {s s' : Srv} {ph : Nat → Phase} (h : Inv cfg s ph) {t c : Nat} {th th' : Thread} {sp : List Thread}
    {p : Phase} (ht : s.threads[t]? = some th)
    (e1 : s'.threads = s.threads.set t th' ++ sp)
    (e2 : ∀ d, d ≠ c → cnt s' d = cnt s d)
    (e3 : ∀ (u : Nat) (x : Thread), u ≠ t → s.threads[u]? = some x → x.pc.conn ≠ some c)
    (e4 : Fits cfg (fun d => if d = c then p else ph d) t th'.pc)
    (e5 : ∀ x ∈ sp, ∀ u, Fits cfg (fun d => if d = c then p else ph d) u x.pc)
    (e6 : ∀ d ∈ s'.queue, (if d = c then p else ph d) = .accepted)
    (e7 : cnt s' c ≤ 1) (e8 : s.next ≤ s'.next) (e9 : s'.next ≤ s.next + 1) (e10 : s'.next = s.next + 1 → c = s.next)
    (e11 : c < s'.next) (e12 : p ≠ .unseen) (e13 : cnt s' c = 0 → p = .over) :
    Inv cfg s' (fun d => if d = c then p else ph d) := by
  have hlen : (s.threads.set t th').length = s.threads.length := List.length_set
  refine ⟨?_, e6, ?_, ?_, ?_, ?_⟩
  · intro u x hx
    rw [e1] at hx
    rcases Nat.lt_or_ge u s.threads.length with hu | hu
    · rw [List.getElem?_append_left (by omega), List.getElem?_set] at hx
      split at hx
      · rename_i hut
        subst hut
        rw [if_pos hu, Option.some.injEq] at hx
        subst hx
        exact e4
      · rename_i hut
        exact (h.fits u x hx).other (e3 u x (fun e => hut e.symm) hx)
    · rw [List.getElem?_append_right (by omega)] at hx
      exact e5 x (List.mem_of_getElem? hx) u
  · intro d
    by_cases hd : d = c
    · subst hd; exact e7
    · rw [e2 d hd]; exact h.one d
  · intro d hd
    have hdc : d ≠ c := by omega
    simp only [if_neg hdc]
    rw [e2 d hdc]
    exact h.fresh d (by omega)
  · intro d hd
    by_cases hdc : d = c
    · simp only [if_pos hdc]; exact e12
    · simp only [if_neg hdc]
      refine h.known d ?_
      by_cases hn : s'.next = s.next + 1
      · have := e10 hn; omega
      · omega
  · intro d hd hz
    by_cases hdc : d = c
    · subst hdc; simp only [if_true]; exact e13 hz
    · simp only [if_neg hdc]
      rw [e2 d hdc] at hz
      refine h.gone d ?_ hz
      by_cases hn : s'.next = s.next + 1
      · have := e10 hn; omega
      · omega

/-- A step of thread `t` that concerns no connection. -/
theorem Inv.idle {cfg : Cfg} {s s' : Srv} {ph : Nat → Phase} (h : Inv cfg s ph) {t : Nat} {th th' : Thread}
    (ht : s.threads[t]? = some th) (e1 : s'.threads = s.threads.set t th') (hc : th.pc.conn = none) (hc' : th'.pc.conn = none)
    (e2 : s'.queue = s.queue) (e3 : s'.next = s.next) : Inv cfg s' ph := by
  have hcnt : ∀ d, cnt s' d = cnt s d := by
    intro d
    have := countP_set (held d) s.threads t th th' ht
    have h1 : held d th = false := by simp [held, hc]
    have h2 : held d th' = false := by simp [held, hc']
    simp only [h1, h2, Bool.false_eq_true, if_false] at this
    simp only [cnt, e1, e2]
    omega
  refine ⟨?_, by rw [e2]; exact h.queue, fun c => by rw [hcnt]; exact h.one c, fun c hc => by rw [hcnt]; exact h.fresh c (by omega),
    fun c hc => h.known c (by omega), fun c hc hz => h.gone c (by omega) (by rw [← hcnt]; exact hz)⟩
  intro u x hx
  rw [e1, List.getElem?_set] at hx
  split at hx
  · split at hx
    · simp only [Option.some.injEq] at hx; subst hx; exact Fits.none hc'
    · simp at hx
  · exact h.fits u x hx

/-- What the step lemma says: the phases follow what is seen. -/
def Stays (cfg : Cfg) (s' : Srv) (ph : Nat → Phase) (o : List Obs) : Prop :=
  ∃ ph', (∀ c, follow cfg (ph c) (ofConn c o) = some (ph' c)) ∧ Inv cfg s' ph'

theorem stays_silent {cfg : Cfg} {s' : Srv} {ph : Nat → Phase} {o : List Obs} (h : Inv cfg s' ph) (ho : ∀ c, ofConn c o = []) :
    Stays cfg s' ph o := ⟨ph, fun c => by rw [ho]; rfl, h⟩

theorem follow_one {cfg : Cfg} {ph : Nat → Phase} {c : Nat} {p : Phase} {o : Obs} (ha : aboutConn o = some c)
    (hn : Phase.next cfg (ph c) o = some p) (d : Nat) :
    follow cfg (ph d) (ofConn d [o]) = some (if d = c then p else ph d) := by
  by_cases hd : d = c
  · subst hd
    simp [follow, ofConn, ha, hn]
  · have : ¬ (c = d) := fun e => hd e.symm
    simp [follow, ofConn, ha, hd, this]

theorem others {cfg : Cfg} {s : Srv} {ph : Nat → Phase} (h : Inv cfg s ph) {t c : Nat} {th : Thread}
    (ht : s.threads[t]? = some th) (hc : th.pc.conn = some c) :
    (∀ (u : Nat) (x : Thread), u ≠ t → s.threads[u]? = some x → x.pc.conn ≠ some c) ∧ c ∉ s.queue ∧ c < s.next ∧
      s.threads.countP (held c) = 1 := by
  have h1 := h.one c
  have h2 := countP_pos_of ht (held_iff.2 hc)
  unfold cnt at h1
  refine ⟨?_, ?_, ?_, by omega⟩
  · intro u x hu hx he
    have := two_le hx ht hu (held_iff.2 he) (held_iff.2 hc)
    omega
  · intro hq
    have := List.count_pos_iff.2 hq
    omega
  · rcases Nat.lt_or_ge c s.next with hlt | hge
    · exact hlt
    · have := (h.fresh c hge).1
      unfold cnt at this
      omega

/-- Thread `t` goes from `th` to `th'` and may start `sp`; the queue stays. -/
theorem cnt_move {s s' : Srv} {t : Nat} {th th' : Thread} {sp : List Thread} (ht : s.threads[t]? = some th)
    (e1 : s'.threads = s.threads.set t th' ++ sp) (d : Nat) (q : s'.queue.count d = s.queue.count d) :
    cnt s' d + (if held d th then 1 else 0) = cnt s d + (if held d th' then 1 else 0) + sp.countP (held d) := by
  have := countP_set (held d) s.threads t th th' ht
  simp only [cnt, e1, List.countP_append, q]
  omega

theorem held_none {d : Nat} {th : Thread} (h : th.pc.conn = none) : held d th = false := by simp [held, h]
theorem held_ne {d c : Nat} {th : Thread} (h : th.pc.conn = some c) (hd : d ≠ c) : held d th = false := by
  simp [held, h]; exact fun e => hd e.symm

/-- A serving thread makes a call and goes on with the same connection. -/
theorem stays_body {cfg : Cfg} {s : Srv} {ph : Nat → Phase} (h : Inv cfg s ph) {t c : Nat} {th : Thread} {st : Stage}
    {pend : Option PyExc} (ht : s.threads[t]? = some th) (hpc : th.pc = .body c st pend) {pc' : PC} {r : Res} {p : Phase}
    (hn : Phase.next cfg (phaseAt cfg t st) (.did t c st r) = some p)
    (hp : p ≠ .unseen)
    (hf : (pc'.conn = none ∧ p = .over) ∨ (∃ st' pend', pc' = .body c st' pend' ∧ p = phaseAt cfg t st' ∧ Reaches cfg st' ∧
      (∀ e, pend' = some e → e.isException = false) ∧ (pend' ≠ none → cfg.kind = .forking))) :
    Stays cfg (s.at_ t th pc') ph [.did t c st r] := by
  have hc : th.pc.conn = some c := by rw [hpc]; rfl
  obtain ⟨o1, o2, o3, o4⟩ := others h ht hc
  have hfit := h.fits t th ht
  rw [hpc] at hfit
  have e1 : (s.at_ t th pc').threads = s.threads.set t { th with pc := pc' } ++ [] := by simp [Srv.at_]
  have hheld := held_iff.2 hc
  have hcnt := fun d => cnt_move (s' := s.at_ t th pc') ht e1 d rfl
  refine ⟨_, follow_one (c := c) (p := p) rfl (by rw [hfit.1]; exact hn), ?_⟩
  have hone := h.one c
  have hpos : 0 < cnt s c := by unfold cnt; omega
  have hcc := hcnt c
  simp only [hheld, if_true, List.countP_nil, Nat.add_zero] at hcc
  refine h.move ht e1 ?_ o1 ?_ (by simp) ?_ ?_ (Nat.le_refl _) (by simp [Srv.at_]) (by simp [Srv.at_]) o3 hp ?_
  · intro d hd
    have h1 := hcnt d
    have h2 : held d { th with pc := pc' } = false := by
      rcases hf with ⟨h3, -⟩ | ⟨st', pend', h3, -⟩
      · exact held_none h3
      · exact held_ne (c := c) (by rw [h3]; rfl) hd
    simp only [held_ne hc hd, h2, Bool.false_eq_true, if_false, List.countP_nil, Nat.add_zero] at h1
    exact h1
  · rcases hf with ⟨h3, -⟩ | ⟨st', pend', h3, h4, h5, h6, h7⟩
    · exact Fits.none h3
    · simp only [h3, Fits, if_true]
      exact ⟨h4, h5, h6, h7⟩
  · intro d hd
    have hne : d ≠ c := fun e => o2 (e ▸ hd)
    simp only [if_neg hne]
    exact h.queue d hd
  · split at hcc <;> omega
  · intro hz
    rcases hf with ⟨-, h4⟩ | ⟨st', pend', h3, -⟩
    · exact h4
    · have : held c { th with pc := pc' } = true := held_iff.2 (by rw [h3]; rfl)
      simp only [this, if_true] at hcc
      omega

def PendOK (cfg : Cfg) (pend : Option PyExc) : Prop :=
  (∀ e, pend = some e → e.isException = false) ∧ (pend ≠ none → cfg.kind = .forking)

def GoesOn (cfg : Cfg) (t c : Nat) (pc' : PC) (p : Phase) : Prop :=
  (pc'.conn = none ∧ p = .over) ∨ (∃ st' pend', pc' = .body c st' pend' ∧ p = phaseAt cfg t st' ∧ Reaches cfg st' ∧
      (∀ e, pend' = some e → e.isException = false) ∧ (pend' ≠ none → cfg.kind = .forking))

theorem outer_conn (e : PyExc) : (outer e).conn = none := by cases e <;> rfl
theorem returned_conn (cfg : Cfg) (pend : Option PyExc) : (returned cfg pend).conn = none := by
  unfold returned
  split <;> first | rfl | (split <;> first | rfl | exact outer_conn _)
theorem raised_conn (cfg : Cfg) (e : PyExc) : (raised cfg e).conn = none := by
  unfold raised
  split <;> first | rfl | exact outer_conn _ | (split <;> rfl)

theorem phaseAt_unseen (cfg : Cfg) (t : Nat) (st : Stage) : phaseAt cfg t st ≠ .unseen := by cases st <;> simp [phaseAt]

theorem after_some {cfg : Cfg} {t c : Nat} {st st' : Stage} (hr : Reaches cfg st) (ha : st.after cfg = some st') :
    Phase.next cfg (phaseAt cfg t st) (.did t c st .ok) = some (phaseAt cfg t st') ∧ Reaches cfg st' := by
  rcases cfg with ⟨kind, header⟩
  cases st <;> cases header <;> by_cases hk : kind = .processPool <;>
    simp [Reaches, oneTransport, hk] at hr <;>
    simp [Stage.after, hk] at ha <;> subst ha <;>
    simp [Phase.next, phaseAt, madeAt, ready, oneTransport, closedIn, hk, Reaches]

theorem after_none {cfg : Cfg} {t c : Nat} {st : Stage} (hr : Reaches cfg st) (ha : st.after cfg = none) :
    Phase.next cfg (phaseAt cfg t st) (.did t c st .ok) = some .over := by
  rcases cfg with ⟨kind, header⟩
  cases st <;> cases header <;> by_cases hk : kind = .processPool <;>
    simp [Reaches, oneTransport, hk] at hr <;>
    simp [Stage.after, hk] at ha <;>
    simp [Phase.next, phaseAt, madeAt, ready, oneTransport, closedIn, hk]

theorem continued_ok {cfg : Cfg} {t c : Nat} {st : Stage} {pend : Option PyExc} (hr : Reaches cfg st) (hp : PendOK cfg pend) :
    ∃ p, Phase.next cfg (phaseAt cfg t st) (.did t c st .ok) = some p ∧ p ≠ .unseen ∧
      GoesOn cfg t c (continued cfg c st pend) p := by
  cases ha : st.after cfg with
  | none =>
    refine ⟨_, after_none hr ha, by simp, Or.inl ⟨?_, rfl⟩⟩
    simp only [continued, ha]
    exact returned_conn _ _
  | some st' =>
    obtain ⟨h1, h2⟩ := after_some (t := t) (c := c) hr ha
    refine ⟨_, h1, phaseAt_unseen _ _ _, Or.inr ⟨st', pend, ?_, rfl, h2, hp.1, hp.2⟩⟩
    simp only [continued, ha]

theorem get_raises {cfg : Cfg} {t c : Nat} {st : Stage} (hr : Reaches cfg st) (e : PyExc)
    (h1 : st ≠ .process) (h2 : st ≠ .closeI) (h3 : st ≠ .closeO) :
    Phase.next cfg (phaseAt cfg t st) (.did t c st (.raise e)) = some .over := by
  rcases cfg with ⟨kind, header⟩
  cases st <;> cases header <;> by_cases hk : kind = .processPool <;>
    simp [Reaches, oneTransport, hk] at hr <;>
    simp at h1 h2 h3 <;>
    simp [Phase.next, phaseAt, madeAt, hk]

theorem ready_process (cfg : Cfg) : ready cfg (madeAt cfg .process) = true := by
  rcases cfg with ⟨kind, header⟩
  cases header <;> by_cases hk : kind = .processPool <;> simp [ready, madeAt, oneTransport, hk]

theorem failed_ok {cfg : Cfg} {t c : Nat} {st : Stage} {pend : Option PyExc} (hr : Reaches cfg st) (hp : PendOK cfg pend)
    (e : PyExc) :
    ∃ p, Phase.next cfg (phaseAt cfg t st) (.did t c st (.raise e)) = some p ∧ p ≠ .unseen ∧
      GoesOn cfg t c (failed cfg c st pend e) p := by
  have hover : ∀ st, st ≠ .process → st ≠ .closeI → st ≠ .closeO → Reaches cfg st →
      ∃ p, Phase.next cfg (phaseAt cfg t st) (.did t c st (.raise e)) = some p ∧ p ≠ .unseen ∧
      GoesOn cfg t c (raised cfg e) p := fun st h1 h2 h3 hr =>
    ⟨_, get_raises hr e h1 h2 h3, by simp, Or.inl ⟨raised_conn _ _, rfl⟩⟩
  cases st with
  | getI => exact hover _ (by simp) (by simp) (by simp) hr
  | getIP => exact hover _ (by simp) (by simp) (by simp) hr
  | getO => exact hover _ (by simp) (by simp) (by simp) hr
  | getOP => exact hover _ (by simp) (by simp) (by simp) hr
  | process =>
    by_cases he : e.isException = true
    · refine ⟨.mustClose t, ?_, by simp, Or.inr ⟨.closeI, none, ?_, rfl, ?_, by simp, by simp⟩⟩
      · simp [Phase.next, phaseAt, ready_process, he]
      · simp [failed, he]
      · exact fun _ => by simp
    · by_cases hk : cfg.kind = .forking
      · refine ⟨.mustClose t, ?_, by simp, Or.inr ⟨.closeI, some e, ?_, rfl, ?_, ?_, fun _ => hk⟩⟩
        · simp [Phase.next, phaseAt, ready_process, hk]
        · simp [failed, he, hk]
        · exact fun _ => by simp
        · intro e' h'; simp only [Option.some.injEq] at h'; subst h'; simpa using he
      · refine ⟨.over, ?_, by simp, Or.inl ⟨?_, rfl⟩⟩
        · simp [Phase.next, phaseAt, ready_process, hk, he]
        · simp only [failed, he, hk, if_false, Bool.false_eq_true]
          exact raised_conn _ _
  | closeI =>
    by_cases hh : cfg.kind = .forking ∧ e = .io
    · obtain ⟨p, h1, h2, h3⟩ := continued_ok (t := t) (c := c) hr hp
      refine ⟨p, ?_, h2, ?_⟩
      · rw [← h1]; simp [Phase.next, phaseAt, harmless, hh]
      · simp only [failed, if_pos hh]; exact h3
    · refine ⟨.over, ?_, by simp, Or.inl ⟨?_, rfl⟩⟩
      · have : harmless cfg e = false := by
          simp only [harmless, Bool.and_eq_false_iff, decide_eq_false_iff_not]
          by_cases hk : cfg.kind = .forking
          · exact Or.inr (fun h => hh ⟨hk, h⟩)
          · exact Or.inl hk
        simp [Phase.next, phaseAt, this]
      · simp only [failed, if_neg hh]
        exact raised_conn _ _
  | closeO =>
    refine ⟨.over, by simp [Phase.next, phaseAt], by simp, Or.inl ⟨?_, rfl⟩⟩
    simp only [failed]
    split
    · simp only [continued, Stage.after]; exact returned_conn _ _
    · exact raised_conn _ _

/-- The head of the loop holds nothing. -/
theorem loopHead_conn (cfg : Cfg) : (loopHead cfg).conn = none := by unfold loopHead; split <;> rfl
theorem acceptRaises_conn (cfg : Cfg) (e : PyExc) : (acceptRaises cfg e).conn = none := by
  unfold acceptRaises
  split <;> first | rfl | (split <;> rfl)
theorem afterAccept_conn (cfg : Cfg) (c : Nat) : (afterAccept cfg c).conn = some c := by
  unfold afterAccept
  split <;> rfl

theorem at_threads (s : Srv) (t : Nat) (th : Thread) (pc : PC) :
    (s.at_ t th pc).threads = s.threads.set t { th with pc := pc } := rfl

/-- A thread goes from nothing to nothing. -/
theorem stays_idle {cfg : Cfg} {s : Srv} {ph : Nat → Phase} (h : Inv cfg s ph) {t : Nat} {th th' : Thread} {pc : PC} {o : List Obs}
    (ht : s.threads[t]? = some th) (hc : th.pc.conn = none) (hc' : pc.conn = none) (ho : ∀ c, ofConn c o = []) :
    Stays cfg (s.at_ t th' pc) ph o :=
  stays_silent (h.idle ht (th' := { th' with pc := pc }) (at_threads _ _ _ _) hc hc' rfl rfl) ho

/-- A thread hands its connection to a place where it waits, or drops it. -/
theorem stays_given {cfg : Cfg} {s s' : Srv} {ph : Nat → Phase} (h : Inv cfg s ph) {t c : Nat} {th th' : Thread} {sp : List Thread}
    (ht : s.threads[t]? = some th) (hc : th.pc.conn = some c) (hc' : th'.pc.conn = none)
    (e1 : s'.threads = s.threads.set t th' ++ sp) (e0 : s'.next = s.next)
    (hw : ph c = .accepted)
    (hs : ∀ x ∈ sp, x.pc = .body c .getI none)
    (hq : ∀ d, s'.queue.count d + sp.length * (if c = d then 1 else 0) = s.queue.count d + (if c = d then 1 else 0)) :
    Stays cfg s' ph [] := by
  obtain ⟨o1, o2, o3, o4⟩ := others h ht hc
  have hsp : ∀ d, sp.countP (held d) = sp.length * (if c = d then 1 else 0) := by
    intro d
    by_cases hd : c = d
    · subst hd
      simp only [if_true, Nat.mul_one]
      rw [List.countP_eq_length.2]
      intro x hx
      exact held_iff.2 (by rw [hs x hx]; rfl)
    · simp only [if_neg hd, Nat.mul_zero]
      rw [List.countP_eq_zero]
      intro x hx
      rw [held_ne (c := c) (by rw [hs x hx]; rfl) (fun e => hd e.symm)]
      simp
  have hcnt : ∀ d, cnt s' d = cnt s d := by
    intro d
    have h1 := countP_set (held d) s.threads t th th' ht
    have h2 := hsp d
    have h3 := hq d
    simp only [cnt, e1, List.countP_append]
    rw [held_none hc'] at h1
    by_cases hd : c = d
    · subst hd
      simp only [held_iff.2 hc, if_true, Bool.false_eq_true, if_false, Nat.mul_one] at *
      omega
    · rw [held_ne hc (fun e => hd e.symm)] at h1
      simp only [if_neg hd, Bool.false_eq_true, if_false, Nat.mul_zero] at *
      omega
  refine stays_silent ⟨?_, ?_, fun d => by rw [hcnt]; exact h.one d, fun d hd => by rw [hcnt]; exact h.fresh d (by omega),
    fun d hd => h.known d (by omega), fun d hd hz => h.gone d (by omega) (by rw [← hcnt]; exact hz)⟩ (fun _ => rfl)
  · intro u x hx
    rw [e1] at hx
    have hlen : (s.threads.set t th').length = s.threads.length := List.length_set
    rcases Nat.lt_or_ge u s.threads.length with hu | hu
    · rw [List.getElem?_append_left (by omega), List.getElem?_set] at hx
      split at hx
      · rename_i hut
        subst hut
        rw [if_pos hu, Option.some.injEq] at hx
        subst hx
        exact Fits.none hc'
      · exact h.fits u x hx
    · rw [List.getElem?_append_right (by omega)] at hx
      rw [hs x (List.mem_of_getElem? hx)]
      exact ⟨hw, fun _ => by simp, by simp, by simp⟩
  · intro d hd
    by_cases hdc : c = d
    · subst hdc; exact hw
    · have h1 := hq d
      simp only [if_neg hdc, Nat.mul_zero, Nat.add_zero] at h1
      have h2 := List.count_pos_iff.2 hd
      exact h.queue d (List.count_pos_iff.1 (by omega))

/-- A connection is dropped before it is served. -/
theorem stays_dropped {cfg : Cfg} {s : Srv} {ph : Nat → Phase} (h : Inv cfg s ph) {t c : Nat} {th : Thread} {pc : PC} {o : Obs}
    (ht : s.threads[t]? = some th) (hc : th.pc.conn = some c) (hc' : pc.conn = none) (ha : aboutConn o = some c)
    (hn : Phase.next cfg (ph c) o = some .over) : Stays cfg (s.at_ t th pc) ph [o] := by
  obtain ⟨o1, o2, o3, o4⟩ := others h ht hc
  have e1 : (s.at_ t th pc).threads = s.threads.set t { th with pc := pc } ++ [] := by simp [Srv.at_]
  have hcnt := fun d => cnt_move (s' := s.at_ t th pc) ht e1 d rfl
  have hone := h.one c
  have hcc := hcnt c
  have hh : held c { th with pc := pc } = false := held_none hc'
  simp only [held_iff.2 hc, hh, if_true, List.countP_nil, Nat.add_zero, Bool.false_eq_true, if_false] at hcc
  refine ⟨_, follow_one ha hn, h.move ht e1 ?_ o1 (Fits.none hc') (by simp) ?_ (by omega) (Nat.le_refl _) (by simp [Srv.at_])
    (by simp [Srv.at_]) o3 (by simp) (fun _ => rfl)⟩
  · intro d hd
    have h1 := hcnt d
    have h2 : held d { th with pc := pc } = false := held_none hc'
    simp only [held_ne hc hd, h2, Bool.false_eq_true, if_false, List.countP_nil, Nat.add_zero] at h1
    exact h1
  · intro d hd
    have hne : d ≠ c := fun e => o2 (e ▸ hd)
    simp only [if_neg hne]
    exact h.queue d hd

/-- A connection is accepted. -/
theorem stays_accepted {cfg : Cfg} {s : Srv} {ph : Nat → Phase} (h : Inv cfg s ph) {t : Nat} {th : Thread}
    (ht : s.threads[t]? = some th) (hc : th.pc.conn = none) :
    Stays cfg ({ s with next := s.next + 1 }.at_ t th (afterAccept cfg s.next)) ph [.accepted t s.next] := by
  obtain ⟨f1, f2⟩ := h.fresh s.next (Nat.le_refl _)
  have hpc := afterAccept_conn cfg s.next
  have e1 : ({ s with next := s.next + 1 }.at_ t th (afterAccept cfg s.next)).threads =
      s.threads.set t { th with pc := afterAccept cfg s.next } ++ [] := by simp [Srv.at_]
  have hcnt := fun d => cnt_move (s' := { s with next := s.next + 1 }.at_ t th (afterAccept cfg s.next)) ht e1 d rfl
  have hcc := hcnt s.next
  have hh : held s.next { th with pc := afterAccept cfg s.next } = true := held_iff.2 hpc
  simp only [held_none hc, hh, if_true, List.countP_nil, Nat.add_zero, Bool.false_eq_true, if_false] at hcc
  refine ⟨_, follow_one (c := s.next) (p := .accepted) rfl (by rw [f2]; rfl), h.move ht e1 ?_ ?_ ?_ (by simp) ?_ (by omega)
    (by simp [Srv.at_]) (by simp [Srv.at_]) (fun _ => rfl) (by simp [Srv.at_]) (by simp) (fun hz => by omega)⟩
  · intro d hd
    have h1 := hcnt d
    have h2 : held d { th with pc := afterAccept cfg s.next } = false := held_ne (c := s.next) hpc hd
    simp only [held_none hc, h2, Bool.false_eq_true, if_false, List.countP_nil, Nat.add_zero] at h1
    exact h1
  · intro u x hu hx he
    have := countP_pos_of hx (held_iff.2 he)
    unfold cnt at f1
    omega
  · show Fits cfg _ t (afterAccept cfg s.next)
    unfold afterAccept
    split <;> simp [Fits, phaseAt, Reaches]
  · intro d hd
    have hq : d ∈ s.queue := hd
    have hne : d ≠ s.next := fun e => by
      have h0 := (h.fresh d (by omega)).1
      have := List.count_pos_iff.2 hq
      unfold cnt at h0
      omega
    simp only [if_neg hne]
    exact h.queue d hq

/-- A pool thread takes a connection from the queue. -/
theorem stays_take {cfg : Cfg} {s : Srv} {ph : Nat → Phase} (h : Inv cfg s ph) {t c : Nat} {th : Thread} {q : List Nat}
    (ht : s.threads[t]? = some th) (hc : th.pc.conn = none) (hq : s.queue = c :: q) :
    Stays cfg ({ s with queue := q }.at_ t th (.body c .getI none)) ph [] := by
  have hcnt : ∀ d, cnt ({ s with queue := q }.at_ t th (.body c .getI none)) d = cnt s d := by
    intro d
    have h1 := countP_set (held d) s.threads t th { th with pc := .body c .getI none } ht
    have h2 : held d { th with pc := .body c .getI none } = (c == d) := by simp [held, PC.conn]
    rw [held_none hc, h2] at h1
    simp only [cnt, Srv.at_, hq, List.count_cons]
    simp only [Bool.false_eq_true, if_false] at h1
    omega
  refine stays_silent ⟨?_, fun d hd => h.queue d (by rw [hq]; exact List.mem_cons_of_mem _ hd),
    fun d => by rw [hcnt]; exact h.one d, fun d hd => by rw [hcnt]; exact h.fresh d hd,
    fun d hd => h.known d hd, fun d hd hz => h.gone d hd (by rw [← hcnt]; exact hz)⟩ (fun _ => rfl)
  intro u x hx
  rw [at_threads, List.getElem?_set] at hx
  split at hx
  · split at hx
    · simp only [Option.some.injEq] at hx; subst hx
      exact ⟨h.queue c (by rw [hq]; exact List.mem_cons_self), fun _ => by simp, by simp, by simp⟩
    · simp at hx
  · exact h.fits u x hx

/-- The invariant holds after every event. -/
theorem inv_step {cfg : Cfg} {s s' : Srv} {ph : Nat → Phase} {e : Event} {o : List Obs} (h : Inv cfg s ph)
    (hs : s.step cfg e = some (s', o)) : Stays cfg s' ph o := by
  cases e with
  | stop =>
    simp only [Srv.step, Option.some.injEq, Prod.mk.injEq] at hs
    obtain ⟨rfl, rfl⟩ := hs
    exact stays_silent ⟨h.fits, h.queue, h.one, h.fresh, h.known, h.gone⟩ (fun _ => rfl)
  | go t r =>
    simp only [Srv.step] at hs
    split at hs
    · simp at hs
    rename_i th ht
    have hfit := h.fits t th ht
    cases hpc : th.pc with
    | accept =>
      have hc : th.pc.conn = none := by rw [hpc]; rfl
      cases r with
      | client =>
        simp only [Srv.go, hpc, Option.some.injEq, Prod.mk.injEq] at hs
        obtain ⟨rfl, rfl⟩ := hs
        exact stays_accepted h ht hc
      | nothing =>
        simp only [Srv.go, hpc, Option.some.injEq, Prod.mk.injEq] at hs
        obtain ⟨rfl, rfl⟩ := hs
        exact stays_idle h ht hc (loopHead_conn _) (fun _ => rfl)
      | raise e =>
        simp only [Srv.go, hpc, Option.some.injEq, Prod.mk.injEq] at hs
        obtain ⟨rfl, rfl⟩ := hs
        exact stays_idle h ht hc (acceptRaises_conn _ _) (fun _ => rfl)
      | _ => simp [Srv.go, hpc] at hs
    | start c =>
      have hc : th.pc.conn = some c := by rw [hpc]; rfl
      rw [hpc] at hfit
      cases r with
      | ok =>
        simp only [Srv.go, hpc, Option.some.injEq, Prod.mk.injEq] at hs
        obtain ⟨rfl, rfl⟩ := hs
        exact stays_given h (th' := { th with pc := .accept }) (sp := [{ pc := .body c .getI none }]) ht hc rfl rfl rfl hfit
          (by simp) (fun d => by simp [Srv.at_])
      | raise e =>
        simp only [Srv.go, hpc, Option.some.injEq, Prod.mk.injEq] at hs
        obtain ⟨rfl, rfl⟩ := hs
        exact stays_dropped h ht hc (by split <;> rfl) rfl (by rw [hfit]; rfl)
      | _ => simp [Srv.go, hpc] at hs
    | put c =>
      have hc : th.pc.conn = some c := by rw [hpc]; rfl
      rw [hpc] at hfit
      cases r with
      | ok =>
        simp only [Srv.go, hpc, Option.some.injEq, Prod.mk.injEq] at hs
        obtain ⟨rfl, rfl⟩ := hs
        exact stays_given h (th' := { th with pc := .accept }) (sp := []) ht hc rfl (by simp [Srv.at_]) rfl hfit
          (by simp) (fun d => by simp [Srv.at_, List.count_append, List.count_singleton])
      | _ => simp [Srv.go, hpc] at hs
    | take =>
      have hc : th.pc.conn = none := by rw [hpc]; rfl
      cases r with
      | ok =>
        simp only [Srv.go, hpc] at hs
        split at hs
        · simp at hs
        · rename_i c q hq
          simp only [Option.some.injEq, Prod.mk.injEq] at hs
          obtain ⟨rfl, rfl⟩ := hs
          exact stays_take h ht hc hq
      | _ => simp [Srv.go, hpc] at hs
    | fork c =>
      have hc : th.pc.conn = some c := by rw [hpc]; rfl
      rw [hpc] at hfit
      cases r with
      | pid n =>
        simp only [Srv.go, hpc, Option.some.injEq, Prod.mk.injEq] at hs
        obtain ⟨rfl, rfl⟩ := hs
        exact stays_given h (th' := { pc := .collect c, children := th.children ++ [n] })
          (sp := [{ th with pc := .body c .getI none }]) ht hc rfl rfl rfl hfit (by simp) (fun d => by simp [Srv.at_])
      | raise e =>
        simp only [Srv.go, hpc, Option.some.injEq, Prod.mk.injEq] at hs
        obtain ⟨rfl, rfl⟩ := hs
        exact stays_dropped h ht hc (outer_conn _) rfl (by rw [hfit]; rfl)
      | _ => simp [Srv.go, hpc] at hs
    | collect c =>
      have hc : th.pc.conn = none := by rw [hpc]; rfl
      simp only [Srv.go, hpc] at hs
      split at hs
      · split at hs
        · simp only [Option.some.injEq, Prod.mk.injEq] at hs
          obtain ⟨rfl, rfl⟩ := hs
          exact stays_idle h ht hc rfl (fun _ => rfl)
        · simp at hs
      · split at hs
        · simp only [Option.some.injEq, Prod.mk.injEq] at hs
          obtain ⟨rfl, rfl⟩ := hs
          exact stays_idle h ht hc rfl (fun _ => rfl)
        · simp only [Option.some.injEq, Prod.mk.injEq] at hs
          obtain ⟨rfl, rfl⟩ := hs
          exact stays_idle h ht hc rfl (fun _ => rfl)
        · split at hs
          · simp only [Option.some.injEq, Prod.mk.injEq] at hs
            obtain ⟨rfl, rfl⟩ := hs
            exact stays_idle h ht hc rfl (fun _ => rfl)
          · simp only [Option.some.injEq, Prod.mk.injEq] at hs
            obtain ⟨rfl, rfl⟩ := hs
            exact stays_idle h ht hc rfl (fun _ => rfl)
        · simp at hs
    | parent c st =>
      have hc : th.pc.conn = none := by rw [hpc]; rfl
      simp only [Srv.go, hpc] at hs
      split at hs
      · simp at hs
      · rename_i pc hps
        simp only [Option.some.injEq, Prod.mk.injEq] at hs
        obtain ⟨rfl, rfl⟩ := hs
        refine stays_idle h ht hc ?_ (fun _ => rfl)
        revert hps
        cases r <;> cases st <;> simp [parentStep] <;> rintro rfl <;> first | rfl | exact outer_conn _ |
          (split <;> first | rfl | exact outer_conn _)
    | body c st pend =>
      rw [hpc] at hfit
      obtain ⟨f1, f2, f3, f4⟩ := hfit
      cases r with
      | ok =>
        simp only [Srv.go, hpc, Option.some.injEq, Prod.mk.injEq] at hs
        obtain ⟨rfl, rfl⟩ := hs
        obtain ⟨p, h1, h2, h3⟩ := continued_ok (t := t) (c := c) f2 ⟨f3, f4⟩
        exact stays_body h ht hpc h1 h2 h3
      | raise e =>
        simp only [Srv.go, hpc, Option.some.injEq, Prod.mk.injEq] at hs
        obtain ⟨rfl, rfl⟩ := hs
        obtain ⟨p, h1, h2, h3⟩ := failed_ok (t := t) (c := c) f2 ⟨f3, f4⟩ e
        exact stays_body h ht hpc h1 h2 h3
      | _ => simp [Srv.go, hpc] at hs
    | check =>
      have hc : th.pc.conn = none := by rw [hpc]; rfl
      cases r with
      | ok =>
        simp only [Srv.go, hpc, Option.some.injEq, Prod.mk.injEq] at hs
        obtain ⟨rfl, rfl⟩ := hs
        exact stays_idle h ht hc (by split <;> rfl) (fun _ => rfl)
      | _ => simp [Srv.go, hpc] at hs
    | done => cases r <;> simp [Srv.go, hpc] at hs
    | dead e => cases r <;> simp [Srv.go, hpc] at hs

theorem follow_append (cfg : Cfg) (p : Phase) (a b : List Obs) :
    follow cfg p (a ++ b) = (follow cfg p a).bind fun q => follow cfg q b := by
  simp [follow, List.foldlM_append]

theorem ofConn_append (c : Nat) (a b : List Obs) : ofConn c (a ++ b) = ofConn c a ++ ofConn c b := by simp [ofConn]

theorem run_cons {cfg : Cfg} {s s'' : Srv} {e : Event} {es : List Event} {os : List Obs}
    (h : s.run cfg (e :: es) = some (s'', os)) :
    ∃ s' o os', s.step cfg e = some (s', o) ∧ s'.run cfg es = some (s'', os') ∧ os = o ++ os' := by
  simp only [Srv.run] at h
  split at h
  · simp at h
  · rename_i s' o hs
    split at h
    · simp at h
    · rename_i s2 os' hr
      simp only [Option.some.injEq, Prod.mk.injEq] at h
      obtain ⟨rfl, rfl⟩ := h
      exact ⟨s', o, os', hs, hr, rfl⟩

theorem inv_run {cfg : Cfg} : ∀ {es : List Event} {s s' : Srv} {ph : Nat → Phase} {os : List Obs}, Inv cfg s ph →
    s.run cfg es = some (s', os) → Stays cfg s' ph os
  | [], s, s', ph, os, h, hr => by
    simp only [Srv.run, Option.some.injEq, Prod.mk.injEq] at hr
    obtain ⟨rfl, rfl⟩ := hr
    exact stays_silent h (fun _ => rfl)
  | e :: es, s, s', ph, os, h, hr => by
    obtain ⟨s1, o, os', h1, h2, rfl⟩ := run_cons hr
    obtain ⟨ph1, f1, i1⟩ := inv_step h h1
    obtain ⟨ph2, f2, i2⟩ := inv_run i1 h2
    refine ⟨ph2, fun c => ?_, i2⟩
    rw [ofConn_append, follow_append, f1 c]
    exact f2 c

theorem inv_init (cfg : Cfg) (workers : Nat) : Inv cfg (init cfg workers) (fun _ => .unseen) := by
  have hnone : ∀ th ∈ (init cfg workers).threads, th.pc.conn = none := by
    unfold init
    intro th hth
    split at hth
    · simp only [List.mem_cons] at hth
      rcases hth with rfl | hth
      · rfl
      · rw [(List.mem_replicate.1 hth).2]; rfl
    · rw [(List.mem_replicate.1 hth).2]; rfl
    · simp only [List.mem_singleton] at hth
      subst hth; rfl
  have hq : (init cfg workers).queue = [] := by unfold init; split <;> rfl
  have hn : (init cfg workers).next = 0 := by unfold init; split <;> rfl
  have hz : ∀ c, cnt (init cfg workers) c = 0 := by
    intro c
    unfold cnt
    rw [hq, List.countP_eq_zero.2]
    · rfl
    · intro th hth
      rw [held_none (hnone th hth)]; simp
  exact ⟨fun t th ht => Fits.none (hnone th (List.mem_of_getElem? ht)), by simp [hq], fun c => by rw [hz]; omega,
    fun c _ => ⟨hz c, rfl⟩, fun c hc => by rw [hn] at hc; omega, fun c hc => by rw [hn] at hc; omega⟩

end Thrift.Servers
