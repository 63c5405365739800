import Verif.Proofs.Nonblocking
/-
The invariant of the nonblocking server.
-/

namespace Thrift.Nonblocking
open Spec

/-- How many tasks of connection `i` are queued or running. -/
def cnt (s : Srv) (i : Nat) : Nat := (s.tasks ++ s.running).countP fun t => t.1 == i

/-- How the state of a connection and what was seen of it belong together; `n` is the number of its
tasks. -/
inductive PhaseOK (cr : Bool) (n : Nat) (c : Conn) : Phase → Prop
  | idle : c.sock = true → c.status = .waitLen ∨ c.status = .waitMessage → n = 0 → PhaseOK cr n c .idle
  | processing : c.sock = true → c.status = .waitProcess → n = 1 → PhaseOK cr n c .processing
  | sending : c.sock = true → c.status = .sendAnswer → n = 0 → c.wbuf ≠ [] → PhaseOK cr n c (.sending c.wbuf)
  | closed : c.sock = false → n = 0 → c.status = .closed ∨ cr = true → PhaseOK cr n c .closed

/-- The bytes received, the requests queued so far, those waiting and the rest belong together. -/
def Framing (i : Nat) (received : List Message) (rbuf : Bytes) (t : List Obs) : Prop :=
  ∃ ds qs, All2 Begins (inputsOn i t) ds ∧ All2 Carries received qs ∧
    receivedOn i t = frames (ds ++ qs) ++ rbuf ∧ ∀ b ∈ ds ++ qs, b.length < 2 ^ 31

structure ConnInv (cr : Bool) (n i : Nat) (c : Conn) (t : List Obs) : Prop where
  phase : ∃ p, follow .idle t = some p ∧ PhaseOK cr n c p
  framing : Framing i c.received c.rbuf t
  rd : ReadInv c
  rest : c.sock = true → c.rbuf.length < c.reading.fin

/-- The connection an action of the main thread is about. -/
def actConn : Act → Option Nat
  | .read i _ => some i
  | .write i => some i
  | .oob i => some i
  | _ => none

/-- An action that was chosen still fits the state of its connection. -/
def ActOK (conns : List Conn) : Act → Prop
  | .read i sel => ∃ c, conns[i]? = some c ∧ c.sock = true ∧ (c.status = .waitLen ∨ c.status = .waitMessage) ∧
      (sel = true → c.received = [])
  | .write i => ∃ c, conns[i]? = some c ∧ c.sock = true ∧ c.status = .sendAnswer
  | .oob i => ∃ c, conns[i]? = some c ∧ c.sock = true ∧
      (c.status = .waitLen ∨ c.status = .waitMessage ∨ c.status = .sendAnswer)
  | _ => True

structure Inv (s : Srv) (os : List Obs) : Prop where
  conn : ∀ i c, s.conns[i]? = some c → ConnInv s.crashed (cnt s i) i c (ofConn i os)
  fresh : ∀ i, s.conns.length ≤ i → ofConn i os = [] ∧ cnt s i = 0
  clients : s.clients.Nodup
  keys : ∀ i ∈ s.clients, i < s.conns.length
  todo : ∀ a ∈ s.todo, ActOK s.conns a
  nodup : (s.todo.filterMap actConn).Nodup
  crashed : s.crashed = true → s.todo = []

/-! ## Traces -/

theorem ofConn_append (i : Nat) (a b : List Obs) : ofConn i (a ++ b) = ofConn i a ++ ofConn i b := by
  simp [ofConn]

theorem follow_append (p : Phase) (a b : List Obs) : follow p (a ++ b) = (follow p a).bind (follow · b) := by
  unfold follow
  rw [List.foldlM_append]
  rfl

theorem receivedOn_append (i : Nat) (a b : List Obs) : receivedOn i (a ++ b) = receivedOn i a ++ receivedOn i b := by
  simp [receivedOn]

theorem inputsOn_append (i : Nat) (a b : List Obs) : inputsOn i (a ++ b) = inputsOn i a ++ inputsOn i b := by
  simp [inputsOn]

theorem receivedOn_ofConn (i : Nat) (os : List Obs) : receivedOn i (ofConn i os) = receivedOn i os := by
  induction os with
  | nil => rfl
  | cons o os ih =>
    rw [show o :: os = [o] ++ os from rfl, ofConn_append, receivedOn_append, receivedOn_append, ih]
    congr 1
    cases o <;> simp [ofConn, aboutConn, receivedOn]
    rename_i j b
    by_cases h : j = i <;> simp [h]

theorem inputsOn_ofConn (i : Nat) (os : List Obs) : inputsOn i (ofConn i os) = inputsOn i os := by
  induction os with
  | nil => rfl
  | cons o os ih =>
    rw [show o :: os = [o] ++ os from rfl, ofConn_append, inputsOn_append, inputsOn_append, ih]
    congr 1
    cases o <;> simp [ofConn, aboutConn, inputsOn]
    rename_i j b
    by_cases h : j = i <;> simp [h]

/-! ## Frame conditions -/

theorem PhaseOK.mono {cr cr' : Bool} {n : Nat} {c : Conn} {p : Phase} (h : PhaseOK cr n c p)
    (hc : cr = true → cr' = true) : PhaseOK cr' n c p := by
  cases h with
  | idle a b d => exact .idle a b d
  | processing a b d => exact .processing a b d
  | sending a b d e => exact .sending a b d e
  | closed a b d => exact .closed a b (d.imp id hc)

theorem ConnInv.mono {cr cr' : Bool} {n i : Nat} {c : Conn} {t : List Obs} (h : ConnInv cr n i c t)
    (hc : cr = true → cr' = true) : ConnInv cr' n i c t := by
  obtain ⟨p, h1, h2⟩ := h.phase
  exact ⟨⟨p, h1, h2.mono hc⟩, h.framing, h.rd, h.rest⟩

theorem ActOK.set {conns : List Conn} {a : Act} {i : Nat} {c' : Conn} (h : ActOK conns a)
    (hi : actConn a ≠ some i) : ActOK (conns.set i c') a := by
  cases a with
  | drain => trivial
  | accept => trivial
  | read j sel =>
    obtain ⟨c, h1, h2⟩ := h
    refine ⟨c, ?_, h2⟩
    rw [List.getElem?_set_ne]
    · exact h1
    · intro e; subst e; exact hi rfl
  | write j =>
    obtain ⟨c, h1, h2⟩ := h
    refine ⟨c, ?_, h2⟩
    rw [List.getElem?_set_ne]
    · exact h1
    · intro e; subst e; exact hi rfl
  | oob j =>
    obtain ⟨c, h1, h2⟩ := h
    refine ⟨c, ?_, h2⟩
    rw [List.getElem?_set_ne]
    · exact h1
    · intro e; subst e; exact hi rfl

theorem lt_of_get {conns : List Conn} {i : Nat} {c : Conn} (h : conns[i]? = some c) : i < conns.length := by
  rcases Nat.lt_or_ge i conns.length with h1 | h1
  · exact h1
  · rw [List.getElem?_eq_none h1] at h; simp at h

/-- A step that changes one connection. -/
theorem Inv.update {s s' : Srv} {os o : List Obs} {i : Nat} {c c' : Conn} (h : Inv s os)
    (hc : s.conns[i]? = some c) (e1 : s'.conns = s.conns.set i c')
    (e2 : ∀ j, j ≠ i → cnt s' j = cnt s j) (e3 : ∀ j, j ≠ i → ofConn j o = [])
    (e4 : s'.clients = s.clients) (e5 : s.crashed = true → s'.crashed = true)
    (e6 : ∀ a ∈ s'.todo, ActOK s'.conns a) (e7 : (s'.todo.filterMap actConn).Nodup)
    (e8 : s'.crashed = true → s'.todo = [])
    (hi : ConnInv s'.crashed (cnt s' i) i c' (ofConn i os ++ ofConn i o)) : Inv s' (os ++ o) := by
  have hlt := lt_of_get hc
  refine ⟨?_, ?_, by rw [e4]; exact h.clients, ?_, e6, e7, e8⟩
  · intro j d hd
    rw [ofConn_append]
    by_cases hj : j = i
    · subst hj
      rw [e1, List.getElem?_set_self hlt] at hd
      injection hd with hd
      rw [← hd]
      exact hi
    · rw [e1, List.getElem?_set_ne (fun e => hj e.symm)] at hd
      rw [e3 j hj, List.append_nil, e2 j hj]
      exact (h.conn j d hd).mono e5
  · intro j hj
    rw [e1, List.length_set] at hj
    have hne : j ≠ i := by omega
    rw [ofConn_append, e3 j hne, List.append_nil, e2 j hne]
    exact h.fresh j hj
  · intro j hj
    rw [e4] at hj
    rw [e1, List.length_set]
    exact h.keys j hj

/-- Forget the first action. -/
theorem Inv.tail {s : Srv} {os : List Obs} {a : Act} {as : List Act} (h : Inv s os) (ht : s.todo = a :: as) :
    Inv { s with todo := as } os := by
  refine ⟨h.conn, h.fresh, h.clients, h.keys, fun b hb => h.todo b (by rw [ht]; simp [hb]), ?_, ?_⟩
  · have := h.nodup
    rw [ht, List.filterMap_cons] at this
    cases ha : actConn a with
    | none => rw [ha] at this; exact this
    | some i => rw [ha] at this; exact (List.nodup_cons.1 this).2
  · intro hc
    have := h.crashed hc
    rw [ht] at this
    simp at this

theorem other_acts {s : Srv} {os : List Obs} {a : Act} {as : List Act} {i : Nat} (h : Inv s os)
    (ht : s.todo = a :: as) (ha : actConn a = some i) : ∀ b ∈ as, actConn b ≠ some i := by
  intro b hb he
  have := h.nodup
  rw [ht, List.filterMap_cons, ha] at this
  exact (List.nodup_cons.1 this).1 (List.mem_filterMap.2 ⟨b, hb, he⟩)

/-! ## Worker events -/

theorem inv_take {s s' : Srv} {os o : List Obs} {threads : Nat} (h : Inv s os)
    (he : s.step threads .take = some (s', o)) : Inv s' (os ++ o) := by
  unfold Srv.step at he
  simp only at he
  cases ht : s.tasks with
  | nil => rw [ht] at he; simp at he
  | cons t ts =>
    rw [ht] at he
    simp only at he
    split at he
    · simp only [Option.some.injEq, Prod.mk.injEq] at he
      obtain ⟨rfl, rfl⟩ := he
      have hcnt : ∀ j, cnt { s with tasks := ts, running := s.running ++ [t] } j = cnt s j := by
        intro j
        simp only [cnt, ht, List.countP_append, List.countP_cons, List.countP_nil]
        omega
      rw [List.append_nil]
      exact ⟨fun i c hc => by rw [hcnt]; exact h.conn i c hc, fun i hi => by rw [hcnt]; exact h.fresh i hi,
        h.clients, h.keys, h.todo, h.nodup, h.crashed⟩
    · simp at he

theorem countP_eraseIdx {α : Type} (p : α → Bool) : ∀ (l : List α) (k : Nat) (a : α), l[k]? = some a →
    (l.eraseIdx k).countP p + (if p a then 1 else 0) = l.countP p
  | [], k, a, h => by simp at h
  | b :: l, 0, a, h => by
    simp only [List.getElem?_cons_zero, Option.some.injEq] at h
    subst h
    simp [List.countP_cons]
  | b :: l, k + 1, a, h => by
    simp only [List.getElem?_cons_succ] at h
    have := countP_eraseIdx p l k a h
    simp only [List.eraseIdx_cons_succ, List.countP_cons]
    omega

theorem beFrame {m : Bytes} (h : m.length < 2 ^ 31) : packS 4 (m.length : Int) = .ok (beInt 4 m.length) := by
  refine packS_eq (n := 4) ?_
  unfold InRange
  omega

/-- What a worker does to a connection that is being processed. -/
theorem finish_conn {cr : Bool} {i : Nat} {c c' : Conn} {t : List Obs} {reply : Option Bytes}
    (h : ConnInv cr 1 i c t) (he : c.finish reply = .ok c') :
    c.status = .waitProcess ∧
    ConnInv cr 0 i c' (t ++ ofConn i ([.finished i reply] ++ closing i c c')) := by
  obtain ⟨⟨p, hp, hpo⟩, ⟨ds, qs, f1, f2, f3, f4⟩, hrd, hrest⟩ := h
  have hfr : ∀ (c' : Conn) (o : List Obs), c'.received = c.received → c'.rbuf = c.rbuf → inputsOn i o = [] →
      receivedOn i o = [] → Framing i c'.received c'.rbuf (t ++ o) := by
    intro c' o h1 h2 h3 h4
    refine ⟨ds, qs, by rw [inputsOn_append, h3, List.append_nil]; exact f1, by rw [h1]; exact f2, ?_, f4⟩
    rw [receivedOn_append, h4, List.append_nil, h2]; exact f3
  cases hpo with
  | idle _ _ hn => omega
  | sending _ _ hn _ => omega
  | closed _ hn _ => omega
  | processing hs hst _ =>
    refine ⟨hst, ?_⟩
    have hclose : c.ready false [] = .ok c.close := by simp [Conn.ready, hst]
    have hfail : follow .idle t = some .processing → ∀ r : Option Bytes,
        Phase.next .processing (.finished i r) = some .failed →
        follow .idle (t ++ ofConn i ([.finished i r] ++ closing i c c.close)) = some .closed := by
      intro h1 r h2
      rw [follow_append, h1]
      simp only [closing, hs, Conn.close, Bool.not_false, and_self, if_true, ofConn, aboutConn, List.cons_append,
        List.nil_append, List.filter_cons, beq_self_eq_true, List.filter_nil, Option.bind_some, follow,
        List.foldlM_cons, h2]
      rfl
    have key : ∀ r : Option Bytes, Phase.next .processing (.finished i r) = some .failed →
        ConnInv cr 0 i c.close (t ++ ofConn i ([.finished i r] ++ closing i c c.close)) := by
      intro r h2
      refine ⟨⟨_, hfail hp r h2, .closed rfl rfl (.inl rfl)⟩, hfr c.close _ rfl rfl ?_ ?_, hrd, fun h => by simp [Conn.close] at h⟩
      · simp [closing, hs, Conn.close, ofConn, aboutConn, inputsOn]
      · simp [closing, hs, Conn.close, ofConn, aboutConn, receivedOn]
    cases reply with
    | none =>
      simp only [Conn.finish, hclose, Except.ok.injEq] at he
      subst he
      exact key none rfl
    | some m =>
      simp only [Conn.finish] at he
      have hcl : ∀ (st : Status) (w : Bytes), closing i c { c with wbuf := w, status := st } = [] := by
        intro st w; simp [closing, hs]
      by_cases hm : m = []
      · subst hm
        simp only [Conn.ready, hst, ne_eq, not_true_eq_false, if_false, Bool.not_true, List.length_nil, if_true,
          Except.ok.injEq, Bool.false_eq_true] at he
        subst he
        rw [hcl]
        refine ⟨⟨.idle, ?_, .idle hs (.inl rfl) rfl⟩, hfr _ _ rfl rfl ?_ ?_, hrd, hrest⟩
        · rw [follow_append, hp]; simp [ofConn, aboutConn, follow, Phase.next]
        · simp [ofConn, aboutConn, inputsOn]
        · simp [ofConn, aboutConn, receivedOn]
      · have hlen : m.length ≠ 0 := by simpa using hm
        by_cases hl : m.length < 2 ^ 31
        · simp only [Conn.ready, hst, ne_eq, not_true_eq_false, if_false, Bool.not_true, hlen,
            Bool.false_eq_true, beFrame hl, Except.ok.injEq] at he
          subst he
          rw [hcl]
          refine ⟨⟨.sending (beInt 4 m.length ++ m), ?_, ?_⟩, hfr _ _ rfl rfl ?_ ?_, hrd, hrest⟩
          · rw [follow_append, hp]
            simp only [ofConn, aboutConn, List.append_nil, List.filter_cons, beq_self_eq_true, if_true,
              List.filter_nil, Option.bind_some, follow, List.foldlM_cons, Phase.next, if_neg hm, if_pos hl]
            rfl
          · exact PhaseOK.sending (c := { c with wbuf := beInt 4 m.length ++ m, status := .sendAnswer }) hs rfl rfl
              (by simp [hm])
          · simp [ofConn, aboutConn, inputsOn]
          · simp [ofConn, aboutConn, receivedOn]
        · have hpk : packS 4 (m.length : Int) = .error .structError := by
            unfold packS
            refine if_neg ?_
            intro h
            have := h.2
            omega
          simp only [Conn.ready, hst, ne_eq, not_true_eq_false, if_false, Bool.not_true, hlen,
            Bool.false_eq_true, hpk, Bool.not_false, if_true, Except.ok.injEq] at he
          subst he
          exact key (some m) (by simp only [Phase.next, if_neg hm, if_neg hl])

theorem finish_waits {c : Conn} {reply : Option Bytes} {e : Exc} (hs : c.status = .waitProcess) :
    c.finish reply ≠ .error e := by
  have hclose : c.ready false [] = .ok c.close := by simp [Conn.ready, hs]
  unfold Conn.finish
  cases reply with
  | none => simp [hclose]
  | some m =>
    simp only
    cases c.ready true m with
    | ok c' => simp
    | error e' => simp [hclose]

theorem closing_other {i j : Nat} (hj : j ≠ i) (c c' : Conn) : ofConn j (closing i c c') = [] := by
  unfold closing
  split
  · simp [ofConn, aboutConn]; exact fun e => hj e.symm
  · rfl

theorem inv_finish {s s' : Srv} {os o : List Obs} {threads : Nat} {k : Nat} {reply : Option Bytes} (h : Inv s os)
    (he : s.step threads (.finish k reply) = some (s', o)) : Inv s' (os ++ o) := by
  unfold Srv.step at he
  simp only at he
  cases hk : s.running[k]? with
  | none => rw [hk] at he; simp at he
  | some x =>
    obtain ⟨i, m⟩ := x
    rw [hk] at he
    simp only at he
    cases hc : s.conns[i]? with
    | none => rw [hc] at he; simp at he
    | some c =>
      rw [hc] at he
      simp only at he
      have hinv := h.conn i c hc
      have hce := countP_eraseIdx (fun t : Nat × Message => t.1 == i) s.running k (i, m) hk
      simp only [beq_self_eq_true, if_true] at hce
      have hpos : cnt s i = 1 := by
        obtain ⟨p, -, hpo⟩ := hinv.phase
        have : 0 < cnt s i := by simp only [cnt, List.countP_append]; omega
        cases hpo <;> omega
      rw [hpos] at hinv
      have hst : c.status = .waitProcess := by
        obtain ⟨p, -, hpo⟩ := hinv.phase
        cases hpo <;> first | assumption | omega
      cases hf : c.finish reply with
      | error e => exact absurd hf (finish_waits hst)
      | ok c' =>
        rw [hf] at he
        simp only [Option.some.injEq, Prod.mk.injEq] at he
        obtain ⟨rfl, rfl⟩ := he
        refine h.update hc rfl ?_ ?_ rfl id ?_ h.nodup h.crashed ?_
        · intro j hj
          have := countP_eraseIdx (fun t : Nat × Message => t.1 == j) s.running k (i, m) hk
          have hne : ((i == j) = false) := by simpa using fun e => hj e.symm
          simp only [hne, Bool.false_eq_true, if_false] at this
          simp only [cnt, List.countP_append]
          omega
        · intro j hj
          rw [ofConn_append, closing_other hj]
          simp [ofConn, aboutConn]
          exact fun e => hj e.symm
        · intro a ha
          refine (h.todo a ha).set ?_
          intro e
          have hok := h.todo a ha
          cases a with
          | drain => simp [actConn] at e
          | accept => simp [actConn] at e
          | read j sel =>
            simp only [actConn, Option.some.injEq] at e
            subst e
            obtain ⟨d, h1, -, h3, -⟩ := hok
            rw [hc] at h1; injection h1 with h1; subst h1
            rw [hst] at h3; simp at h3
          | write j =>
            simp only [actConn, Option.some.injEq] at e
            subst e
            obtain ⟨d, h1, -, h3⟩ := hok
            rw [hc] at h1; injection h1 with h1; subst h1
            rw [hst] at h3; simp at h3
          | oob j =>
            simp only [actConn, Option.some.injEq] at e
            subst e
            obtain ⟨d, h1, -, h3⟩ := hok
            rw [hc] at h1; injection h1 with h1; subst h1
            rw [hst] at h3; simp at h3
        · have hcnt : cnt { s with running := s.running.eraseIdx k, conns := s.conns.set i c' } i = 0 := by
            simp only [cnt, List.countP_append] at hpos ⊢
            omega
          rw [hcnt]
          exact (finish_conn hinv hf).2

/-! ## The main thread -/

theorem inv_dispatch {s : Srv} {os o0 : List Obs} {i : Nat} {c c' : Conn} (h : Inv s os)
    (hc : s.conns[i]? = some c) (hacts : ∀ a ∈ s.todo, actConn a ≠ some i)
    (ho : ∀ j, j ≠ i → ofConn j o0 = []) (hcnt : cnt s i = 0)
    (hph : ∃ p, follow .idle (ofConn i os ++ ofConn i o0) = some p ∧
      (c'.sock = true ∧ p = .idle ∨ c'.sock = false ∧ p = .closed))
    (hfr : Framing i c'.received c'.rbuf (ofConn i os ++ ofConn i o0)) (hrd : ReadInv c')
    (hrest : c'.sock = true → c'.rbuf.length < c'.reading.fin)
    (hst : c'.received = [] → c'.sock = false ∧ c'.status = .closed ∨
      c'.sock = true ∧ (c'.status = .waitLen ∨ c'.status = .waitMessage)) :
    Inv (s.dispatch i c').1 (os ++ (o0 ++ (s.dispatch i c').2)) := by
  obtain ⟨p, hp1, hp2⟩ := hph
  have hself : ∀ b, ofConn i [.dispatched i b] = [.dispatched i b] := by
    intro b; simp [ofConn, aboutConn]
  have hoth : ∀ b j, j ≠ i → ofConn j [.dispatched i b] = [] := by
    intro b j hj; simp [ofConn, aboutConn]; exact fun e => hj e.symm
  unfold Srv.dispatch
  cases hr : c'.received with
  | nil =>
    simp only [List.append_nil]
    refine h.update hc rfl (fun _ _ => rfl) ho rfl id ?_ h.nodup h.crashed ⟨⟨p, hp1, ?_⟩, hfr, hrd, hrest⟩
    · exact fun a ha => (h.todo a ha).set (hacts a ha)
    · have hcnt' : cnt { s with conns := s.conns.set i c' } i = 0 := hcnt
      rw [hcnt']
      rcases hst hr with ⟨h1, h2⟩ | ⟨h1, h2⟩
      · rcases hp2 with ⟨g1, g2⟩ | ⟨g1, g2⟩
        · rw [h1] at g1; simp at g1
        · rw [g2]; exact .closed h1 rfl (.inl h2)
      · rcases hp2 with ⟨g1, g2⟩ | ⟨g1, g2⟩
        · rw [g2]; exact .idle h1 h2 rfl
        · rw [h1] at g1; simp at g1
  | cons m ms =>
    simp only
    by_cases hs : c'.sock = true
    · rw [if_neg (by simp [hs])]
      have hpi : p = .idle := by
        rcases hp2 with ⟨g1, g2⟩ | ⟨g1, g2⟩
        · exact g2
        · rw [hs] at g1; simp at g1
      subst hpi
      have hcnt' : ∀ j, cnt { s with
          conns := s.conns.set i { c' with status := .waitProcess, received := ms }
          tasks := s.tasks ++ [(i, m)] } j = cnt s j + (if i = j then 1 else 0) := by
        intro j
        simp only [cnt, List.countP_append, List.countP_cons, List.countP_nil, beq_iff_eq]
        omega
      refine h.update hc rfl ?_ ?_ rfl id ?_ h.nodup h.crashed ?_
      · intro j hj
        rw [hcnt', if_neg (fun e => hj e.symm)]; rfl
      · intro j hj
        rw [ofConn_append, ho j hj, hoth _ j hj]; rfl
      · exact fun a ha => (h.todo a ha).set (hacts a ha)
      · rw [hcnt', hcnt, if_pos rfl, ofConn_append, hself, ← List.append_assoc]
        refine ⟨⟨.processing, ?_, .processing hs rfl rfl⟩, ?_, hrd, hrest⟩
        · rw [follow_append, hp1]; rfl
        · obtain ⟨ds, qs, f1, f2, f3, f4⟩ := hfr
          rw [hr] at f2
          obtain ⟨q, qs', rfl, ⟨trail, g1⟩, g2⟩ := f2.split
          refine ⟨ds ++ [q], qs', ?_, g2, ?_, by simpa using f4⟩
          · rw [inputsOn_append]
            refine f1.append ?_
            simp only [inputsOn, List.filterMap_cons, if_true, List.filterMap_nil]
            exact .cons ⟨trail, g1⟩ .nil
          · rw [receivedOn_append, f3]
            simp [receivedOn]
    · have hs' : c'.sock = false := by simpa using hs
      rw [if_pos (by simp [hs'])]
      unfold Srv.crash
      simp only
      refine h.update hc rfl (fun _ _ => rfl) ?_ rfl (fun _ => rfl) (by simp) (by simp) (fun _ => rfl) ?_
      · intro j hj
        rw [ofConn_append, ho j hj]; simp [ofConn, aboutConn]
      · refine Eq.subst (motive := fun n => ConnInv true n i _ _) hcnt.symm ?_
        rw [ofConn_append, show ofConn i [Obs.crashed] = [] from rfl, List.append_nil]
        refine ⟨⟨p, hp1, ?_⟩, by simpa [hr] using hfr, hrd, fun h => hrest h⟩
        rcases hp2 with ⟨g1, g2⟩ | ⟨g1, g2⟩
        · rw [hs'] at g1; simp at g1
        · rw [g2]; exact .closed hs' rfl (.inr rfl)

theorem taken_all (rs : List Recv) : taken rs [] = bytesOf rs := by
  simp only [taken, bytesOf, List.length_nil, Nat.sub_zero, List.take_length]
  rfl

/-- One more observation that leaves the phase as it is. -/
theorem ofConn_self_received (i : Nat) (b : Bytes) : ofConn i [.received i b] = [.received i b] := by
  simp [ofConn, aboutConn]

theorem ofConn_closing_self (i : Nat) (c c' : Conn) : ofConn i (closing i c c') = closing i c c' := by
  unfold closing
  split
  · simp [ofConn, aboutConn]
  · rfl

theorem inputsOn_closing (i j : Nat) (c c' : Conn) : inputsOn j (closing i c c') = [] := by
  unfold closing
  split <;> rfl

theorem receivedOn_closing (i j : Nat) (c c' : Conn) : receivedOn j (closing i c c') = [] := by
  unfold closing
  split <;> rfl

theorem follow_closing_idle {i : Nat} {c c' : Conn} (hs : c.sock = true) :
    follow .idle (closing i c c') = some (if c'.sock = true then .idle else .closed) := by
  unfold closing
  cases h : c'.sock <;> simp [hs, follow, Phase.next]

theorem follow_closing_sending {i : Nat} {c c' : Conn} {l : Bytes} (hs : c.sock = true) :
    follow (.sending l) (closing i c c') = some (if c'.sock = true then .sending l else .closed) := by
  unfold closing
  cases h : c'.sock <;> simp [hs, follow, Phase.next]

/-- The phase of a connection from its state. -/
theorem phase_idle {cr : Bool} {n : Nat} {c : Conn} {p : Phase} (h : PhaseOK cr n c p) (hs : c.sock = true)
    (hst : c.status = .waitLen ∨ c.status = .waitMessage) : p = .idle ∧ n = 0 := by
  cases h with
  | idle _ _ hn => exact ⟨rfl, hn⟩
  | processing _ h2 _ => rw [h2] at hst; simp at hst
  | sending _ h2 _ _ => rw [h2] at hst; simp at hst
  | closed h1 _ _ => rw [hs] at h1; simp at h1

theorem phase_sending {cr : Bool} {n : Nat} {c : Conn} {p : Phase} (h : PhaseOK cr n c p) (hs : c.sock = true)
    (hst : c.status = .sendAnswer) : p = .sending c.wbuf ∧ n = 0 ∧ c.wbuf ≠ [] := by
  cases h with
  | idle _ h2 _ => rw [hst] at h2; simp at h2
  | processing _ h2 _ => rw [h2] at hst; simp at hst
  | sending _ _ hn hw => exact ⟨rfl, hn, hw⟩
  | closed h1 _ _ => rw [hs] at h1; simp at h1

theorem inv_read_selected {s s' : Srv} {os o : List Obs} {i : Nat} {rs : List Recv} (h : Inv s os)
    (hok : ActOK s.conns (.read i true)) (hacts : ∀ a ∈ s.todo, actConn a ≠ some i)
    (he : s.mainStep (.read i true) (.recv rs) = some (s', o)) : Inv s' (os ++ o) := by
  obtain ⟨c, hc, hs, hst, hrec⟩ := hok
  have hrec := hrec rfl
  have hci := h.conn i c hc
  obtain ⟨p, hp, hpo⟩ := hci.phase
  obtain ⟨rfl, hcnt⟩ := phase_idle hpo hs hst
  obtain ⟨ds, qs, f1, f2, f3, f4⟩ := hci.framing
  unfold Srv.mainStep at he
  simp only [hc] at he
  unfold Conn.read at he
  rw [if_neg (fun hn => hn hst), if_neg (by simp [hrec])] at he
  cases hl : readLoop rs true c with
  | none => rw [hl] at he; simp at he
  | some x =>
    obtain ⟨c', left⟩ := x
    rw [hl] at he
    simp only at he
    by_cases hleft : left = []
    · subst hleft
      rw [if_neg (by simp)] at he
      simp only [Option.some.injEq, Prod.mk.injEq] at he
      obtain ⟨rfl, rfl⟩ := he
      obtain ⟨contents, g1, g2, g3, g4, g5, g6, g7, g8, g9⟩ := readLoop_spec rs true c c' hci.rd hci.rest hrec hl
      have hq : qs = [] := by rw [hrec] at f2; cases f2; rfl
      subst hq
      rw [taken_all]
      refine inv_dispatch (c := c) h hc hacts ?_ hcnt ?_ ?_ g4 g6 ?_
      · intro j hj
        rw [ofConn_append, closing_other hj]
        simp [ofConn, aboutConn]; exact fun e => hj e.symm
      · rw [ofConn_append, ofConn_self_received, ofConn_closing_self, follow_append, hp, Option.bind_some, follow_append,
          show follow .idle [.received i (bytesOf rs)] = some .idle from rfl, Option.bind_some, follow_closing_idle hs]
        refine ⟨_, rfl, ?_⟩
        cases c'.sock <;> simp
      · refine ⟨ds, contents, ?_, g1, ?_, ?_⟩
        · rw [ofConn_append, ofConn_self_received, ofConn_closing_self, inputsOn_append, inputsOn_append, inputsOn_closing]
          simpa [inputsOn] using f1
        · rw [ofConn_append, ofConn_self_received, ofConn_closing_self, receivedOn_append, receivedOn_append,
            receivedOn_closing, f3, frames_append, frames_append]
          simp only [List.append_nil, List.append_assoc, ← g2]
          simp [receivedOn, frames]
        · intro b hb
          rcases List.mem_append.1 hb with hb | hb
          · exact f4 b (by simp [hb])
          · exact g3 b hb
      · intro hr
        rcases g8 hr with h1 | ⟨h1, h2⟩
        · exact .inl h1
        · refine .inr ⟨h1, ?_⟩
          rcases h2 with h2 | h2
          · rw [h2]; exact hst
          · exact .inr h2
    · rw [if_pos hleft] at he; simp at he

theorem inv_read_left {s s' : Srv} {os o : List Obs} {i : Nat} {b : Bool} (h : Inv s os)
    (hok : ActOK s.conns (.read i false)) (hacts : ∀ a ∈ s.todo, actConn a ≠ some i)
    (he : s.mainStep (.read i false) (.main b) = some (s', o)) : Inv s' (os ++ o) := by
  obtain ⟨c, hc, hs, hst, -⟩ := hok
  have hci := h.conn i c hc
  obtain ⟨p, hp, hpo⟩ := hci.phase
  obtain ⟨rfl, hcnt⟩ := phase_idle hpo hs hst
  unfold Srv.mainStep at he
  simp only [hc, Option.some.injEq] at he
  have := inv_dispatch (c := c) (c' := c) (o0 := []) h hc hacts (fun _ _ => rfl) hcnt
    ⟨.idle, by rw [show ofConn i [] = [] from rfl, List.append_nil]; exact hp, .inl ⟨hs, rfl⟩⟩
    (by rw [show ofConn i [] = [] from rfl, List.append_nil]; exact hci.framing) hci.rd hci.rest (fun _ => .inr ⟨hs, hst⟩)
  rw [he] at this
  exact this

theorem write_open {c : Conn} (r : Send) (hs : c.sock = true) (hst : c.status = .sendAnswer) :
    c.write r = match r with
      | .error => (.ok c.close, [])
      | .sent n =>
        if n ≥ c.wbuf.length then (.ok { c with status := .waitLen, wbuf := [] }, c.wbuf)
        else (.ok { c with wbuf := c.wbuf.drop n }, c.wbuf.take n) := by
  unfold Conn.write
  rw [if_neg (by simp [hst]), if_pos hs]
  rfl

theorem inv_write {s s' : Srv} {os o : List Obs} {i : Nat} {r : Send} (h : Inv s os)
    (hok : ActOK s.conns (.write i)) (hacts : ∀ a ∈ s.todo, actConn a ≠ some i)
    (he : s.mainStep (.write i) (.send r) = some (s', o)) : Inv s' (os ++ o) := by
  obtain ⟨c, hc, hs, hst⟩ := hok
  have hci := h.conn i c hc
  obtain ⟨p, hp, hpo⟩ := hci.phase
  obtain ⟨rfl, hcnt, hw⟩ := phase_sending hpo hs hst
  obtain ⟨ds, qs, f1, f2, f3, f4⟩ := hci.framing
  have key : ∀ (c' : Conn) (b : Bytes) (p' : Phase), c'.received = c.received → c'.rbuf = c.rbuf → c'.reading = c.reading →
      (c'.sock = true → c.sock = true) →
      follow (.sending c.wbuf) ([.sent i b] ++ closing i c c') = some p' → PhaseOK s.crashed 0 c' p' →
      Inv { s with conns := s.conns.set i c' } (os ++ ([.sent i b] ++ closing i c c')) := by
    intro c' b p' e1 e2 e3 e4 e5 e6
    refine h.update hc rfl (fun _ _ => rfl) ?_ rfl id (fun a ha => (h.todo a ha).set (hacts a ha)) h.nodup h.crashed ?_
    · intro j hj
      rw [ofConn_append, closing_other hj]
      simp [ofConn, aboutConn]; exact fun e => hj e.symm
    · have hcnt' : cnt { s with conns := s.conns.set i c' } i = 0 := hcnt
      have hof : ofConn i ([.sent i b] ++ closing i c c') = [.sent i b] ++ closing i c c' := by
        rw [ofConn_append, ofConn_closing_self]; simp [ofConn, aboutConn]
      rw [hcnt', hof]
      refine ⟨⟨p', by rw [follow_append, hp]; exact e5, e6⟩, ⟨ds, qs, ?_, by rw [e1]; exact f2, ?_, f4⟩, ?_, ?_⟩
      · rw [inputsOn_append, inputsOn_append, inputsOn_closing]; simpa [inputsOn] using f1
      · rw [receivedOn_append, receivedOn_append, receivedOn_closing, f3, e2]; simp [receivedOn]
      · have := hci.rd
        unfold ReadInv at this ⊢
        rw [e2, e3]; exact this
      · rw [e2, e3]; exact fun h => hci.rest (e4 h)
  unfold Srv.mainStep at he
  simp only [hc] at he
  rw [write_open r hs hst] at he
  cases r with
  | error =>
    simp only [Option.some.injEq, Prod.mk.injEq] at he
    obtain ⟨rfl, rfl⟩ := he
    refine key c.close [] .closed rfl rfl rfl (by simp [Conn.close]) ?_ (.closed rfl rfl (.inl rfl))
    rw [follow_append]
    have : follow (.sending c.wbuf) [.sent i []] = some (.sending c.wbuf) := by
      simp only [follow, List.foldlM_cons, Phase.next, if_neg (fun e : [] = c.wbuf => hw e.symm)]
      rw [if_pos (List.nil_prefix)]
      rfl
    rw [this, Option.bind_some, follow_closing_sending hs]
    rfl
  | sent n =>
    simp only at he
    by_cases hn : n ≥ c.wbuf.length
    · rw [if_pos hn] at he
      simp only [Option.some.injEq, Prod.mk.injEq] at he
      obtain ⟨rfl, rfl⟩ := he
      refine key { c with status := .waitLen, wbuf := [] } c.wbuf .idle rfl rfl rfl id ?_ (.idle hs (.inl rfl) rfl)
      have : closing i c { c with status := .waitLen, wbuf := [] } = [] := by simp [closing, hs]
      rw [this]
      simp [follow, Phase.next]
    · rw [if_neg hn] at he
      simp only [Option.some.injEq, Prod.mk.injEq] at he
      obtain ⟨rfl, rfl⟩ := he
      have hne : c.wbuf.take n ≠ c.wbuf := by
        intro e
        have := congrArg List.length e
        rw [List.length_take] at this
        omega
      refine key { c with wbuf := c.wbuf.drop n } (c.wbuf.take n) (.sending (c.wbuf.drop n)) rfl rfl rfl id ?_ ?_
      · have : closing i c { c with wbuf := c.wbuf.drop n } = [] := by simp [closing, hs]
        rw [this]
        simp only [List.append_nil, follow, List.foldlM_cons, Phase.next, if_neg hne,
          if_pos (List.take_prefix n c.wbuf), List.length_take, Nat.min_eq_left (by omega : n ≤ c.wbuf.length)]
        rfl
      · refine PhaseOK.sending (c := { c with wbuf := c.wbuf.drop n }) hs hst rfl ?_
        intro e
        have := congrArg List.length e
        simp only [List.length_drop, List.length_nil] at this
        omega

theorem inv_oob {s s' : Srv} {os o : List Obs} {i : Nat} {b : Bool} (h : Inv s os)
    (hok : ActOK s.conns (.oob i)) (hacts : ∀ a ∈ s.todo, actConn a ≠ some i)
    (he : s.mainStep (.oob i) (.main b) = some (s', o)) : Inv s' (os ++ o) := by
  obtain ⟨c, hc, hs, hst⟩ := hok
  have hci := h.conn i c hc
  obtain ⟨p, hp, hpo⟩ := hci.phase
  have hcl : closing i c c.close = [.closed i] := by simp [closing, hs, Conn.close]
  have hp2 : cnt s i = 0 ∧ follow p [.closed i] = some .closed := by
    rcases hst with hst | hst | hst
    · obtain ⟨rfl, hcnt⟩ := phase_idle hpo hs (.inl hst)
      exact ⟨hcnt, rfl⟩
    · obtain ⟨rfl, hcnt⟩ := phase_idle hpo hs (.inr hst)
      exact ⟨hcnt, rfl⟩
    · obtain ⟨rfl, hcnt, -⟩ := phase_sending hpo hs hst
      exact ⟨hcnt, rfl⟩
  unfold Srv.mainStep at he
  simp only [hc, Option.some.injEq, Prod.mk.injEq] at he
  obtain ⟨rfl, rfl⟩ := he
  rw [hcl]
  refine h.update hc rfl (fun _ _ => rfl) ?_ rfl id (fun a ha => (h.todo a ha).set (hacts a ha)) h.nodup h.crashed ?_
  · intro j hj
    simp [ofConn, aboutConn]; exact fun e => hj e.symm
  · have hcnt' : cnt { s with conns := s.conns.set i c.close } i = 0 := hp2.1
    have hof : ofConn i [.closed i] = [.closed i] := by simp [ofConn, aboutConn]
    rw [hcnt', hof]
    obtain ⟨ds, qs, f1, f2, f3, f4⟩ := hci.framing
    refine ⟨⟨.closed, by rw [follow_append, hp]; exact hp2.2, .closed rfl rfl (.inl rfl)⟩, ⟨ds, qs, ?_, f2, ?_, f4⟩, hci.rd,
      by simp [Conn.close]⟩
    · rw [inputsOn_append]; simpa [inputsOn] using f1
    · rw [receivedOn_append, f3]; simp [receivedOn, Conn.close]

theorem inv_accept {s : Srv} {os : List Obs} (h : Inv s os) :
    Inv { s with conns := s.conns ++ [{}], clients := s.clients ++ [s.conns.length] }
      (os ++ [.accepted s.conns.length]) := by
  have hof : ∀ j, ofConn j (os ++ [.accepted s.conns.length]) = ofConn j os := by
    intro j; rw [ofConn_append]; simp [ofConn, aboutConn]
  refine ⟨?_, ?_, ?_, ?_, ?_, h.nodup, h.crashed⟩
  · intro i c hc
    rw [hof]
    rcases Nat.lt_or_ge i s.conns.length with hi | hi
    · rw [List.getElem?_append_left hi] at hc
      exact h.conn i c hc
    · rw [List.getElem?_append_right hi] at hc
      have hi' : i = s.conns.length := by
        rcases Nat.eq_or_lt_of_le hi with e | e
        · exact e.symm
        · rw [List.getElem?_eq_none (by simp only [List.length_singleton]; omega)] at hc
          simp at hc
      subst hi'
      simp only [Nat.sub_self, List.getElem?_cons_zero, Option.some.injEq] at hc
      obtain ⟨h1, h2⟩ := h.fresh s.conns.length (Nat.le_refl _)
      rw [h1]
      have hcnt' : cnt { s with conns := s.conns ++ [{}], clients := s.clients ++ [s.conns.length] } s.conns.length = 0 := h2
      rw [hcnt', ← hc]
      exact ⟨⟨.idle, rfl, .idle rfl (.inl rfl) rfl⟩, ⟨[], [], .nil, .nil, rfl, by simp⟩, .inl rfl, by
        intro _; decide⟩
  · intro i hi
    rw [hof]
    exact h.fresh i (by simp only [List.length_append, List.length_singleton] at hi; omega)
  · rw [List.nodup_append]
    refine ⟨h.clients, by simp, ?_⟩
    intro a ha b hb e
    simp only [List.mem_singleton] at hb
    have := h.keys a ha
    omega
  · intro i hi
    simp only [List.length_append, List.length_singleton]
    rcases List.mem_append.1 hi with hi | hi
    · have := h.keys i hi; omega
    · simp only [List.mem_singleton] at hi; omega
  · intro a ha
    have hok := h.todo a ha
    have hget : ∀ (j : Nat) (c : Conn), s.conns[j]? = some c → (s.conns ++ [({} : Conn)])[j]? = some c := by
      intro j c hc
      rw [List.getElem?_append_left (lt_of_get hc)]; exact hc
    cases a with
    | drain => trivial
    | accept => trivial
    | read j sel => obtain ⟨c, h1, h2⟩ := hok; exact ⟨c, hget j c h1, h2⟩
    | write j => obtain ⟨c, h1, h2⟩ := hok; exact ⟨c, hget j c h1, h2⟩
    | oob j => obtain ⟨c, h1, h2⟩ := hok; exact ⟨c, hget j c h1, h2⟩

theorem inv_mainStep {s s' : Srv} {os o : List Obs} {a : Act} {as : List Act} {e : Event} (h : Inv s os)
    (ht : s.todo = a :: as) (he : ({ s with todo := as } : Srv).mainStep a e = some (s', o)) : Inv s' (os ++ o) := by
  have htl := h.tail ht
  have hok : ActOK s.conns a := h.todo a (by rw [ht]; simp)
  cases a with
  | drain =>
    cases e <;> simp only [Srv.mainStep, Option.some.injEq, Prod.mk.injEq, reduceCtorEq] at he
    obtain ⟨rfl, rfl⟩ := he
    simpa using htl
  | accept =>
    cases e <;> simp only [Srv.mainStep, reduceCtorEq] at he
    rename_i ok
    cases ok
    · simp only [Bool.false_eq_true, if_false, Option.some.injEq, Prod.mk.injEq] at he
      obtain ⟨rfl, rfl⟩ := he
      simpa using htl
    · simp only [if_true, Option.some.injEq, Prod.mk.injEq] at he
      obtain ⟨rfl, rfl⟩ := he
      exact inv_accept htl
  | read i sel =>
    have hacts := other_acts h ht (i := i) rfl
    cases sel
    · cases e with
      | main b => exact inv_read_left htl hok hacts he
      | _ => simp [Srv.mainStep] at he
    · cases e with
      | recv rs => exact inv_read_selected htl hok hacts he
      | _ => simp [Srv.mainStep] at he
  | write i =>
    have hacts := other_acts h ht (i := i) rfl
    cases e with
    | send r => exact inv_write htl hok hacts he
    | _ => simp [Srv.mainStep] at he
  | oob i =>
    have hacts := other_acts h ht (i := i) rfl
    cases e with
    | main b => exact inv_oob htl hok hacts he
    | _ => simp [Srv.mainStep] at he

theorem sweep_sub (s : Srv) : s.sweep.clients.Sublist s.clients := List.filter_sublist

theorem pollsRead_ok {s : Srv} {os : List Obs} (h : Inv s os) (hcr : s.crashed = false) {i : Nat}
    (hr : s.pollsRead i = true) :
    i ∈ s.clients ∧ ∃ c, s.conns[i]? = some c ∧ c.sock = true ∧ (c.status = .waitLen ∨ c.status = .waitMessage) := by
  unfold Srv.pollsRead at hr
  simp only [Bool.and_eq_true, List.contains_iff_mem] at hr
  obtain ⟨h1, h2⟩ := hr
  refine ⟨h1, ?_⟩
  cases hc : s.conns[i]? with
  | none => rw [hc] at h2; simp at h2
  | some c =>
    rw [hc] at h2
    have hst : c.status = .waitLen ∨ c.status = .waitMessage := by simpa [Conn.isReadable] using h2
    refine ⟨c, rfl, ?_, hst⟩
    obtain ⟨p, -, hpo⟩ := (h.conn i c hc).phase
    cases hpo with
    | idle hs _ _ => exact hs
    | processing hs _ _ => exact hs
    | sending hs _ _ _ => exact hs
    | closed _ _ h3 =>
      rcases h3 with h3 | h3
      · rw [h3] at hst; simp at hst
      · rw [hcr] at h3; simp at h3

theorem pollsWrite_ok {s : Srv} {os : List Obs} (h : Inv s os) (hcr : s.crashed = false) {i : Nat}
    (hr : s.pollsWrite i = true) :
    i ∈ s.clients ∧ ∃ c, s.conns[i]? = some c ∧ c.sock = true ∧ c.status = .sendAnswer := by
  unfold Srv.pollsWrite at hr
  simp only [Bool.and_eq_true, List.contains_iff_mem] at hr
  obtain ⟨h1, h2⟩ := hr
  refine ⟨h1, ?_⟩
  cases hc : s.conns[i]? with
  | none => rw [hc] at h2; simp at h2
  | some c =>
    rw [hc] at h2
    have hst : c.status = .sendAnswer := by simpa [Conn.isWriteable] using h2
    refine ⟨c, rfl, ?_, hst⟩
    obtain ⟨p, -, hpo⟩ := (h.conn i c hc).phase
    cases hpo with
    | idle hs _ _ => exact hs
    | processing hs _ _ => exact hs
    | sending hs _ _ _ => exact hs
    | closed _ _ h3 =>
      rcases h3 with h3 | h3
      · rw [h3] at hst; simp at hst
      · rw [hcr] at h3; simp at h3

/-- A connection in `remaining`. -/
theorem remaining_ok {s : Srv} {os : List Obs} (h : Inv s os) (hcr : s.crashed = false) {i : Nat}
    (hr : i ∈ s.remaining) :
    i ∈ s.clients ∧ ∃ c, s.conns[i]? = some c ∧ c.sock = true ∧ (c.status = .waitLen ∨ c.status = .waitMessage) ∧
      (c.remaining = true ∨ c.received ≠ []) := by
  unfold Srv.remaining at hr
  obtain ⟨h1, h2⟩ := List.mem_filter.1 hr
  refine ⟨h1, ?_⟩
  cases hc : s.conns[i]? with
  | none => rw [hc] at h2; simp at h2
  | some c =>
    rw [hc] at h2
    simp only [Bool.and_eq_true, Bool.or_eq_true, Bool.not_eq_true'] at h2
    have hp : s.pollsRead i = true := by
      unfold Srv.pollsRead
      rw [hc]
      simp only [Bool.and_eq_true, List.contains_iff_mem]
      exact ⟨h1, h2.1⟩
    obtain ⟨-, c', hc', hs, hst⟩ := pollsRead_ok h hcr hp
    rw [hc] at hc'; injection hc' with hc'; subst hc'
    refine ⟨c, rfl, hs, hst, h2.2.imp id ?_⟩
    intro h3 h4
    rw [h4] at h3; simp at h3

/-- Connections without anything left have no received message. -/
theorem no_remaining {s : Srv} (hr : s.remaining = []) {i : Nat} {c : Conn} (hi : i ∈ s.clients)
    (hc : s.conns[i]? = some c) (hst : c.status = .waitLen ∨ c.status = .waitMessage) :
    c.remaining = false ∧ c.received = [] := by
  have : i ∉ s.remaining := by rw [hr]; simp
  unfold Srv.remaining at this
  rw [List.mem_filter] at this
  have hrd : c.isReadable = true := by simpa [Conn.isReadable] using hst
  simp only [hi, hc, hrd, true_and, Bool.true_and, Bool.or_eq_true, Bool.not_eq_true', not_or,
    Bool.not_eq_false, Bool.not_eq_true, List.isEmpty_iff] at this
  exact this

theorem filterMap_read (l : List Nat) (b : Bool) : (l.map (Act.read · b)).filterMap actConn = l := by
  induction l with
  | nil => rfl
  | cons a l ih => simp [actConn] at ih ⊢; exact ih

theorem filterMap_write (l : List Nat) : (l.map Act.write).filterMap actConn = l := by
  induction l with
  | nil => rfl
  | cons a l ih => simp [actConn] at ih ⊢; exact ih

theorem filterMap_oob (l : List Nat) : (l.map Act.oob).filterMap actConn = l := by
  induction l with
  | nil => rfl
  | cons a l ih => simp [actConn] at ih ⊢; exact ih

theorem inv_select {s s' : Srv} {os o : List Obs} {d a : Bool} {rs ws xs : List Nat} (h : Inv s os)
    (hcr : s.crashed = false) (he : s.select d a rs ws xs = some (s', o)) : Inv s' (os ++ o) := by
  have key : ∀ (todo : List Act) (o : List Obs), (∀ j, ofConn j o = []) → (∀ a ∈ todo, ActOK s.conns a) →
      (todo.filterMap actConn).Nodup → Inv { s.sweep with todo := todo } (os ++ o) := by
    intro todo o h1 h2 h3
    have hof : ∀ j, ofConn j (os ++ o) = ofConn j os := by
      intro j; rw [ofConn_append, h1 j, List.append_nil]
    refine ⟨?_, ?_, (sweep_sub s).nodup h.clients, ?_, h2, h3, ?_⟩
    · intro i c hc; rw [hof]; exact h.conn i c hc
    · intro i hi; rw [hof]; exact h.fresh i hi
    · intro i hi; exact h.keys i ((sweep_sub s).mem hi)
    · intro hc
      have : s.crashed = true := hc
      rw [hcr] at this; simp at this
  unfold Srv.select at he
  split at he
  · simp at he
  · split at he
    · simp only [Option.some.injEq, Prod.mk.injEq] at he
      obtain ⟨rfl, rfl⟩ := he
      refine key _ _ (fun _ => rfl) ?_ ?_
      · intro a ha
        obtain ⟨i, hi, rfl⟩ := List.mem_map.1 ha
        obtain ⟨-, c, h1, h2, h3, -⟩ := remaining_ok h hcr hi
        exact ⟨c, h1, h2, h3, by simp⟩
      · rw [filterMap_read]
        exact List.Sublist.nodup List.filter_sublist h.clients
    · rename_i hrem
      have hrem : s.remaining = [] := by simpa using hrem
      split at he
      · rename_i hcond
        obtain ⟨h1, h2, h3, h4⟩ := hcond
        simp only [Option.some.injEq, Prod.mk.injEq] at he
        obtain ⟨rfl, rfl⟩ := he
        refine key _ _ (fun _ => rfl) ?_ ?_
        · intro b hb
          simp only [List.mem_append] at hb
          rcases hb with (((hb | hb) | hb) | hb) | hb
          · cases d <;> simp at hb
            subst hb; trivial
          · cases a <;> simp at hb
            subst hb; trivial
          · obtain ⟨i, hi, rfl⟩ := List.mem_map.1 hb
            obtain ⟨g1, c, g2, g3, g4⟩ := pollsRead_ok h hcr (List.all_eq_true.1 h2 i hi)
            exact ⟨c, g2, g3, g4, fun _ => (no_remaining hrem g1 g2 g4).2⟩
          · obtain ⟨i, hi, rfl⟩ := List.mem_map.1 hb
            obtain ⟨g1, c, g2, g3, g4⟩ := pollsWrite_ok h hcr (List.all_eq_true.1 h3 i hi)
            exact ⟨c, g2, g3, g4⟩
          · obtain ⟨i, hi, rfl⟩ := List.mem_map.1 hb
            have := List.all_eq_true.1 h4 i hi
            simp only [Bool.or_eq_true] at this
            rcases this with g | g
            · obtain ⟨g1, c, g2, g3, g4⟩ := pollsRead_ok h hcr g
              exact ⟨c, g2, g3, by rcases g4 with g4 | g4 <;> simp [g4]⟩
            · obtain ⟨g1, c, g2, g3, g4⟩ := pollsWrite_ok h hcr g
              exact ⟨c, g2, g3, by simp [g4]⟩
        · have e1 : ((if d then [Act.drain] else []) : List Act).filterMap actConn = [] := by cases d <;> rfl
          have e2 : ((if a then [Act.accept] else []) : List Act).filterMap actConn = [] := by cases a <;> rfl
          rw [List.filterMap_append, List.filterMap_append, List.filterMap_append, List.filterMap_append, e1, e2,
            filterMap_read, filterMap_write, filterMap_oob]
          simpa using h1
      · simp at he

theorem inv_step {s s' : Srv} {os o : List Obs} {threads : Nat} {e : Event} (h : Inv s os)
    (he : s.step threads e = some (s', o)) : Inv s' (os ++ o) := by
  have hmain : ∀ e', (if s.crashed then none else match s.todo with
      | [] => none
      | a :: as => ({ s with todo := as } : Srv).mainStep a e') = some (s', o) → Inv s' (os ++ o) := by
    intro e' h'
    split at h'
    · simp at h'
    · split at h'
      · simp at h'
      · rename_i a as ht
        exact inv_mainStep h ht h'
  cases e with
  | take => exact inv_take h he
  | finish k reply => exact inv_finish h he
  | select d a rs ws xs =>
    unfold Srv.step at he
    simp only at he
    split at he
    · simp at he
    · rename_i hcr
      exact inv_select h (by simpa using hcr) he
  | recv rs => exact hmain (.recv rs) he
  | send r => exact hmain (.send r) he
  | main b => exact hmain (.main b) he

theorem inv_init : Inv {} [] :=
  ⟨by simp, fun _ _ => ⟨rfl, rfl⟩, by simp, by simp, by simp, by simp, fun _ => rfl⟩

/-- Take a run apart at its first event. -/
theorem run_cons {s s'' : Srv} {threads : Nat} {e : Event} {es : List Event} {os : List Obs}
    (h : s.run threads (e :: es) = some (s'', os)) :
    ∃ s' o os', s.step threads e = some (s', o) ∧ s'.run threads es = some (s'', os') ∧ os = o ++ os' := by
  unfold Srv.run at h
  cases h1 : s.step threads e with
  | none => rw [h1] at h; simp at h
  | some x =>
    obtain ⟨s', o⟩ := x
    rw [h1] at h
    simp only at h
    cases h2 : s'.run threads es with
    | none => rw [h2] at h; simp at h
    | some y =>
      obtain ⟨t, os'⟩ := y
      rw [h2] at h
      simp only [Option.some.injEq, Prod.mk.injEq] at h
      obtain ⟨rfl, rfl⟩ := h
      exact ⟨s', o, os', rfl, h2, rfl⟩

theorem run_nil {s s' : Srv} {threads : Nat} {os : List Obs} (h : s.run threads [] = some (s', os)) :
    s' = s ∧ os = [] := by
  simp only [Srv.run, Option.some.injEq, Prod.mk.injEq] at h
  exact ⟨h.1.symm, h.2.symm⟩

theorem inv_run {threads : Nat} : ∀ (es : List Event) {s s' : Srv} {os os' : List Obs}, Inv s os →
    s.run threads es = some (s', os') → Inv s' (os ++ os') := by
  intro es
  induction es with
  | nil =>
    intro s s' os os' h hr
    obtain ⟨rfl, rfl⟩ := run_nil hr
    simpa using h
  | cons e es ih =>
    intro s s' os os' h hr
    obtain ⟨t, o, os2, h1, h2, rfl⟩ := run_cons hr
    rw [← List.append_assoc]
    exact ih (inv_step h h1) h2

end Thrift.Nonblocking
