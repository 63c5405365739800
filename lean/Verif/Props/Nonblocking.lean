import Verif.Proofs.NonblockingInv
/-
The nonblocking server: C39, C40, C41.
-/

namespace Thrift.Nonblocking
open Spec

/-! ## C40: the state machine of a connection -/

/-- **C40**. In every execution, whatever events come and whenever the workers finish, each connection behaves as
`Phase.next` says: requests are processed one at a time, every answer goes out as one frame, in
order, before the next request is queued, and after the close nothing happens any more. -/
theorem nonblocking_protocol {threads : Nat} {es : List Event} {s : Srv} {os : List Obs}
    (h : ({} : Srv).run threads es = some (s, os)) (i : Nat) : ∃ p, follow .idle (ofConn i os) = some p := by
  have hi := inv_run es inv_init h
  rw [List.nil_append] at hi
  rcases Nat.lt_or_ge i s.conns.length with hlt | hge
  · obtain ⟨p, hp, -⟩ := (hi.conn i _ (List.getElem?_eq_getElem hlt)).phase
    exact ⟨p, hp⟩
  · rw [(hi.fresh i hge).1]
    exact ⟨.idle, rfl⟩

/-- **C40**: at most one request of a connection is queued or being processed. -/
theorem nonblocking_one_request {threads : Nat} {es : List Event} {s : Srv} {os : List Obs}
    (h : ({} : Srv).run threads es = some (s, os)) (i : Nat) :
    ((s.tasks ++ s.running).filter fun t => t.1 == i).length ≤ 1 := by
  have hi := inv_run es inv_init h
  rw [← List.countP_eq_length_filter]
  show cnt s i ≤ 1
  rcases Nat.lt_or_ge i s.conns.length with hlt | hge
  · obtain ⟨p, -, hp⟩ := (hi.conn i _ (List.getElem?_eq_getElem hlt)).phase
    cases hp <;> omega
  · rw [(hi.fresh i hge).2]; omega

/-- **C40**: when everything the connection has to do is done, nothing is left to send: the answer of the
last request was sent completely. -/
theorem nonblocking_all_sent {threads : Nat} {es : List Event} {s : Srv} {os : List Obs}
    (h : ({} : Srv).run threads es = some (s, os)) {i : Nat} {c : Conn} (hc : s.conns[i]? = some c)
    (hr : c.isReadable = true) (hcr : s.crashed = false) : follow .idle (ofConn i os) = some .idle := by
  have hi := inv_run es inv_init h
  rw [List.nil_append] at hi
  obtain ⟨p, hp, hpo⟩ := (hi.conn i c hc).phase
  have hst : c.status = .waitLen ∨ c.status = .waitMessage := by simpa [Conn.isReadable] using hr
  cases hpo with
  | idle _ _ _ => exact hp
  | processing _ h2 _ => rw [h2] at hst; simp at hst
  | sending _ h2 _ _ => rw [h2] at hst; simp at hst
  | closed _ _ h3 =>
    rcases h3 with h3 | h3
    · rw [h3] at hst; simp at hst
    · rw [hcr] at h3; simp at h3

/-! ## C39: frames -/

/-- **C39**, in part: in every execution the requests that were queued are the frames of the client's bytes,
in order, from the first one on, none left out, repeated or changed; the transport of a request may hold
further bytes after the frame. While the connection is idle and nothing is waiting, no complete frame is left behind.
Missing: that nothing follows the frame (`nonblocking_trailing`), and that a connection is closed
only for a reason (`nonblocking_drops`, `nonblocking_close_reason`). -/
theorem nonblocking_frames_partial {threads : Nat} {es : List Event} {s : Srv} {os : List Obs}
    (h : ({} : Srv).run threads es = some (s, os)) (i : Nat) :
    ∃ contents rest, receivedOn i os = frames contents ++ rest ∧ (∀ b ∈ contents, b.length < 2 ^ 31) ∧
      All2 Begins (inputsOn i os) contents ∧
      (∀ c, s.conns[i]? = some c → c.sock = true → c.received = [] → NoFrame rest) := by
  have hi := inv_run es inv_init h
  rw [List.nil_append] at hi
  rcases Nat.lt_or_ge i s.conns.length with hlt | hge
  · have hci := hi.conn i _ (List.getElem?_eq_getElem hlt)
    obtain ⟨ds, qs, f1, f2, f3, f4⟩ := hci.framing
    rw [inputsOn_ofConn] at f1
    rw [receivedOn_ofConn] at f3
    refine ⟨ds, frames qs ++ s.conns[i].rbuf, by rw [f3, frames_append, List.append_assoc], fun b hb => f4 b (by simp [hb]), f1, ?_⟩
    intro c hc hs hr
    rw [List.getElem?_eq_getElem hlt] at hc
    injection hc with hc
    subst hc
    rw [hr] at f2
    cases f2
    have hrest := hci.rest hs
    show NoFrame s.conns[i].rbuf
    rcases hci.rd with h1 | ⟨len, h1, h2, h3⟩
    · rw [h1] at hrest
      exact .inl hrest
    · rw [h1] at hrest
      refine .inr (.inr ?_)
      rw [h3]
      simp only [Message.fin] at hrest
      omega
  · have h1 := (hi.fresh i hge).1
    refine ⟨[], [], ?_, by simp, ?_, ?_⟩
    · rw [← receivedOn_ofConn, h1]; rfl
    · rw [← inputsOn_ofConn, h1]; exact .nil
    · intro c hc
      rw [List.getElem?_eq_none hge] at hc
      simp at hc

/-- Execute a list of events and check what comes out. -/
theorem of_check {threads : Nat} {es : List Event} {P : Srv → List Obs → Prop} [∀ s os, Decidable (P s os)]
    (h : (match ({} : Srv).run threads es with | some (s, os) => decide (P s os) | none => false) = true) :
    ∃ s os, ({} : Srv).run threads es = some (s, os) ∧ P s os := by
  cases hr : ({} : Srv).run threads es with
  | none => rw [hr] at h; simp at h
  | some x =>
    obtain ⟨s, os⟩ := x
    rw [hr] at h
    exact ⟨s, os, rfl, by simpa using h⟩

/-- Accept one client, and one read from it. -/
def oneRead (rs : List Recv) : List Event :=
  [.select false true [] [] [], .main true, .select false false [0] [] [], .recv rs]

/-- **C39** does not hold: the transport of a request also holds the bytes of the following request. -/
theorem nonblocking_trailing : ∃ s os, ({} : Srv).run 1 (oneRead [.data (frames [[1], [2, 3]])]) = some (s, os) ∧
    inputsOn 0 os = [[1, 0, 0, 0, 2, 2, 3]] := by
  refine ⟨_, _, rfl, by decide +kernel⟩

theorem head_frame {content : Bytes} (hl : content.length < 2 ^ 31) (n : Nat) (hn : 4 ≤ n) :
    unpackS (((frame content).take n).take 4) = content.length := by
  have h4 : (beInt 4 (content.length : Int)).length = 4 := beInt_length _ _
  have : ((frame content).take n).take 4 = beInt 4 content.length := by
    rw [List.take_take, Nat.min_eq_left hn]
    unfold frame
    rw [List.take_append_of_le_length (by omega)]
    exact List.take_of_length_le (by omega)
  rw [this]
  refine unpackS_beInt (by omega) ?_
  unfold InRange
  omega

theorem parse_incomplete {b : Bytes} {L : Nat} (h4 : 4 ≤ b.length) (hL : unpackS (b.take 4) = L) (hb : b.length < 4 + L)
    (f : Nat) : parse (f + 2) { rbuf := b } =
      some { rbuf := b, reading := { offset := 4, len := L, isHeader := false }, status := .waitMessage } := by
  have h1 : ¬ ((L : Int) < 0) := by omega
  rw [parse]
  simp only [Message.header, Message.fin, ge_iff_le, Nat.zero_add, h4, if_true, hL, h1, if_false, Int.toNat_natCast]
  rw [parse]
  simp only [Message.fin, ge_iff_le]
  rw [if_neg (by omega)]

/-- The server with one fresh connection. -/
def fresh1 : Srv := { conns := [{}], clients := [0] }

theorem run_oneRead {threads : Nat} {rs : List Recv} {c' : Conn} {es : List Event} {s : Srv} {os : List Obs}
    (hr : Conn.read rs {} = some (.ok c', []))
    (h : (fresh1.dispatch 0 c').1.run threads es = some (s, os)) :
    ({} : Srv).run threads (oneRead rs ++ es) = some (s, [.waited, .accepted 0, .waited] ++
      ([.received 0 (taken rs [])] ++ closing 0 {} c' ++ (fresh1.dispatch 0 c').2) ++ os) := by
  have e1 : ({} : Srv).step threads (.select false true [] [] []) = some ({ todo := [.accept] }, [.waited]) := by
    show Srv.select {} false true [] [] [] = _
    decide +kernel
  have e2 : ({ todo := [.accept] } : Srv).step threads (.main true) = some (fresh1, [.accepted 0]) := by
    show Srv.mainStep {} .accept (.main true) = _
    decide +kernel
  have e3 : fresh1.step threads (.select false false [0] [] []) =
      some ({ fresh1 with todo := [.read 0 true] }, [.waited]) := by
    show Srv.select fresh1 false false [0] [] [] = _
    decide +kernel
  have e4 : ({ fresh1 with todo := [.read 0 true] } : Srv).step threads (.recv rs) =
      some ((fresh1.dispatch 0 c').1, [.received 0 (taken rs [])] ++ closing 0 {} c' ++ (fresh1.dispatch 0 c').2) := by
    show Srv.mainStep fresh1 (.read 0 true) (.recv rs) = _
    simp only [Srv.mainStep, fresh1, List.getElem?_cons_zero, hr]
    rw [if_neg (by simp)]
  simp only [oneRead, List.cons_append, List.nil_append, Srv.run, e1, e2, e3, e4, h]

/-- **C39** does not hold: if `recv` returns exactly 8192 bytes, the beginning of a longer frame, and the rest is
not there yet, the connection is closed and the request is lost. -/
theorem nonblocking_drops (content : Bytes) (h1 : 8188 < content.length) (h2 : content.length < 2 ^ 31) :
    ∃ s os, ({} : Srv).run 1 (oneRead [.data ((frame content).take 8192), .error]) = some (s, os) ∧
      receivedOn 0 os = (frame content).take 8192 ∧ .closed 0 ∈ os ∧ inputsOn 0 os = [] := by
  have hfl : (frame content).length = content.length + 4 := by
    unfold frame
    rw [List.length_append, beInt_length]; omega
  have hlen : ((frame content).take 8192).length = 8192 := by
    rw [List.length_take, hfl]; omega
  have hp := head_frame h2 8192 (by omega)
  generalize (frame content).take 8192 = b at hlen hp ⊢
  have hpf : parse (parseFuel { rbuf := b }) { rbuf := b } = some
      { rbuf := b, reading := { offset := 4, len := content.length, isHeader := false }, status := .waitMessage } :=
    parse_incomplete (by omega) hp (by omega) _
  have hr : Conn.read [.data b, .error] {} = some (.ok ({
      rbuf := b, reading := { offset := 4, len := content.length, isHeader := false } } : Conn).close, []) := by
    unfold Conn.read
    rw [if_neg (by simp), if_neg (by simp)]
    unfold readLoop
    simp only
    rw [if_neg (by simp), if_neg (by simp [hlen])]
    simp only [List.nil_append, hpf]
    rw [if_neg (by simp), if_neg (by simp [hlen])]
    rfl
  have hrun := run_oneRead (threads := 1) (es := []) hr rfl
  rw [List.append_nil] at hrun
  refine ⟨_, _, hrun, ?_, ?_, ?_⟩
  · simp [receivedOn, taken, closing, Conn.close, Srv.dispatch]
  · simp [taken, closing, Conn.close, Srv.dispatch]
  · simp [inputsOn, taken, closing, Conn.close, Srv.dispatch]

theorem readLoop_short {b : Bytes} {c c' : Conn} (hrd : ReadInv c) (hb : b ≠ []) (hl : b.length < 8192)
    (hs : c.sock = true) (h : readLoop [.data b] true c = some (c', [])) :
    c'.remaining = false ∧ (c'.sock = false → 4 ≤ c'.rbuf.length ∧ unpackS (c'.rbuf.take 4) < 0) := by
  have hbl : b.length ≠ 0 := by simpa using hb
  unfold readLoop at h
  simp only at h
  rw [if_neg (by simp [hs]), if_neg (by simp [hbl])] at h
  have hr' : ReadInv { c with rbuf := c.rbuf ++ b } := by
    rcases hrd with h1 | ⟨len, h1, h2, h3⟩
    · exact .inl h1
    · refine .inr ⟨len, h1, ?_, ?_⟩
      · simp only [List.length_append]; omega
      · rw [List.take_append_of_le_length h2]; exact h3
  obtain ⟨d, ms, contents, g1, g2, g3, g4, g5, g6, g7, g8, g9⟩ := parse_spec _ _ hr' (parseFuel_ok _)
  rw [g1] at h
  simp only [hl, decide_true, Bool.not_true, if_true] at h
  have hneg : d.sock = false → 4 ≤ d.rbuf.length ∧ unpackS (d.rbuf.take 4) < 0 := by
    intro hd
    rcases g9 with ⟨k1, -, -, -⟩ | ⟨-, -, k2, k3⟩
    · rw [hd] at k1
      rw [show ({ c with rbuf := c.rbuf ++ b } : Conn).sock = c.sock from rfl, hs] at k1
      simp at k1
    · exact ⟨k2, k3⟩
  split at h
  · simp only [Option.some.injEq, Prod.mk.injEq, and_true] at h
    subst h
    exact ⟨rfl, hneg⟩
  · simp only [Option.some.injEq, Prod.mk.injEq, and_true] at h
    subst h
    exact ⟨rfl, hneg⟩

/-- **C39**, the other part: a read that gets some bytes but fewer than 8192 in one piece closes the connection
only if the client sent a negative length. -/
theorem nonblocking_close_reason {threads : Nat} {es : List Event} {s s' : Srv} {os o : List Obs}
    (h : ({} : Srv).run threads es = some (s, os)) {b : Bytes} (hb : b ≠ []) (hl : b.length < 8192)
    (he : s.step threads (.recv [.data b]) = some (s', o)) {i : Nat} (hc : .closed i ∈ o) :
    NegativeFrame i (os ++ o) := by
  have hi := inv_run es inv_init h
  rw [List.nil_append] at hi
  have hi' := inv_step hi he
  unfold Srv.step at he
  simp only at he
  split at he
  · simp at he
  · split at he
    · simp at he
    · rename_i a as ht
      cases a with
      | drain => simp [Srv.mainStep] at he
      | accept => simp [Srv.mainStep] at he
      | write j => simp [Srv.mainStep] at he
      | oob j => simp [Srv.mainStep] at he
      | read j sel =>
        cases sel with
        | false => simp [Srv.mainStep] at he
        | true =>
          obtain ⟨c, h1, h2, h3, h4⟩ := hi.todo _ (show Act.read j true ∈ s.todo by rw [ht]; simp)
          have h4 := h4 rfl
          simp only [Srv.mainStep, h1] at he
          unfold Conn.read at he
          rw [if_neg (fun hn => hn h3), if_neg (by simp [h4])] at he
          cases hrl : readLoop [.data b] true c with
          | none => rw [hrl] at he; simp at he
          | some x =>
            obtain ⟨c', left⟩ := x
            rw [hrl] at he
            simp only at he
            by_cases hleft : left = []
            · subst hleft
              rw [if_neg (by simp)] at he
              simp only [Option.some.injEq, Prod.mk.injEq] at he
              obtain ⟨rfl, rfl⟩ := he
              have hci := hi.conn j c h1
              obtain ⟨-, hneg⟩ := readLoop_short hci.rd hb hl h2 hrl
              have hd : Obs.closed i ∉ (Srv.dispatch { s with todo := as } j c').2 := by
                unfold Srv.dispatch
                split
                · simp
                · simp only
                  split <;> simp [Srv.crash]
              have hcl : j = i ∧ c'.sock = false := by
                simp only [List.mem_append, List.mem_singleton, reduceCtorEq, false_or, hd, or_false] at hc
                unfold closing at hc
                split at hc
                · rename_i hsk
                  simp only [List.mem_singleton, Obs.closed.injEq] at hc
                  exact ⟨hc.symm, by simpa using hsk.2⟩
                · simp at hc
              obtain ⟨rfl, hcs⟩ := hcl
              obtain ⟨k1, k2⟩ := hneg hcs
              obtain ⟨contents, g1, g2, g3, -⟩ := readLoop_spec _ true c c' hci.rd hci.rest h4 hrl
              obtain ⟨ds, qs, f1, f2, f3, f4⟩ := hci.framing
              rw [h4] at f2
              cases f2
              rw [receivedOn_ofConn] at f3
              refine ⟨ds ++ contents, c'.rbuf.take 4, c'.rbuf.drop 4, ?_, by rw [List.length_take]; omega, k2⟩
              have hdr : receivedOn j (Srv.dispatch { s with todo := as } j c').2 = [] := by
                unfold Srv.dispatch
                split
                · rfl
                · simp only
                  split <;> rfl
              rw [receivedOn_append, receivedOn_append, receivedOn_append, receivedOn_closing, hdr, taken_all, f3,
                frames_append, frames_append]
              simp only [List.append_nil, List.append_assoc, List.take_append_drop, ← g2]
              simp [receivedOn, frames]
            · rw [if_pos hleft] at he; simp at he

/-! ## C41: the server keeps serving -/

/-- The main thread has died, or some connection has `remaining` set without having anything received. -/
def Stuck (s : Srv) : Prop :=
  s.crashed = true ∨
  ((∀ a ∈ s.todo, ∃ j, a = .read j false) ∧
    ∃ i ∈ s.clients, ∃ c, s.conns[i]? = some c ∧ c.isReadable = true ∧ c.remaining = true ∧ c.received = [])

theorem closing_not_served {i : Nat} {c c' : Conn} {o : Obs} (h : o ∈ closing i c c') : ¬ Served o := by
  unfold closing at h
  split at h
  · simp only [List.mem_singleton] at h; subst h; exact id
  · simp at h

theorem stuck_step {threads : Nat} {s s' : Srv} {e : Event} {o : List Obs} (h : Stuck s)
    (he : s.step threads e = some (s', o)) : Stuck s' ∧ ∀ x ∈ o, ¬ Served x := by
  have hget : ∀ {i j : Nat} {c c' : Conn}, s.conns[i]? = some c → j ≠ i → (s.conns.set j c')[i]? = some c := by
    intro i j c c' h1 h2
    rw [List.getElem?_set_ne h2]; exact h1
  cases e with
  | take =>
    unfold Srv.step at he
    simp only at he
    split at he
    · simp at he
    · split at he
      · simp only [Option.some.injEq, Prod.mk.injEq] at he
        obtain ⟨rfl, rfl⟩ := he
        exact ⟨h, by simp⟩
      · simp at he
  | finish k reply =>
    unfold Srv.step at he
    simp only at he
    split at he
    · simp at he
    · split at he
      · simp at he
      · rename_i j _ _ _ c hc
        split at he
        · simp only [Option.some.injEq, Prod.mk.injEq] at he
          obtain ⟨rfl, rfl⟩ := he
          exact ⟨h, by simp⟩
        · rename_i c' hf
          simp only [Option.some.injEq, Prod.mk.injEq] at he
          obtain ⟨rfl, rfl⟩ := he
          refine ⟨?_, ?_⟩
          · rcases h with h | ⟨h1, i, h2, d, h3, h4, h5, h6⟩
            · exact .inl h
            · refine .inr ⟨h1, i, h2, d, hget h3 ?_, h4, h5, h6⟩
              intro e
              subst e
              rw [hc] at h3; injection h3 with h3; subst h3
              have hst : c.status = .waitLen ∨ c.status = .waitMessage := by simpa [Conn.isReadable] using h4
              have hne : c.status ≠ .waitProcess := by rcases hst with h | h <;> simp [h]
              have hrd : ∀ b m, c.ready b m = .error .assertion := by
                intro b m; unfold Conn.ready; rw [if_pos hne]
              unfold Conn.finish at hf
              cases reply <;> simp [hrd] at hf
          · intro x hx
            simp only [List.mem_append, List.mem_singleton] at hx
            rcases hx with rfl | hx
            · exact id
            · exact closing_not_served hx
  | select d a rs ws xs =>
    unfold Srv.step at he
    simp only at he
    split at he
    · simp at he
    · rename_i hcr
      rcases h with h | ⟨h1, i, h2, c, h3, h4, h5, h6⟩
      · exact absurd h hcr
      · have hrem : i ∈ s.remaining := by
          unfold Srv.remaining
          rw [List.mem_filter, h3]
          exact ⟨h2, by simp [h4, h5]⟩
        unfold Srv.select at he
        split at he
        · simp at he
        · rw [if_pos (fun e => by rw [e] at hrem; simp at hrem)] at he
          simp only [Option.some.injEq, Prod.mk.injEq] at he
          obtain ⟨rfl, rfl⟩ := he
          refine ⟨.inr ⟨?_, i, ?_, c, h3, h4, h5, h6⟩, by simp⟩
          · intro a ha
            obtain ⟨j, -, rfl⟩ := List.mem_map.1 ha
            exact ⟨j, rfl⟩
          · refine List.mem_filter.2 ⟨h2, ?_⟩
            rw [h3]
            have hst : c.status = .waitLen ∨ c.status = .waitMessage := by simpa [Conn.isReadable] using h4
            rcases hst with hst | hst <;> simp [Conn.isClosed, hst]
  | recv rs =>
    unfold Srv.step at he
    simp only at he
    split at he
    · simp at he
    · rename_i hcr
      rcases h with h | ⟨h1, -⟩
      · exact absurd h hcr
      · split at he
        · simp at he
        · rename_i a as ht
          obtain ⟨j, rfl⟩ := h1 a (by rw [ht]; simp)
          simp [Srv.mainStep] at he
  | send r =>
    unfold Srv.step at he
    simp only at he
    split at he
    · simp at he
    · rename_i hcr
      rcases h with h | ⟨h1, -⟩
      · exact absurd h hcr
      · split at he
        · simp at he
        · rename_i a as ht
          obtain ⟨j, rfl⟩ := h1 a (by rw [ht]; simp)
          simp [Srv.mainStep] at he
  | main ok =>
    unfold Srv.step at he
    simp only at he
    split at he
    · simp at he
    · rename_i hcr
      rcases h with h | ⟨h1, i, h2, c, h3, h4, h5, h6⟩
      · exact absurd h hcr
      · split at he
        · simp at he
        · rename_i a as ht
          obtain ⟨j, rfl⟩ := h1 a (by rw [ht]; simp)
          have h1' : ∀ a ∈ as, ∃ j, a = Act.read j false := fun a ha => h1 a (by rw [ht]; simp [ha])
          simp only [Srv.mainStep] at he
          split at he
          · simp only [Option.some.injEq] at he
            obtain ⟨rfl, rfl⟩ := Prod.mk.inj he.symm
            exact ⟨.inl rfl, by simp [Served]⟩
          · rename_i d hd
            simp only [Option.some.injEq] at he
            unfold Srv.dispatch at he
            split at he
            · obtain ⟨rfl, rfl⟩ := Prod.mk.inj he.symm
              refine ⟨.inr ⟨h1', i, h2, c, ?_, h4, h5, h6⟩, by simp⟩
              by_cases hj : j = i
              · subst hj
                rw [h3] at hd; injection hd with hd; subst hd
                show (s.conns.set j c)[j]? = some c
                rw [List.getElem?_set_self (lt_of_get h3)]
              · exact hget h3 hj
            · rename_i m ms hm
              have hj : j ≠ i := by
                intro e; subst e
                rw [h3] at hd; injection hd with hd; subst hd
                rw [h6] at hm; simp at hm
              simp only at he
              split at he
              · obtain ⟨rfl, rfl⟩ := Prod.mk.inj he.symm
                exact ⟨.inl rfl, by simp [Served]⟩
              · obtain ⟨rfl, rfl⟩ := Prod.mk.inj he.symm
                exact ⟨.inr ⟨h1', i, h2, c, hget h3 hj, h4, h5, h6⟩, by simp [Served]⟩

theorem stuck_run {threads : Nat} : ∀ (es : List Event) {s s' : Srv} {os : List Obs}, Stuck s →
    s.run threads es = some (s', os) → Stuck s' ∧ ∀ o ∈ os, ¬ Served o := by
  intro es
  induction es with
  | nil =>
    intro s s' os h hr
    obtain ⟨rfl, rfl⟩ := run_nil hr
    exact ⟨h, by simp⟩
  | cons e es ih =>
    intro s s' os h hr
    obtain ⟨t, o, os2, h1, h2, rfl⟩ := run_cons hr
    obtain ⟨g1, g2⟩ := stuck_step h h1
    obtain ⟨g3, g4⟩ := ih g1 h2
    refine ⟨g3, ?_⟩
    intro x hx
    rcases List.mem_append.1 hx with hx | hx
    · exact g2 x hx
    · exact g4 x hx

theorem parse_complete {content : Bytes} (h2 : content.length < 2 ^ 31) (f : Nat) :
    parse (f + 3) { rbuf := frame content } = some {
      rbuf := []
      received := [{ offset := 4, len := content.length, isHeader := false, buffer := frame content }]
      status := .waitMessage } := by
  have hfl : (frame content).length = content.length + 4 := by
    unfold frame
    rw [List.length_append, beInt_length]; omega
  have hL : unpackS ((frame content).take 4) = content.length := by
    have := head_frame h2 4 (by omega)
    rwa [List.take_take, Nat.min_self] at this
  have h1 : ¬ ((content.length : Int) < 0) := by omega
  rw [parse]
  simp only [Message.header, Message.fin, ge_iff_le, Nat.zero_add]
  rw [if_pos (by omega), if_pos trivial, hL, if_neg h1]
  simp only [Int.toNat_natCast]
  rw [parse]
  simp only [Message.fin, ge_iff_le]
  rw [if_pos (by omega), if_neg (by simp)]
  rw [parse]
  simp only [Message.header, Message.fin, ge_iff_le, List.length_drop]
  rw [if_neg (by omega)]
  simp only [List.nil_append, Option.some.injEq]
  have : (frame content).drop (4 + content.length) = [] := List.drop_eq_nil_of_le (by omega)
  rw [this]

/-- **C41** does not hold: one well-formed request whose frame is exactly 8192 bytes long, that is received in one
piece and processed without an answer, stops the server for everyone: whatever happens
afterwards, it never waits for events again, and never accepts, reads or writes. -/
theorem nonblocking_livelock (content : Bytes) (hl : content.length = 8188) :
    ∃ s os, ({} : Srv).run 1 (oneRead [.data (frame content)] ++ [.take, .finish 0 (some [])]) = some (s, os) ∧
      s.crashed = false ∧ ofConn 0 os = [.received 0 (frame content), .dispatched 0 content, .finished 0 (some [])] ∧
      ∀ es s' os', s.run 1 es = some (s', os') → ∀ o ∈ os', ¬ Served o := by
  have hfl : (frame content).length = 8192 := by
    unfold frame
    rw [List.length_append, beInt_length]; omega
  have hpf : parse (parseFuel { rbuf := frame content }) { rbuf := frame content } = some {
      rbuf := []
      received := [{ offset := 4, len := content.length, isHeader := false, buffer := frame content }]
      status := .waitMessage } := by
    have : parseFuel { rbuf := frame content } = (2 * 8192 - 1) + 3 := by unfold parseFuel; simp only [hfl]
    rw [this]
    exact parse_complete (by omega) _
  have hd : (frame content).drop 4 = content := by
    unfold frame
    rw [List.drop_append_of_le_length (by rw [beInt_length]; omega), List.drop_eq_nil_of_le (by rw [beInt_length]; omega)]
    rfl
  generalize frame content = b at hfl hpf hd ⊢
  have hr : Conn.read [.data b] {} = some (.ok {
      received := [{ offset := 4, len := content.length, isHeader := false, buffer := b }]
      status := .waitProcess
      remaining := true }, []) := by
    unfold Conn.read
    rw [if_neg (by simp), if_neg (by simp)]
    unfold readLoop
    simp only
    rw [if_neg (by simp), if_neg (by simp [hfl])]
    simp only [List.nil_append, hpf]
    rw [if_pos (by simp)]
    simp [hfl]
  have hds : fresh1.dispatch 0 {
      received := [{ offset := 4, len := content.length, isHeader := false, buffer := b }]
      status := .waitProcess
      remaining := true } = ({ fresh1 with
        conns := [{ status := .waitProcess, remaining := true }]
        tasks := [(0, { offset := 4, len := content.length, isHeader := false, buffer := b })] },
        [.dispatched 0 content]) := by
    unfold Srv.dispatch
    simp only
    rw [if_neg (by simp), hd]
    rfl
  have hst : ({ fresh1 with conns := [{ remaining := true }] } : Srv) = { conns := [{ remaining := true }], clients := [0] } := rfl
  have hrun := run_oneRead (threads := 1) (es := [.take, .finish 0 (some [])])
    (s := { conns := [{ remaining := true }], clients := [0] }) (os := [.finished 0 (some [])]) hr (by
      rw [hds]
      simp [Srv.run, Srv.step, Conn.finish, Conn.ready, closing, fresh1])
  refine ⟨_, _, hrun, rfl, ?_, ?_⟩
  · rw [hds]
    simp [closing, ofConn, aboutConn, taken]
  · intro es s' os' h
    refine (stuck_run es (.inr ⟨by simp, 0, by simp, _, rfl, ?_⟩) h).2
    exact ⟨by decide, rfl, rfl⟩

/-- **C41** does not hold: a request followed by a negative length in the same piece ends the server's loop with an
exception. -/
theorem nonblocking_crash : ∃ s os, ({} : Srv).run 1 (oneRead [.data (frame [1] ++ [255, 255, 255, 255])]) = some (s, os) ∧
    (s.crashed = true ∧ Obs.crashed ∈ os) ∧ ∀ es s' os', s.run 1 es = some (s', os') → ∀ o ∈ os', ¬ Served o := by
  obtain ⟨s, os, h1, h2⟩ := of_check (threads := 1) (es := oneRead [.data (frame [1] ++ [255, 255, 255, 255])])
    (P := fun s os => s.crashed = true ∧ Obs.crashed ∈ os) (by decide +kernel)
  exact ⟨s, os, h1, h2, fun es s' os' h => (stuck_run es (.inl h2.1) h).2⟩

theorem negative_mono {i : Nat} {os : List Obs} (h : NegativeFrame i os) (o : List Obs) : NegativeFrame i (os ++ o) := by
  obtain ⟨ds, hd, rest, h1, h2, h3⟩ := h
  exact ⟨ds, hd, rest ++ receivedOn i o, by rw [receivedOn_append, h1]; simp, h2, h3⟩

theorem dispatch_crashes {s : Srv} {i : Nat} {c : Conn} (h : (s.dispatch i c).1.crashed = true) :
    s.crashed = true ∨ c.received ≠ [] ∧ c.sock = false := by
  unfold Srv.dispatch at h
  split at h
  · exact .inl h
  · rename_i m ms hm
    simp only at h
    split at h
    · rename_i hs
      exact .inr ⟨by simp [hm], by simpa using hs⟩
    · exact .inl h

/-- Only a negative length makes the loop end. -/
theorem crash_step {threads : Nat} {s s' : Srv} {os o : List Obs} {e : Event} (hi : Inv s os) (hcr : s.crashed = false)
    (he : s.step threads e = some (s', o)) (hc : s'.crashed = true) : ∃ i, NegativeFrame i (os ++ o) := by
  have hmain : ∀ e', (if s.crashed then none else match s.todo with
      | [] => none
      | a :: as => ({ s with todo := as } : Srv).mainStep a e') = some (s', o) → ∃ i, NegativeFrame i (os ++ o) := by
    intro e' h'
    rw [if_neg (by simp [hcr])] at h'
    split at h'
    · simp at h'
    · rename_i a as ht
      have hok : ActOK s.conns a := hi.todo a (by rw [ht]; simp)
      cases a with
      | drain =>
        cases e' <;> simp only [Srv.mainStep, Option.some.injEq, Prod.mk.injEq, reduceCtorEq] at h'
        obtain ⟨rfl, rfl⟩ := h'
        rw [show ({ s with todo := as } : Srv).crashed = s.crashed from rfl, hcr] at hc; simp at hc
      | accept =>
        cases e' <;> simp only [Srv.mainStep, reduceCtorEq] at h'
        split at h' <;>
        · simp only [Option.some.injEq, Prod.mk.injEq] at h'
          obtain ⟨rfl, rfl⟩ := h'
          exact absurd (show s.crashed = true from hc) (by simp [hcr])
      | write i =>
        obtain ⟨c, h1, h2, h3⟩ := hok
        cases e' <;> simp only [Srv.mainStep, h1, reduceCtorEq] at h'
        rename_i r
        rw [write_open r h2 h3] at h'
        cases r with
        | error =>
          simp only [Option.some.injEq, Prod.mk.injEq] at h'
          obtain ⟨rfl, rfl⟩ := h'
          exact absurd (show s.crashed = true from hc) (by simp [hcr])
        | sent n =>
          by_cases hn : n ≥ c.wbuf.length
          · simp only [hn, if_true] at h'
            simp only [Option.some.injEq, Prod.mk.injEq] at h'
            obtain ⟨rfl, rfl⟩ := h'
            exact absurd (show s.crashed = true from hc) (by simp [hcr])
          · simp only [hn, if_false] at h'
            simp only [Option.some.injEq, Prod.mk.injEq] at h'
            obtain ⟨rfl, rfl⟩ := h'
            exact absurd (show s.crashed = true from hc) (by simp [hcr])
      | oob i =>
        obtain ⟨c, h1, h2, h3⟩ := hok
        cases e' <;> simp only [Srv.mainStep, h1, reduceCtorEq, Option.some.injEq, Prod.mk.injEq] at h'
        obtain ⟨rfl, rfl⟩ := h'
        exact absurd (show s.crashed = true from hc) (by simp [hcr])
      | read i sel =>
        obtain ⟨c, h1, h2, h3, h4⟩ := hok
        cases sel with
        | false =>
          cases e' <;> simp only [Srv.mainStep, h1, reduceCtorEq, Option.some.injEq] at h'
          obtain ⟨rfl, rfl⟩ := Prod.mk.inj h'.symm
          rcases dispatch_crashes hc with hx | ⟨-, hx⟩
          · exact absurd (show s.crashed = true from hx) (by simp [hcr])
          · rw [h2] at hx; simp at hx
        | true =>
          have h4 := h4 rfl
          cases e' <;> simp only [Srv.mainStep, h1, reduceCtorEq] at h'
          rename_i rs
          unfold Conn.read at h'
          rw [if_neg (fun hn => hn h3), if_neg (by simp [h4])] at h'
          cases hrl : readLoop rs true c with
          | none => rw [hrl] at h'; simp at h'
          | some x =>
            obtain ⟨c', left⟩ := x
            rw [hrl] at h'
            simp only at h'
            by_cases hleft : left = []
            · subst hleft
              rw [if_neg (by simp)] at h'
              simp only [Option.some.injEq, Prod.mk.injEq] at h'
              obtain ⟨rfl, rfl⟩ := h'
              have hci := hi.conn i c h1
              obtain ⟨contents, g1, g2, g3, g4, g5, g6, g7, g8, g9⟩ := readLoop_spec _ true c c' hci.rd hci.rest h4 hrl
              rcases dispatch_crashes hc with hx | ⟨hx1, hx2⟩
              · exact absurd (show s.crashed = true from hx) (by simp [hcr])
              · obtain ⟨k1, k2⟩ := g9 hx1 hx2
                obtain ⟨ds, qs, f1, f2, f3, f4⟩ := hci.framing
                rw [h4] at f2
                cases f2
                rw [receivedOn_ofConn] at f3
                rw [← List.append_assoc]
                refine ⟨i, negative_mono ?_ _⟩
                refine ⟨ds ++ contents, c'.rbuf.take 4, c'.rbuf.drop 4, ?_, by rw [List.length_take]; omega, k2⟩
                rw [receivedOn_append, receivedOn_append, receivedOn_closing, taken_all, f3, frames_append, frames_append]
                simp only [List.append_nil, List.append_assoc, List.take_append_drop, ← g2]
                simp [receivedOn, frames]
            · rw [if_pos hleft] at h'; simp at h'
  cases e with
  | take =>
    unfold Srv.step at he
    simp only at he
    split at he
    · simp at he
    · split at he
      · simp only [Option.some.injEq, Prod.mk.injEq] at he
        obtain ⟨rfl, rfl⟩ := he
        exact absurd (show s.crashed = true from hc) (by simp [hcr])
      · simp at he
  | finish k reply =>
    unfold Srv.step at he
    simp only at he
    split at he
    · simp at he
    · split at he
      · simp at he
      · split at he <;>
        · simp only [Option.some.injEq, Prod.mk.injEq] at he
          obtain ⟨rfl, rfl⟩ := he
          exact absurd (show s.crashed = true from hc) (by simp [hcr])
  | select d a rs ws xs =>
    unfold Srv.step at he
    simp only [hcr, Bool.false_eq_true, if_false] at he
    unfold Srv.select at he
    split at he
    · simp at he
    · split at he
      · simp only [Option.some.injEq, Prod.mk.injEq] at he
        obtain ⟨rfl, rfl⟩ := he
        exact absurd (show s.crashed = true from hc) (by simp [hcr])
      · split at he
        · simp only [Option.some.injEq, Prod.mk.injEq] at he
          obtain ⟨rfl, rfl⟩ := he
          exact absurd (show s.crashed = true from hc) (by simp [hcr])
        · simp at he
  | recv rs => exact hmain (.recv rs) he
  | send r => exact hmain (.send r) he
  | main b => exact hmain (.main b) he

/-- **C41**, in part: the loop ends with an exception only if some client has sent a negative length. -/
theorem nonblocking_crash_reason_partial {threads : Nat} : ∀ {es : List Event} {s : Srv} {os : List Obs},
    ({} : Srv).run threads es = some (s, os) → s.crashed = true → ∃ i, NegativeFrame i os := by
  have key : ∀ (es : List Event) (s0 s : Srv) (os0 os : List Obs), Inv s0 os0 →
      (s0.crashed = true → ∃ i, NegativeFrame i os0) →
      s0.run threads es = some (s, os) → s.crashed = true → ∃ i, NegativeFrame i (os0 ++ os) := by
    intro es
    induction es with
    | nil =>
      intro s0 s os0 os hi h0 hr hc
      obtain ⟨rfl, rfl⟩ := run_nil hr
      simpa using h0 hc
    | cons e es ih =>
      intro s0 s os0 os hi h0 hr hc
      obtain ⟨t, o, os2, h1, h2, rfl⟩ := run_cons hr
      rw [← List.append_assoc]
      refine ih t s _ _ (inv_step hi h1) ?_ h2 hc
      intro ht
      by_cases hcr : s0.crashed = true
      · obtain ⟨i, hn⟩ := h0 hcr
        exact ⟨i, negative_mono hn o⟩
      · exact crash_step hi (by simpa using hcr) h1 ht
  intro es s os h hc
  have := key es {} s [] os inv_init (by simp) h hc
  simpa using this

theorem sum_set {α : Type} (f : α → Nat) : ∀ (l : List α) (i : Nat) (a a' : α), l[i]? = some a →
    ((l.set i a').map f).sum + f a = (l.map f).sum + f a'
  | [], i, a, a', h => by simp at h
  | b :: l, 0, a, a', h => by
    simp only [List.getElem?_cons_zero, Option.some.injEq] at h
    subst h
    simp only [List.set_cons_zero, List.map_cons, List.sum_cons]
    omega
  | b :: l, i + 1, a, a', h => by
    simp only [List.getElem?_cons_succ] at h
    have := sum_set f l i a a' h
    simp only [List.set_cons_succ, List.map_cons, List.sum_cons]
    omega

theorem finish_keeps {c c' : Conn} {reply : Option Bytes} (h : c.finish reply = .ok c') :
    c'.received = c.received ∧ c'.remaining = c.remaining := by
  have hready : ∀ b m d, c.ready b m = .ok d → d.received = c.received ∧ d.remaining = c.remaining := by
    intro b m d hd
    unfold Conn.ready at hd
    split at hd
    · simp at hd
    · split at hd
      · simp only [Except.ok.injEq] at hd; subst hd; exact ⟨rfl, rfl⟩
      · split at hd
        · simp only [Except.ok.injEq] at hd; subst hd; exact ⟨rfl, rfl⟩
        · split at hd
          · simp at hd
          · simp only [Except.ok.injEq] at hd; subst hd; exact ⟨rfl, rfl⟩
  unfold Conn.finish at h
  split at h
  · exact hready _ _ _ h
  · split at h
    · rename_i d hd
      simp only [Except.ok.injEq] at h
      subst h
      exact hready _ _ _ hd
    · exact hready _ _ _ h

/-- No connection has `remaining` set. -/
def NoRemaining (s : Srv) : Prop := ∀ (i : Nat) (c : Conn), s.conns[i]? = some c → c.remaining = false

theorem NoRemaining.set {s : Srv} {i : Nat} {c' : Conn} (h : NoRemaining s) (hc : c'.remaining = false) (s' : Srv)
    (he : s'.conns = s.conns.set i c') : NoRemaining s' := by
  intro j d hd
  rw [he, List.getElem?_set] at hd
  split at hd
  · split at hd
    · simp only [Option.some.injEq] at hd; subst hd; exact hc
    · simp at hd
  · exact h j d hd

theorem readLoop_remaining {rs left : List Recv} {first : Bool} {c c' : Conn}
    (hb : (bytesOf rs).length < 8192) (hc : c.remaining = false) (h : readLoop rs first c = some (c', left)) :
    c'.remaining = false := by
  cases rs with
  | nil => simp [readLoop] at h
  | cons r rs =>
    cases r with
    | error =>
      simp only [readLoop, Option.some.injEq, Prod.mk.injEq] at h
      rw [← h.1]; exact hc
    | data b =>
      have hbl : b.length < 8192 := by
        simp only [bytesOf, List.flatMap_cons, List.length_append] at hb
        omega
      unfold readLoop at h
      simp only at h
      split at h
      · simp at h
      · simp only [hbl, decide_true, Bool.not_true, if_true] at h
        split at h
        · simp at h
        · split at h
          · simp only [Option.some.injEq, Prod.mk.injEq] at h
            rw [← h.1]
          · simp only [Option.some.injEq, Prod.mk.injEq] at h
            rw [← h.1]

theorem dispatch_keeps {s : Srv} {i : Nat} {c : Conn} (h : NoRemaining s) (hc : c.remaining = false) :
    NoRemaining (s.dispatch i c).1 := by
  unfold Srv.dispatch
  split
  · exact h.set hc _ rfl
  · rename_i m ms hm
    simp only
    split
    · exact h.set (c' := { c with status := .waitProcess }) hc _ rfl
    · exact h.set (c' := { c with status := .waitProcess, received := ms }) hc _ rfl

theorem noRemaining_step {threads : Nat} {s s' : Srv} {os o : List Obs} {e : Event} (hi : Inv s os) (hn : NoRemaining s)
    (he : s.step threads e = some (s', o)) (hsm : ∀ i b, .received i b ∈ o → b.length < 8192) : NoRemaining s' := by
  have hmain : ∀ e', (if s.crashed then none else match s.todo with
      | [] => none
      | a :: as => ({ s with todo := as } : Srv).mainStep a e') = some (s', o) → NoRemaining s' := by
    intro e' h'
    split at h'
    · simp at h'
    split at h'
    · simp at h'
    · rename_i a as ht
      have hok : ActOK s.conns a := hi.todo a (by rw [ht]; simp)
      have hn' : NoRemaining { s with todo := as } := hn
      cases a with
      | drain =>
        cases e' <;> simp only [Srv.mainStep, Option.some.injEq, Prod.mk.injEq, reduceCtorEq] at h'
        obtain ⟨rfl, rfl⟩ := h'
        exact hn
      | accept =>
        cases e' <;> simp only [Srv.mainStep, reduceCtorEq] at h'
        split at h'
        · simp only [Option.some.injEq, Prod.mk.injEq] at h'
          obtain ⟨rfl, rfl⟩ := h'
          intro j d hd
          rcases Nat.lt_or_ge j s.conns.length with hj | hj
          · rw [List.getElem?_append_left hj] at hd
            exact hn j d hd
          · rw [List.getElem?_append_right hj] at hd
            have := List.mem_of_getElem? hd
            simp only [List.mem_singleton] at this
            rw [this]
        · simp only [Option.some.injEq, Prod.mk.injEq] at h'
          obtain ⟨rfl, rfl⟩ := h'
          exact hn
      | write i =>
        obtain ⟨c, h1, h2, h3⟩ := hok
        have hcr := hn i c h1
        cases e' <;> simp only [Srv.mainStep, h1, reduceCtorEq] at h'
        rename_i r
        rw [write_open r h2 h3] at h'
        cases r with
        | error =>
          simp only [Option.some.injEq, Prod.mk.injEq] at h'
          obtain ⟨rfl, rfl⟩ := h'
          exact hn'.set (c' := c.close) hcr _ rfl
        | sent n =>
          by_cases hnn : n ≥ c.wbuf.length
          · simp only [hnn, if_true] at h'
            simp only [Option.some.injEq, Prod.mk.injEq] at h'
            obtain ⟨rfl, rfl⟩ := h'
            exact hn'.set (c' := { c with status := .waitLen, wbuf := [] }) hcr _ rfl
          · simp only [hnn, if_false] at h'
            simp only [Option.some.injEq, Prod.mk.injEq] at h'
            obtain ⟨rfl, rfl⟩ := h'
            exact hn'.set (c' := { c with wbuf := c.wbuf.drop n }) hcr _ rfl
      | oob i =>
        obtain ⟨c, h1, h2, h3⟩ := hok
        cases e' <;> simp only [Srv.mainStep, h1, reduceCtorEq, Option.some.injEq, Prod.mk.injEq] at h'
        obtain ⟨rfl, rfl⟩ := h'
        exact hn'.set (c' := c.close) (hn i c h1) _ rfl
      | read i sel =>
        obtain ⟨c, h1, h2, h3, h4⟩ := hok
        cases sel with
        | false =>
          cases e' <;> simp only [Srv.mainStep, h1, reduceCtorEq, Option.some.injEq] at h'
          obtain ⟨rfl, rfl⟩ := Prod.mk.inj h'.symm
          exact dispatch_keeps hn' (hn i c h1)
        | true =>
          have h4 := h4 rfl
          cases e' <;> simp only [Srv.mainStep, h1, reduceCtorEq] at h'
          rename_i rs
          unfold Conn.read at h'
          rw [if_neg (fun hn => hn h3), if_neg (by simp [h4])] at h'
          cases hrl : readLoop rs true c with
          | none => rw [hrl] at h'; simp at h'
          | some x =>
            obtain ⟨c', left⟩ := x
            rw [hrl] at h'
            simp only at h'
            by_cases hleft : left = []
            · subst hleft
              rw [if_neg (by simp)] at h'
              simp only [Option.some.injEq, Prod.mk.injEq] at h'
              obtain ⟨rfl, rfl⟩ := h'
              have hb := hsm i (taken rs []) (by simp)
              rw [taken_all] at hb
              exact dispatch_keeps hn' (readLoop_remaining hb (hn i c h1) hrl)
            · rw [if_pos hleft] at h'; simp at h'
  cases e with
  | take =>
    unfold Srv.step at he
    simp only at he
    split at he
    · simp at he
    · split at he
      · simp only [Option.some.injEq, Prod.mk.injEq] at he
        obtain ⟨rfl, rfl⟩ := he
        exact hn
      · simp at he
  | finish k reply =>
    unfold Srv.step at he
    simp only at he
    split at he
    · simp at he
    · split at he
      · simp at he
      · rename_i j _ _ _ c hc
        split at he
        · simp only [Option.some.injEq, Prod.mk.injEq] at he
          obtain ⟨rfl, rfl⟩ := he
          exact hn
        · rename_i c' hf
          simp only [Option.some.injEq, Prod.mk.injEq] at he
          obtain ⟨rfl, rfl⟩ := he
          exact hn.set (by rw [(finish_keeps hf).2]; exact hn j c hc) _ rfl
  | select d a rs ws xs =>
    unfold Srv.step at he
    simp only at he
    split at he
    · simp at he
    unfold Srv.select at he
    split at he
    · simp at he
    · split at he
      · simp only [Option.some.injEq, Prod.mk.injEq] at he
        obtain ⟨rfl, rfl⟩ := he
        exact hn
      · split at he
        · simp only [Option.some.injEq, Prod.mk.injEq] at he
          obtain ⟨rfl, rfl⟩ := he
          exact hn
        · simp at he
  | recv rs => exact hmain (.recv rs) he
  | send r => exact hmain (.send r) he
  | main b => exact hmain (.main b) he

theorem noRemaining_run {threads : Nat} : ∀ (es : List Event) {s s' : Srv} {os os' : List Obs}, Inv s os → NoRemaining s →
    s.run threads es = some (s', os') → (∀ i b, .received i b ∈ os' → b.length < 8192) → NoRemaining s' := by
  intro es
  induction es with
  | nil =>
    intro s s' os os' hi hn hr hsm
    obtain ⟨rfl, rfl⟩ := run_nil hr
    exact hn
  | cons e es ih =>
    intro s s' os os' hi hn hr hsm
    obtain ⟨t, o, os2, h1, h2, rfl⟩ := run_cons hr
    exact ih (inv_step hi h1) (noRemaining_step hi hn h1 fun i b hb => hsm i b (by simp [hb])) h2
      fun i b hb => hsm i b (by simp [hb])

/-- Between two waits the main thread only queues requests that are waiting. -/
structure Queueing (s : Srv) (os : List Obs) : Prop where
  inv : Inv s os
  rem : NoRemaining s
  alive : s.crashed = false
  acts : ∀ a ∈ s.todo, ∃ j c, a = .read j false ∧ s.conns[j]? = some c ∧ c.received ≠ []

/-- Bounds the number of calls of `handle` that do not wait. -/
def budget (s : Srv) : Nat := waiting s + if s.todo = [] then 1 else 0

theorem queueing_step {threads : Nat} {s s' : Srv} {os o : List Obs} {e : Event} (h : Queueing s os)
    (he : s.step threads e = some (s', o)) (hw : .waited ∉ o) :
    Queueing s' (os ++ o) ∧ handles [e] + budget s' ≤ budget s := by
  have hi' := inv_step h.inv he
  cases e with
  | take =>
    unfold Srv.step at he
    simp only at he
    split at he
    · simp at he
    · split at he
      · simp only [Option.some.injEq, Prod.mk.injEq] at he
        obtain ⟨rfl, rfl⟩ := he
        exact ⟨⟨hi', h.rem, h.alive, h.acts⟩, by simp [handles, budget, waiting]⟩
      · simp at he
  | finish k reply =>
    have hrem := noRemaining_step h.inv h.rem he
    unfold Srv.step at he
    simp only at he
    split at he
    · simp at he
    · split at he
      · simp at he
      · rename_i j _ _ _ c hc
        split at he
        · simp only [Option.some.injEq, Prod.mk.injEq] at he
          obtain ⟨rfl, rfl⟩ := he
          exact ⟨⟨hi', h.rem, h.alive, h.acts⟩, by simp [handles, budget, waiting]⟩
        · rename_i c' hf
          simp only [Option.some.injEq, Prod.mk.injEq] at he
          obtain ⟨rfl, rfl⟩ := he
          have hk := (finish_keeps hf).1
          refine ⟨⟨hi', hrem ?_, h.alive, ?_⟩, ?_⟩
          · intro i b hb
            simp only [List.mem_append, List.mem_singleton, reduceCtorEq, false_or] at hb
            unfold closing at hb
            split at hb <;> simp at hb
          · intro a ha
            obtain ⟨i, d, h1, h2, h3⟩ := h.acts a ha
            by_cases hij : j = i
            · subst hij
              rw [hc] at h2; injection h2 with h2; subst h2
              exact ⟨j, c', h1, by rw [List.getElem?_set_self (lt_of_get hc)], by rw [hk]; exact h3⟩
            · exact ⟨i, d, h1, by rw [List.getElem?_set_ne hij]; exact h2, h3⟩
          · have := sum_set (fun c : Conn => c.received.length) s.conns j c c' hc
            simp only [hk] at this
            simp only [handles, List.countP_cons, List.countP_nil, budget, waiting]
            simp only [Bool.false_eq_true, if_false]
            omega
  | select d a rs ws xs =>
    unfold Srv.step at he
    simp only [h.alive, Bool.false_eq_true, if_false] at he
    unfold Srv.select at he
    split at he
    · simp at he
    · rename_i htodo
      have htodo : s.todo = [] := by simpa using htodo
      split at he
      · rename_i hrem
        simp only [Option.some.injEq, Prod.mk.injEq] at he
        obtain ⟨rfl, rfl⟩ := he
        refine ⟨⟨hi', h.rem, h.alive, ?_⟩, ?_⟩
        · intro a ha
          obtain ⟨i, hi, rfl⟩ := List.mem_map.1 ha
          obtain ⟨-, c, h1, h2, h3, h4⟩ := remaining_ok h.inv h.alive hi
          refine ⟨i, c, rfl, h1, ?_⟩
          rcases h4 with h4 | h4
          · rw [h.rem i c h1] at h4; simp at h4
          · exact h4
        · simp only [budget, htodo, if_true, handles, List.countP_cons, List.countP_nil]
          rw [if_neg (by simpa using hrem)]
          simp only [waiting, Srv.sweep]
          omega
      · split at he
        · simp only [Option.some.injEq, Prod.mk.injEq] at he
          obtain ⟨rfl, rfl⟩ := he
          simp at hw
        · simp at he
  | recv rs =>
    unfold Srv.step at he
    simp only [h.alive, Bool.false_eq_true, if_false] at he
    split at he
    · simp at he
    · rename_i a as ht
      obtain ⟨j, c, rfl, -⟩ := h.acts a (by rw [ht]; simp)
      simp [Srv.mainStep] at he
  | send r =>
    unfold Srv.step at he
    simp only [h.alive, Bool.false_eq_true, if_false] at he
    split at he
    · simp at he
    · rename_i a as ht
      obtain ⟨j, c, rfl, -⟩ := h.acts a (by rw [ht]; simp)
      simp [Srv.mainStep] at he
  | main ok =>
    have hrem := noRemaining_step h.inv h.rem he
    unfold Srv.step at he
    simp only [h.alive, Bool.false_eq_true, if_false] at he
    split at he
    · simp at he
    · rename_i a as ht
      obtain ⟨j, c, rfl, hc, hr⟩ := h.acts a (by rw [ht]; simp)
      have hoth := other_acts h.inv ht (i := j) rfl
      obtain ⟨d, hd1, hd2, -⟩ := h.inv.todo (.read j false) (by rw [ht]; simp)
      rw [hc] at hd1; injection hd1 with hd1; subst hd1
      simp only [Srv.mainStep, hc, Option.some.injEq] at he
      unfold Srv.dispatch at he
      split at he
      · rename_i hnil; exact absurd hnil hr
      · rename_i m ms hm
        simp only at he
        rw [if_neg (by simp [hd2])] at he
        obtain ⟨rfl, rfl⟩ := Prod.mk.inj he.symm
        refine ⟨⟨hi', hrem (by simp), rfl, ?_⟩, ?_⟩
        · intro a ha
          obtain ⟨i, d, h1, h2, h3⟩ := h.acts a (by rw [ht]; simp [ha])
          have hij : j ≠ i := by
            intro e
            refine hoth a ha ?_
            rw [h1, e]; rfl
          exact ⟨i, d, h1, by rw [List.getElem?_set_ne hij]; exact h2, h3⟩
        · have := sum_set (fun c : Conn => c.received.length) s.conns j c
            { c with status := .waitProcess, received := ms } hc
          simp only [hm, List.length_cons] at this
          simp only [handles, List.countP_cons, List.countP_nil, budget, waiting, ht]
          simp only [Bool.false_eq_true, if_false, reduceCtorEq]
          split <;> omega

/-- **C41**, in part: if nothing that `recv` returned was as long as 8192 bytes, then a server whose loop has not ended
with an exception gets back to waiting for events: it can call `handle` without waiting at most
once for each request that is waiting for its turn, and while it does so no exception ends the loop. Missing: longer
pieces (`nonblocking_livelock`), and exceptions (`nonblocking_crash`). -/
theorem nonblocking_waits_partial {threads : Nat} {es0 : List Event} {s : Srv} {os0 : List Obs}
    (h0 : ({} : Srv).run threads es0 = some (s, os0)) (hsmall : ∀ i b, .received i b ∈ os0 → b.length < 8192)
    (hcr : s.crashed = false) (htodo : s.todo = [])
    {es : List Event} {s' : Srv} {os : List Obs} (h : s.run threads es = some (s', os)) (hw : .waited ∉ os) :
    handles es ≤ waiting s + 1 ∧ s'.crashed = false := by
  have key : ∀ (es : List Event) (s s' : Srv) (os0 os : List Obs), Queueing s os0 → s.run threads es = some (s', os) →
      .waited ∉ os → handles es + budget s' ≤ budget s ∧ s'.crashed = false := by
    intro es
    induction es with
    | nil =>
      intro s s' os0 os hq hr _
      obtain ⟨rfl, rfl⟩ := run_nil hr
      exact ⟨by simp [handles], hq.alive⟩
    | cons e es ih =>
      intro s s' os0 os hq hr hw
      obtain ⟨t, o, os2, h1, h2, rfl⟩ := run_cons hr
      obtain ⟨g1, g2⟩ := queueing_step hq h1 fun hx => hw (by simp [hx])
      obtain ⟨g3, g4⟩ := ih t s' _ os2 g1 h2 fun hx => hw (by simp [hx])
      refine ⟨?_, g4⟩
      have : handles (e :: es) = handles [e] + handles es := by
        simp only [handles, List.countP_cons, List.countP_nil]; omega
      omega
  have hi := inv_run es0 inv_init h0
  have hn := noRemaining_run es0 inv_init (fun i c hc => by simp at hc) h0 hsmall
  obtain ⟨g1, g2⟩ := key es s s' _ os ⟨hi, hn, hcr, by rw [htodo]; simp⟩ h hw
  refine ⟨?_, g2⟩
  have : budget s = waiting s + 1 := by simp [budget, htodo]
  omega

theorem crashed_step {threads : Nat} {s s' : Srv} {o : List Obs} {e : Event} (hc : s.crashed = true)
    (he : s.step threads e = some (s', o)) : s'.crashed = true := by
  cases e with
  | take =>
    unfold Srv.step at he
    simp only at he
    split at he
    · simp at he
    · split at he
      · simp only [Option.some.injEq, Prod.mk.injEq] at he
        rw [← he.1]; exact hc
      · simp at he
  | finish k reply =>
    unfold Srv.step at he
    simp only at he
    split at he
    · simp at he
    · split at he
      · simp at he
      · split at he <;>
        · simp only [Option.some.injEq, Prod.mk.injEq] at he
          rw [← he.1]; exact hc
  | select d a rs ws xs => simp [Srv.step, hc] at he
  | recv rs => simp [Srv.step, hc] at he
  | send rs => simp [Srv.step, hc] at he
  | main rs => simp [Srv.step, hc] at he

theorem crashed_run {threads : Nat} : ∀ (es : List Event) {s s' : Srv} {os : List Obs}, s.crashed = true →
    s.run threads es = some (s', os) → s'.crashed = true := by
  intro es
  induction es with
  | nil =>
    intro s s' os h hr
    obtain ⟨rfl, rfl⟩ := run_nil hr
    exact h
  | cons e es ih =>
    intro s s' os h hr
    obtain ⟨t, o, os2, h1, h2, rfl⟩ := run_cons hr
    exact ih (crashed_step h h1) h2

theorem dispatch_todo {s : Srv} {i : Nat} {c : Conn} (h : (s.dispatch i c).1.crashed = false) :
    (s.dispatch i c).1.todo = s.todo := by
  unfold Srv.dispatch at h ⊢
  split
  · rfl
  · rename_i m ms hm
    rw [hm] at h
    simp only at h ⊢
    split
    · rename_i hs
      rw [if_pos hs] at h
      simp [Srv.crash] at h
    · rfl

/-- An action of the main thread is done or stays in the list. -/
theorem act_done {threads : Nat} {s s' : Srv} {o : List Obs} {e : Event} (he : s.step threads e = some (s', o))
    (hcr : s'.crashed = false) {i : Nat} :
    (.read i true ∈ s.todo → (∃ b, .received i b ∈ o) ∨ .read i true ∈ s'.todo) ∧
    (.write i ∈ s.todo → (∃ b, .sent i b ∈ o) ∨ .write i ∈ s'.todo) := by
  have hmain : ∀ e', (if s.crashed then none else match s.todo with
      | [] => none
      | a :: as => ({ s with todo := as } : Srv).mainStep a e') = some (s', o) →
      (.read i true ∈ s.todo → (∃ b, .received i b ∈ o) ∨ .read i true ∈ s'.todo) ∧
      (.write i ∈ s.todo → (∃ b, .sent i b ∈ o) ∨ .write i ∈ s'.todo) := by
    intro e' h'
    split at h'
    · simp at h'
    split at h'
    · simp at h'
    · rename_i a as ht
      rw [ht]
      have hrest : s'.todo = as → (a ≠ .read i true ∨ ∃ b, .received i b ∈ o) → (a ≠ .write i ∨ ∃ b, .sent i b ∈ o) →
          (.read i true ∈ a :: as → (∃ b, .received i b ∈ o) ∨ .read i true ∈ s'.todo) ∧
          (.write i ∈ a :: as → (∃ b, .sent i b ∈ o) ∨ .write i ∈ s'.todo) := by
        intro h1 h2 h3
        rw [h1]
        refine ⟨?_, ?_⟩
        · intro hm
          rcases List.mem_cons.1 hm with hm | hm
          · rcases h2 with h2 | h2
            · exact absurd hm.symm h2
            · exact .inl h2
          · exact .inr hm
        · intro hm
          rcases List.mem_cons.1 hm with hm | hm
          · rcases h3 with h3 | h3
            · exact absurd hm.symm h3
            · exact .inl h3
          · exact .inr hm
      have hdead : ∀ t : Srv, some t.crash = some (s', o) → False := by
        intro t ht
        simp only [Option.some.injEq] at ht
        obtain ⟨rfl, rfl⟩ := Prod.mk.inj ht.symm
        simp [Srv.crash] at hcr
      cases a with
      | drain =>
        cases e' <;> simp only [Srv.mainStep, Option.some.injEq, Prod.mk.injEq, reduceCtorEq] at h'
        obtain ⟨rfl, rfl⟩ := h'
        exact hrest rfl (.inl (by simp)) (.inl (by simp))
      | accept =>
        cases e' <;> simp only [Srv.mainStep, reduceCtorEq] at h'
        split at h' <;>
        · simp only [Option.some.injEq, Prod.mk.injEq] at h'
          obtain ⟨rfl, rfl⟩ := h'
          exact hrest rfl (.inl (by simp)) (.inl (by simp))
      | write j =>
        cases e' <;> simp only [Srv.mainStep, reduceCtorEq] at h'
        split at h'
        · exact (hdead _ h').elim
        · split at h'
          · exact (hdead _ h').elim
          · simp only [Option.some.injEq, Prod.mk.injEq] at h'
            obtain ⟨rfl, rfl⟩ := h'
            refine hrest rfl (.inl (by simp)) ?_
            by_cases hj : j = i
            · subst hj; exact .inr ⟨_, List.mem_append_left _ (List.mem_singleton.2 rfl)⟩
            · exact .inl (by simpa using hj)
      | oob j =>
        cases e' <;> simp only [Srv.mainStep, reduceCtorEq] at h'
        split at h'
        · exact (hdead _ h').elim
        · simp only [Option.some.injEq, Prod.mk.injEq] at h'
          obtain ⟨rfl, rfl⟩ := h'
          exact hrest rfl (.inl (by simp)) (.inl (by simp))
      | read j sel =>
        cases sel with
        | false =>
          cases e' <;> simp only [Srv.mainStep, reduceCtorEq] at h'
          split at h'
          · exact (hdead _ h').elim
          · simp only [Option.some.injEq] at h'
            obtain ⟨rfl, rfl⟩ := Prod.mk.inj h'.symm
            exact hrest (dispatch_todo hcr) (.inl (by simp)) (.inl (by simp))
        | true =>
          cases e' <;> simp only [Srv.mainStep, reduceCtorEq] at h'
          split at h'
          · exact (hdead _ h').elim
          · split at h'
            · simp at h'
            · exact (hdead _ h').elim
            · split at h'
              · simp at h'
              · simp only [Option.some.injEq, Prod.mk.injEq] at h'
                obtain ⟨rfl, rfl⟩ := h'
                refine hrest (dispatch_todo hcr) ?_ (.inl (by simp))
                by_cases hj : j = i
                · subst hj; exact .inr ⟨_, by simp; exact .inl rfl⟩
                · exact .inl (by simpa using hj)
  cases e with
  | take =>
    unfold Srv.step at he
    simp only at he
    split at he
    · simp at he
    · split at he
      · simp only [Option.some.injEq, Prod.mk.injEq] at he
        obtain ⟨rfl, rfl⟩ := he
        exact ⟨.inr, .inr⟩
      · simp at he
  | finish k reply =>
    unfold Srv.step at he
    simp only at he
    split at he
    · simp at he
    · split at he
      · simp at he
      · split at he <;>
        · simp only [Option.some.injEq, Prod.mk.injEq] at he
          obtain ⟨rfl, rfl⟩ := he
          exact ⟨.inr, .inr⟩
  | select d a rs ws xs =>
    unfold Srv.step at he
    simp only at he
    split at he
    · simp at he
    unfold Srv.select at he
    split at he
    · simp at he
    · rename_i ht
      have ht : s.todo = [] := by simpa using ht
      rw [ht]
      simp
  | recv rs => exact hmain (.recv rs) he
  | send r => exact hmain (.send r) he
  | main b => exact hmain (.main b) he

/-- **C41**: when the multiplexer reports connections as ready, each of them is read from or written to
before `handle` ends, whatever the other clients sent, unless an exception ends the loop. -/
theorem nonblocking_serves_ready {threads : Nat} {s s1 s2 : Srv} {d a : Bool} {rs ws xs : List Nat} {es : List Event} {os : List Obs}
    (hsel : s.step threads (.select d a rs ws xs) = some (s1, [.waited]))
    (hrun : s1.run threads es = some (s2, os)) (hend : s2.todo = []) (hcr : s2.crashed = false) :
    (∀ i ∈ rs, ∃ b, .received i b ∈ os) ∧ (∀ i ∈ ws, ∃ b, .sent i b ∈ os) := by
  have key : ∀ (es : List Event) (s1 s2 : Srv) (os : List Obs), s1.run threads es = some (s2, os) → s2.todo = [] →
      s2.crashed = false → ∀ i, (.read i true ∈ s1.todo → ∃ b, .received i b ∈ os) ∧ (.write i ∈ s1.todo → ∃ b, .sent i b ∈ os) := by
    intro es
    induction es with
    | nil =>
      intro s1 s2 os hr h1 h2 i
      obtain ⟨rfl, rfl⟩ := run_nil hr
      rw [h1]; simp
    | cons e es ih =>
      intro s1 s2 os hr h1 h2 i
      obtain ⟨t, o, os2, g1, g2, rfl⟩ := run_cons hr
      have ht : t.crashed = false := by
        cases hx : t.crashed with
        | false => rfl
        | true => rw [crashed_run es hx g2] at h2; simp at h2
      obtain ⟨k1, k2⟩ := act_done g1 ht (i := i)
      obtain ⟨m1, m2⟩ := ih t s2 os2 g2 h1 h2 i
      refine ⟨?_, ?_⟩
      · intro hm
        rcases k1 hm with ⟨b, hb⟩ | hb
        · exact ⟨b, by simp [hb]⟩
        · obtain ⟨b, hb⟩ := m1 hb
          exact ⟨b, by simp [hb]⟩
      · intro hm
        rcases k2 hm with ⟨b, hb⟩ | hb
        · exact ⟨b, by simp [hb]⟩
        · obtain ⟨b, hb⟩ := m2 hb
          exact ⟨b, by simp [hb]⟩
  have htodo : ∃ pre, s1.todo = pre ++ rs.map (.read · true) ++ ws.map .write ++ xs.map .oob := by
    unfold Srv.step at hsel
    simp only at hsel
    split at hsel
    · simp at hsel
    unfold Srv.select at hsel
    split at hsel
    · simp at hsel
    · split at hsel
      · simp at hsel
      · split at hsel
        · simp only [Option.some.injEq, Prod.mk.injEq] at hsel
          exact ⟨_, by rw [← hsel.1]⟩
        · simp at hsel
  obtain ⟨pre, htodo⟩ := htodo
  have hk := key es s1 s2 os hrun hend hcr
  exact ⟨fun i hi => (hk i).1 (by rw [htodo]; simp [hi]), fun i hi => (hk i).2 (by rw [htodo]; simp [hi])⟩

/-- C40: at no time are more requests being processed than there are worker threads. -/
theorem nonblocking_workers {threads : Nat} : ∀ {es : List Event} {s s' : Srv} {os : List Obs}, s.running.length ≤ threads →
    s.run threads es = some (s', os) → s'.running.length ≤ threads := by
  intro es
  induction es with
  | nil => intro s s' os h hr; obtain ⟨rfl, -⟩ := run_nil hr; exact h
  | cons e es ih =>
    intro s s' os h hr
    obtain ⟨s1, o, os', h1, h2, -⟩ := run_cons hr
    refine ih ?_ h2
    have hd : ∀ (s : Srv) i c, (s.dispatch i c).1.running = s.running := by
      intro s i c
      unfold Srv.dispatch
      split
      · rfl
      · simp only; split <;> rfl
    have hm : ∀ (s s' : Srv) a e o, s.mainStep a e = some (s', o) → s'.running = s.running := by
      intro s s' a e o h
      unfold Srv.mainStep at h
      grind [Srv.crash]
    unfold Srv.step at h1
    split at h1
    · grind
    · grind [List.length_eraseIdx]
    · unfold Srv.select Srv.sweep at h1
      grind
    · grind

/-! ## A concrete execution -/

/-- Two clients. The first sends two requests in one piece and a half of a third one, the second sends a
request in two pieces; the first request is one-way. -/
def session : List Event := [
  .select false true [] [] [], .main true,
  .select false true [0] [] [], .main true, .recv [.data (frames [[1], [2, 3]] ++ [0, 0])],
  .take, .select false false [1] [] [], .recv [.data [0, 0, 0, 2, 9]],
  .finish 0 (some []), .select true false [] [] [], .main true, .take,
  .select false false [1] [] [], .recv [.data [8]], .finish 0 (some [5]), .take, .finish 0 none,
  .select true false [] [0] [], .main true, .send (.sent 3),
  .select false false [] [0] [], .send (.sent 2)]

/-- The execution meets the hypotheses of the theorems above. -/
example : ∃ s os, ({} : Srv).run 2 session = some (s, os) ∧
    (ofConn 0 os = [.received 0 (frames [[1], [2, 3]] ++ [0, 0]), .dispatched 0 ([1] ++ frames [[2, 3]] ++ [0, 0]), .finished 0 (some []),
        .dispatched 0 ([2, 3] ++ [0, 0]), .finished 0 (some [5]), .sent 0 [0, 0, 0], .sent 0 [1, 5]] ∧
      ofConn 1 os = [.received 1 [0, 0, 0, 2, 9], .received 1 [8], .dispatched 1 [9, 8], .finished 1 none, .closed 1] ∧
      s.crashed = false ∧ s.todo = [] ∧ ∀ o ∈ os, ∀ i b, o = .received i b → b.length < 8192) := by
  obtain ⟨s, os, h1, h2, h3, h4, h5, h6⟩ := of_check (threads := 2) (es := session) (P := fun s os =>
    ofConn 0 os = [.received 0 (frames [[1], [2, 3]] ++ [0, 0]), .dispatched 0 ([1] ++ frames [[2, 3]] ++ [0, 0]), .finished 0 (some []),
        .dispatched 0 ([2, 3] ++ [0, 0]), .finished 0 (some [5]), .sent 0 [0, 0, 0], .sent 0 [1, 5]] ∧
      ofConn 1 os = [.received 1 [0, 0, 0, 2, 9], .received 1 [8], .dispatched 1 [9, 8], .finished 1 none, .closed 1] ∧
      s.crashed = false ∧ s.todo = [] ∧ ∀ o ∈ os, (match o with | .received _ b => decide (b.length < 8192) | _ => true) = true)
    (by decide +kernel)
  refine ⟨s, os, h1, h2, h3, h4, h5, ?_⟩
  intro o ho i b e
  have := h6 o ho
  subst e
  simpa using this

/-- A negative length closes the connection (`nonblocking_close_reason`). -/
example : ∃ s os s' o, ({} : Srv).run 1 [.select false true [] [] [], .main true, .select false false [0] [] []] = some (s, os) ∧
    s.step 1 (.recv [.data [255, 255, 255, 255]]) = some (s', o) ∧ .closed 0 ∈ o := by
  refine ⟨{ fresh1 with todo := [.read 0 true] }, [.waited, .accepted 0, .waited], _, _, by decide +kernel, rfl, by decide +kernel⟩

/-- The multiplexer reports a connection for reading and one for writing (`nonblocking_serves_ready`). -/
example : ∃ s1 s2 os, ({ conns := [{}, { status := .sendAnswer, wbuf := [1, 2] }], clients := [0, 1] } : Srv).step 1
      (.select true false [0] [1] []) = some (s1, [.waited]) ∧
    s1.run 1 [.main true, .recv [.data [0]], .send (.sent 1)] = some (s2, os) ∧ s2.todo = [] ∧ s2.crashed = false := by
  refine ⟨{ conns := [{}, { status := .sendAnswer, wbuf := [1, 2] }], clients := [0, 1], todo := [.drain, .read 0 true, .write 1] },
    _, _, by decide +kernel, rfl, by decide +kernel, by decide +kernel⟩

end Thrift.Nonblocking
