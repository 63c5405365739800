import Verif.Spec.Sasl
import Verif.Props.Header
/-
C31: `TSaslClientTransport`.
-/

namespace Thrift.Sasl
open Spec Spec.Sasl
variable {μ ω : Type}

/-! ## Messages -/

theorem exec_recvMsg (s : St μ ω) (b : Bytes) :
    exec recvMsg s b =
      if 5 ≤ b.length then
        if beNat ((b.take 5).drop 1) ≤ (b.drop 5).length then
          some ((.ok (((b.take 5).headD 0).toNat, (b.drop 5).take (beNat ((b.take 5).drop 1))), s),
            (b.drop 5).drop (beNat ((b.take 5).drop 1)))
        else some ((.error .eof, s), [])
      else some ((.error .eof, s), []) := by
  unfold recvMsg
  rw [exec_bind]
  have h5 : ((5 : Int)).toNat = 5 := rfl
  rw [exec_readAll, h5]
  by_cases h : 5 ≤ b.length
  · rw [if_pos h, if_pos h, Res.andThen_ok, exec_bind]
    generalize hn : beNat ((b.take 5).drop 1) = n
    by_cases h0 : n > 0
    · rw [if_pos h0, exec_readAll, Int.toNat_natCast]
      by_cases hl : n ≤ (b.drop 5).length
      · rw [if_pos hl, if_pos hl, Res.andThen_ok]; rfl
      · rw [if_neg hl, if_neg hl, Res.andThen_error]
    · have : n = 0 := by omega
      subst this
      simp [exec_pure, Res.andThen_ok]
  · rw [if_neg h, if_neg h, Res.andThen_error]

theorem recvMsg_msg (s : St μ ω) {st : Nat} {body : Bytes} (hs : st < 256) (hb : body.length < 2 ^ 32)
    (rest : Bytes) : exec recvMsg s (msg st body ++ rest) = some ((.ok (st, body), s), rest) := by
  have hl : (beInt 4 body.length).length = 4 := beInt_length _ _
  have e : msg st body ++ rest = (UInt8.ofNat st :: beInt 4 body.length) ++ (body ++ rest) := by
    simp [msg]
  have l5 : (UInt8.ofNat st :: beInt 4 body.length).length = 5 := by simp [hl]
  have t5 : ((UInt8.ofNat st :: beInt 4 body.length) ++ (body ++ rest)).take 5 =
      UInt8.ofNat st :: beInt 4 body.length := by rw [← l5, List.take_left']; rfl
  have d5 : ((UInt8.ofNat st :: beInt 4 body.length) ++ (body ++ rest)).drop 5 = body ++ rest := by
    rw [← l5, List.drop_left']; rfl
  have hn : beNat (beInt 4 (body.length : Int)) = body.length := Header.beNat_beInt (n := 4) hb
  rw [exec_recvMsg, e, t5, d5]
  have d1 : (UInt8.ofNat st :: beInt 4 (body.length : Int)).drop 1 = beInt 4 body.length := rfl
  rw [d1, hn, if_pos (by simp [hl]), if_pos (by simp)]
  have : (UInt8.ofNat st).toNat = st := by simp; omega
  simp [this]

theorem recvMsg_inv {s s' : St μ ω} {b b' : Bytes} {x : Nat × Bytes}
    (h : exec recvMsg s b = some ((.ok x, s'), b')) :
    s' = s ∧ b = msg x.1 x.2 ++ b' ∧ x.1 < 256 ∧ x.2.length < 2 ^ 32 := by
  rw [exec_recvMsg] at h
  by_cases h5 : 5 ≤ b.length
  · rw [if_pos h5] at h
    have hlt := beNat_lt ((b.take 5).drop 1)
    have hl : ((b.take 5).drop 1).length = 4 := by simp; omega
    rw [hl] at hlt
    by_cases hl2 : beNat ((b.take 5).drop 1) ≤ (b.drop 5).length
    · rw [if_pos hl2] at h
      cases h
      refine ⟨rfl, ?_, UInt8.toNat_lt _, ?_⟩
      · obtain ⟨x0, x1, x2, x3, x4, b, rfl⟩ : ∃ x0 x1 x2 x3 x4 b', b = x0 :: x1 :: x2 :: x3 :: x4 :: b' := by
          match b, h5 with
          | x0 :: x1 :: x2 :: x3 :: x4 :: b, _ => exact ⟨x0, x1, x2, x3, x4, b, rfl⟩
        simp only [List.take_succ_cons, List.take_zero, List.drop_succ_cons, List.drop_zero, List.headD_cons] at *
        have hbl : (b.take (beNat [x1, x2, x3, x4])).length = beNat [x1, x2, x3, x4] := by
          rw [List.length_take]; omega
        have hbe : beInt 4 ((beNat [x1, x2, x3, x4] : Nat) : Int) = [x1, x2, x3, x4] := by
          have h1 := Header.packU_eq (n := 4) (x := beNat [x1, x2, x3, x4]) hlt
          have h2 : packU 4 ((beNat [x1, x2, x3, x4] : Nat) : Int) = .ok [x1, x2, x3, x4] := by
            unfold packU
            rw [if_pos ⟨by omega, by omega⟩, Int.toNat_natCast]
            have := beBytes_beNat [x1, x2, x3, x4]
            exact congrArg Except.ok this
          rw [h2] at h1
          exact (Except.ok.inj h1).symm
        simp only [msg, hbl, hbe]
        simp
      · have : beNat ((b.take 5).drop 1) < 2 ^ 32 := hlt
        simp only [List.length_take]; omega
    · rw [if_neg hl2] at h; cases h
  · rw [if_neg h5] at h; cases h

theorem sendMsg_eq (k : Under ω) (st : Nat) (r : Option Bytes) (s : St μ ω) (b : Bytes)
    (h : (r.getD []).length < 2 ^ 32) :
    exec (sendMsg k st r) s b = some (((k.writeFlush (msg st (r.getD [])) s.under).1,
      { s with under := (k.writeFlush (msg st (r.getD [])) s.under).2 }), b) := by
  unfold sendMsg
  rw [Header.packU_eq (n := 4) h]
  rfl

theorem sendMsg_inv {k : Under ω} {st : Nat} {r : Option Bytes} {s s' : St μ ω} {b b' : Bytes}
    (h : exec (sendMsg k st r) s b = some ((.ok (), s'), b')) :
    (r.getD []).length < 2 ^ 32 ∧ b' = b ∧ ∃ w, k.writeFlush (msg st (r.getD [])) s.under = (.ok (), w) ∧
      s' = { s with under := w } := by
  by_cases hl : (r.getD []).length < 2 ^ 32
  · rw [sendMsg_eq k st r s b hl] at h
    generalize hw : k.writeFlush (msg st (r.getD [])) s.under = x at h
    obtain ⟨x1, x2⟩ := x
    cases h
    exact ⟨hl, rfl, _, rfl, rfl⟩
  · exfalso
    unfold sendMsg at h
    have : packU 4 ((r.getD []).length : Int) = .error .structError := by
      unfold packU; rw [if_neg]; omega
    rw [this] at h
    cases h

theorem sendMsg_some (k : Under ω) (st : Nat) (r : Option Bytes) (s : St μ ω) (b : Bytes) :
    exec (sendMsg k st r) s b ≠ none := by
  unfold sendMsg
  generalize packU 4 _ = x
  cases x <;> simp [sendPacked, exec, put, P.raise, Prog.run]

/-! ## The negotiation -/

theorem exec_process (c : Mech μ) (ch : Option Bytes) (s : St μ ω) (b : Bytes) :
    exec (process c ch) s b = some (((c.process ch s.mech).1, { s with mech := (c.process ch s.mech).2 }), b) := rfl

theorem exec_finish (c : Mech μ) (s : St μ ω) (b : Bytes) :
    exec (finish c) s b = if c.complete s.mech then some ((.ok (.inr ()), s), b)
      else some ((.error TTransportException.NOT_OPEN, s), b) := by
  unfold finish
  rw [exec_bind, exec_get, Res.andThen_ok]
  split <;> rfl

theorem exec_while (c : Mech μ) (k : Under ω) (f : Nat) (s : St μ ω) (b : Bytes) :
    exec (P.whileTrue (f + 1) (openBody c k) ()) s b =
      Res.andThen (exec (openBody c k ()) s b) fun r s b =>
        match r with
        | .inl _ => exec (P.whileTrue f (openBody c k) ()) s b
        | .inr _ => some ((.ok (), s), b) := by
  rw [P.whileTrue, exec_Pbind]
  congr 1
  funext r s b
  cases r <;> rfl

theorem answer_ok (k : Under ω) {r : Option Bytes} {s : St μ ω} {w : ω} (b : Bytes)
    (hr : (r.getD []).length < 2 ^ 32) (hw : k.writeFlush (msg 2 (r.getD [])) s.under = (.ok (), w)) :
    exec (answer k r) s b = some ((.ok (.inl ()), { s with under := w }), b) := by
  unfold answer
  rw [exec_bind, sendMsg_eq k OK r _ _ hr]
  have : k.writeFlush (msg OK (r.getD [])) s.under = (.ok (), w) := hw
  rw [this, Res.andThen_ok]
  rfl

/-- After an answer the negotiation goes on with the same input, or an exception was raised. -/
theorem answer_cases (k : Under ω) (r : Option Bytes) (s : St μ ω) (b : Bytes) :
    (∃ w, (r.getD []).length < 2 ^ 32 ∧ k.writeFlush (msg 2 (r.getD [])) s.under = (.ok (), w) ∧
      exec (answer k r) s b = some ((.ok (.inl ()), { s with under := w }), b)) ∨
    ∃ e s', exec (answer k r) s b = some ((.error e, s'), b) := by
  by_cases hr : (r.getD []).length < 2 ^ 32
  · generalize hw : k.writeFlush (msg 2 (r.getD [])) s.under = x
    obtain ⟨x, w⟩ := x
    cases x with
    | ok u => exact .inl ⟨w, hr, rfl, answer_ok k b hr hw⟩
    | error e =>
      right
      refine ⟨e, { s with under := w }, ?_⟩
      unfold answer
      rw [exec_bind, sendMsg_eq k OK r _ _ hr]
      have : k.writeFlush (msg OK (r.getD [])) s.under = (.error e, w) := hw
      rw [this, Res.andThen_error]
  · right
    refine ⟨.structError, s, ?_⟩
    unfold answer
    rw [exec_bind]
    have h1 : packU 4 ((r.getD []).length : Int) = .error .structError := by
      unfold packU; rw [if_neg]; omega
    have : exec (sendMsg k OK r) s b = some ((.error .structError, s), b) := by
      unfold sendMsg
      rw [h1]
      rfl
    rw [this, Res.andThen_error]

/-- One more challenge is answered. -/
theorem body_ok (c : Mech μ) (k : Under ω) (s : St μ ω) (ch rest : Bytes) (hc : ch.length < 2 ^ 32) :
    exec (openBody c k ()) s (msg 2 ch ++ rest) =
      Res.andThen (exec (process c (some ch)) s rest) fun r s b =>
        exec (answer k r) s b := by
  unfold openBody
  rw [exec_bind, recvMsg_msg s (by omega) hc, Res.andThen_ok]
  simp only
  rw [if_pos (by rfl), exec_bind]

theorem body_step (c : Mech μ) (k : Under ω) (s : St μ ω) (ch rest : Bytes) (hc : ch.length < 2 ^ 32) :
    (∃ r m1 w, c.process (some ch) s.mech = (.ok r, m1) ∧ (r.getD []).length < 2 ^ 32 ∧
      k.writeFlush (msg 2 (r.getD [])) s.under = (.ok (), w) ∧
      exec (openBody c k ()) s (msg 2 ch ++ rest) =
        some ((.ok (.inl ()), { s with mech := m1, under := w }), rest)) ∨
    ∃ e s', exec (openBody c k ()) s (msg 2 ch ++ rest) = some ((.error e, s'), rest) := by
  rw [body_ok c k s ch rest hc, exec_process]
  cases hp : c.process (some ch) s.mech with
  | mk p m1 =>
    cases p with
    | error e =>
      right
      rw [Res.andThen_error]
      exact ⟨e, _, rfl⟩
    | ok r =>
      rw [Res.andThen_ok]
      rcases answer_cases k r { s with mech := m1 } rest with ⟨w, g1, g3, hs⟩ | ⟨e, s2, hs⟩
      · left
        refine ⟨r, m1, w, rfl, g1, g3, ?_⟩
        rw [hs]
      · right
        exact ⟨e, s2, hs⟩

theorem body_complete (c : Mech μ) (k : Under ω) (s : St μ ω) (ch rest : Bytes) (hc : ch.length < 2 ^ 32) :
    exec (openBody c k ()) s (msg 5 ch ++ rest) =
      if ch ≠ [] then Res.andThen (exec (process c (some ch)) s rest) fun _ s b => exec (finish c) s b
      else exec (finish c) s rest := by
  unfold openBody
  rw [exec_bind, recvMsg_msg s (by omega) hc, Res.andThen_ok]
  simp only
  rw [if_neg (by decide), if_pos (by rfl)]
  split
  · rw [exec_bind]
  · rfl

theorem body_other (c : Mech μ) (k : Under ω) (s : St μ ω) (st : Nat) (ch rest : Bytes) (hs : st < 256)
    (h2 : st ≠ 2) (h5 : st ≠ 5) (hc : ch.length < 2 ^ 32) :
    exec (openBody c k ()) s (msg st ch ++ rest) = some ((.error TTransportException.NOT_OPEN, s), rest) := by
  unfold openBody
  rw [exec_bind, recvMsg_msg s hs hc, Res.andThen_ok]
  simp only
  have h2 : ¬ st = OK := h2
  have h5 : ¬ st = COMPLETE := h5
  rw [if_neg h2, if_neg h5]
  rfl

/-- Either a message arrives or the transport raises. -/
theorem recv_cases (s : St μ ω) (b : Bytes) :
    (∃ st body rest, st < 256 ∧ body.length < 2 ^ 32 ∧ b = msg st body ++ rest) ∨
    exec recvMsg s b = some ((.error .eof, s), []) := by
  cases h : exec recvMsg s b with
  | none =>
    rw [exec_recvMsg] at h
    split at h
    · split at h <;> cases h
    · cases h
  | some r =>
    obtain ⟨⟨r, s'⟩, b'⟩ := r
    cases r with
    | ok x =>
      obtain ⟨-, h2, h3, h4⟩ := recvMsg_inv h
      exact .inl ⟨x.1, x.2, b', h3, h4, h2⟩
    | error e =>
      right
      rw [exec_recvMsg] at h
      split at h
      · split at h
        · cases h
        · rw [← h]
      · rw [← h]

theorem body_eof (c : Mech μ) (k : Under ω) {s : St μ ω} {b : Bytes}
    (h : exec recvMsg s b = some ((.error .eof, s), [])) :
    exec (openBody c k ()) s b = some ((.error .eof, s), []) := by
  unfold openBody
  rw [exec_bind, h, Res.andThen_error]

/-- The challenges that the client answers are consumed one after the other. -/
theorem loop_answers (c : Mech μ) (k : Under ω) {x y : μ × ω} {cs : List Bytes}
    (h : Answers c k.toSink x cs y) : ∀ (s : St μ ω) (f : Nat) (rest : Bytes),
    s.mech = x.1 → s.under = x.2 → (∀ b ∈ cs, b.length < 2 ^ 32) →
    exec (P.whileTrue (cs.length + f) (openBody c k) ()) s (challenges cs ++ rest) =
      exec (P.whileTrue f (openBody c k) ()) { s with mech := y.1, under := y.2 } rest := by
  induction h with
  | done x =>
    intro s f rest h1 h2 _
    rw [← h1, ← h2]
    simp [challenges]
  | @next m m1 w w1 ch r cs y hp hr hw _ ih =>
    intro s f rest h1 h2 hl
    simp only at h1 h2
    have e1 : challenges (ch :: cs) ++ rest = msg 2 ch ++ (challenges cs ++ rest) := by
      simp [challenges]
    have e2 : (ch :: cs).length + f = cs.length + f + 1 := by simp; omega
    have hw' : k.writeFlush (msg 2 (r.getD [])) { s with mech := m1 }.under = (.ok (), w1) := by
      show k.writeFlush (msg 2 (r.getD [])) s.under = _
      rw [h2]; exact hw
    rw [e1, e2, exec_while, body_ok c k s ch _ (hl ch (by simp)), exec_process, h1, hp, Res.andThen_ok,
      answer_ok k _ hr hw', Res.andThen_ok]
    exact ih { s with mech := m1, under := w1 } f rest rfl rfl fun b hb => hl b (by simp [hb])

theorem loop_ok (c : Mech μ) (k : Under ω) (f : Nat) : ∀ (s s' : St μ ω) (b b' : Bytes),
    exec (P.whileTrue f (openBody c k) ()) s b = some ((.ok (), s'), b') →
    ∃ cs final m1 w', b = challenges cs ++ msg 5 final ++ b' ∧
      (∀ x ∈ cs, x.length < 2 ^ 32) ∧ final.length < 2 ^ 32 ∧
      Answers c k.toSink (s.mech, s.under) cs (m1, w') ∧ Verifies c m1 final s'.mech ∧
      c.complete s'.mech = true ∧ s' = { s with mech := s'.mech, under := w' } := by
  induction f with
  | zero => intro s s' b b' h; cases h
  | succ f ih =>
    intro s s' b b' h
    rw [exec_while] at h
    rcases recv_cases s b with ⟨st, body, rest, h1, h2, rfl⟩ | he
    · by_cases h5 : st = 5
      · subst h5
        rw [body_complete c k s body rest h2] at h
        by_cases hb : body = []
        · subst hb
          rw [if_neg (by simp), exec_finish] at h
          by_cases hc : c.complete s.mech = true
          · rw [if_pos hc, Res.andThen_ok] at h
            cases h
            exact ⟨[], [], s.mech, s.under, by simp [challenges], by simp, by simp, .done _, .empty _, hc, rfl⟩
          · rw [if_neg hc, Res.andThen_error] at h
            cases h
        · rw [if_pos hb, exec_process] at h
          generalize hp : c.process (some body) s.mech = p at h
          obtain ⟨p, m1⟩ := p
          cases p with
          | error e => simp only [Res.andThen_error] at h; cases h
          | ok r =>
            simp only [Res.andThen_ok] at h
            rw [exec_finish] at h
            by_cases hc : c.complete m1 = true
            · rw [if_pos hc, Res.andThen_ok] at h
              cases h
              exact ⟨[], body, s.mech, s.under, by simp [challenges], by simp, h2, .done _, .data hb hp, hc, rfl⟩
            · rw [if_neg hc, Res.andThen_error] at h
              cases h
      · by_cases h2' : st = 2
        · subst h2'
          rcases body_step c k s body rest h2 with ⟨r, m1, w, hp, g1, g3, hs⟩ | ⟨e, s2, hs⟩
          · rw [hs, Res.andThen_ok] at h
            obtain ⟨cs, final, m2, w', i1, i2, i3, i4, i5, i6, i7⟩ := ih _ _ _ _ h
            refine ⟨body :: cs, final, m2, w', ?_, ?_, i3, .next hp g1 g3 i4, i5, i6, i7⟩
            · rw [i1]; simp [challenges]
            · intro x hx
              rcases List.mem_cons.mp hx with rfl | hx
              · exact h2
              · exact i2 x hx
          · rw [hs, Res.andThen_error] at h; cases h
        · rw [body_other c k s st body rest h1 h2' h5 h2, Res.andThen_error] at h
          cases h
    · rw [body_eof c k he, Res.andThen_error] at h
      cases h

theorem loop_total (c : Mech μ) (k : Under ω) (f : Nat) : ∀ (s : St μ ω) (b : Bytes), b.length < f →
    exec (P.whileTrue f (openBody c k) ()) s b ≠ none := by
  induction f with
  | zero => intro s b h; omega
  | succ f ih =>
    intro s b hf h
    rw [exec_while] at h
    rcases recv_cases s b with ⟨st, body, rest, h1, h2, rfl⟩ | he
    · have hlen : rest.length < f := by simp [msg] at hf; omega
      by_cases h5 : st = 5
      · subst h5
        rw [body_complete c k s body rest h2] at h
        split at h
        · rw [exec_process] at h
          generalize c.process (some body) s.mech = p at h
          obtain ⟨p, m1⟩ := p
          cases p with
          | error e => simp only [Res.andThen_error] at h; cases h
          | ok r =>
            simp only [Res.andThen_ok] at h
            rw [exec_finish] at h
            split at h
            · cases h
            · cases h
        · rw [exec_finish] at h
          split at h
          · cases h
          · cases h
      · by_cases h2' : st = 2
        · subst h2'
          rcases body_step c k s body rest h2 with ⟨r, m1, w, hp, g1, g3, hs⟩ | ⟨e, s2, hs⟩
          · rw [hs, Res.andThen_ok] at h
            exact ih _ _ hlen h
          · rw [hs, Res.andThen_error] at h; cases h
        · rw [body_other c k s st body rest h1 h2' h5 h2, Res.andThen_error] at h
          cases h
    · rw [body_eof c k he, Res.andThen_error] at h
      cases h

/-! ## `open` -/

theorem steady_ret {σ α : Type} {m : P σ α} (h : ∀ s, ∃ r, m s = .ret r) : Steady m := Steady.ret h

theorem process_steady (c : Mech μ) (ch : Option Bytes) : Steady (process c ch : P (St μ ω) _) :=
  steady_ret fun _ => ⟨_, rfl⟩

theorem openUnder_steady (k : Under ω) : Steady (openUnder k : P (St μ ω) _) :=
  steady_ret fun s => by
    unfold openUnder
    split
    · exact ⟨_, rfl⟩
    · exact ⟨_, rfl⟩

theorem sendMsg_steady (k : Under ω) (st : Nat) (r : Option Bytes) : Steady (sendMsg k st r : P (St μ ω) _) := by
  unfold sendMsg
  generalize packU 4 _ = x
  cases x with
  | error e => exact Steady.raise e
  | ok b => exact steady_ret fun s => ⟨_, rfl⟩

theorem finish_steady (c : Mech μ) : Steady (finish c : P (St μ ω) _) :=
  Steady.bind Steady.get fun _ => Steady.ite (Steady.pure _) (Steady.raise _)

theorem recvMsg_steady : Steady (recvMsg : P (St μ ω) _) :=
  Steady.bind (Steady.readAll _) fun _ =>
    Steady.bind (Steady.ite (Steady.readAll _) (Steady.pure _)) fun _ => Steady.pure _

section

theorem answer_steady (k : Under ω) (r : Option Bytes) : Steady (answer k r : P (St μ ω) _) := by
  have h : Steady (sendMsg k OK r : P (St μ ω) Unit) := @sendMsg_steady μ ω k OK r
  unfold answer
  exact Steady.bind h fun _ => Steady.pure _

theorem openBody_steady (c : Mech μ) (k : Under ω) (u : Unit) : Steady (openBody c k u) := by
  unfold openBody
  refine Steady.bind recvMsg_steady fun x => ?_
  obtain ⟨st, ch⟩ := x
  refine Steady.ite ?_ (Steady.ite (Steady.ite ?_ (finish_steady c)) (Steady.raise _))
  · have h : ∀ r, Steady (answer k r : P (St μ ω) _) := fun r => @answer_steady μ ω k r
    exact Steady.bind (process_steady c (some ch)) fun r => h r
  · exact Steady.bind (process_steady c (some ch)) fun _ => finish_steady c

theorem open_steady (c : Mech μ) (k : Under ω) (fuel : Nat) : Steady (open_ c k fuel) := by
  have h1 : Steady (sendMsg k START (some c.name) : P (St μ ω) Unit) :=
    @sendMsg_steady μ ω k START (some c.name)
  have h2 : ∀ r, Steady (sendMsg k OK r : P (St μ ω) Unit) := fun r => @sendMsg_steady μ ω k OK r
  unfold open_
  refine Steady.bind (openUnder_steady k) fun _ => ?_
  refine Steady.bind h1 fun _ => ?_
  refine Steady.bind (process_steady c none) fun r => ?_
  refine Steady.bind (h2 r) fun _ => ?_
  exact Steady.whileTrue (openBody_steady c k) _ ()

end

theorem exec_openUnder (k : Under ω) (s : St μ ω) (b : Bytes) :
    exec (openUnder k) s b = if k.isOpen s.under then some ((.ok (), s), b)
      else some (((k.open_ s.under).1, { s with under := (k.open_ s.under).2 }), b) := by
  unfold exec openUnder
  split <;> rfl

/-- If the beginning succeeds, `open` goes on with the loop. -/
theorem open_starts {c : Mech μ} {k : Under ω} {m m1 : μ} {w w2 : ω} (h : Starts c k (m, w) (m1, w2))
    (hn : c.name.length < 2 ^ 32) (fuel : Nat) (s : St μ ω) (b : Bytes) (h1 : s.mech = m) (h2 : s.under = w) :
    exec (open_ c k fuel) s b =
      exec (P.whileTrue fuel (openBody c k) ()) { s with mech := m1, under := w2 } b := by
  subst h1
  subst h2
  cases h with
  | @mk _ _ _ w0 w1 _ r ho hw1 hp hr hw2 =>
    have e0 : exec (openUnder k) s b = some ((.ok (), { s with under := w0 }), b) := by
      rw [exec_openUnder]
      rcases ho with ⟨h, rfl⟩ | ⟨h, h'⟩
      · rw [if_pos h]
      · rw [if_neg (by simp [h]), h']
    have e1 : exec (sendMsg k START (some c.name)) { s with under := w0 } b =
        some ((.ok (), { s with under := w1 }), b) := by
      rw [sendMsg_eq k START (some c.name) _ _ hn]
      have : k.writeFlush (msg START ((some c.name).getD [])) { s with under := w0 }.under = (.ok (), w1) := hw1
      rw [this]
    have e2 : exec (process c none) { s with under := w1 } b =
        some ((.ok r, { s with mech := m1, under := w1 }), b) := by
      rw [exec_process]
      have : c.process none { s with under := w1 }.mech = (.ok r, m1) := hp
      rw [this]
    have e3 : exec (sendMsg k OK r) { s with mech := m1, under := w1 } b =
        some ((.ok (), { s with mech := m1, under := w2 }), b) := by
      rw [sendMsg_eq k OK r _ _ hr]
      have : k.writeFlush (msg OK (r.getD [])) { s with mech := m1, under := w1 }.under = (.ok (), w2) := hw2
      rw [this]
    unfold open_
    rw [exec_bind, e0, Res.andThen_ok, exec_bind, e1, Res.andThen_ok, exec_bind, e2, Res.andThen_ok, exec_bind, e3,
      Res.andThen_ok]

/-- Either the beginning succeeds or `open` raises without having read anything. -/
theorem open_cases (c : Mech μ) (k : Under ω) (fuel : Nat) (s : St μ ω) (b : Bytes) :
    (c.name.length < 2 ^ 32 ∧ ∃ m1 w2, Starts c k (s.mech, s.under) (m1, w2)) ∨
    ∃ e s', exec (open_ c k fuel) s b = some ((.error e, s'), b) := by
  have h0 : (∃ w0, (k.isOpen s.under = true ∧ w0 = s.under ∨ k.isOpen s.under = false ∧ k.open_ s.under = (.ok (), w0)) ∧
      exec (openUnder k) s b = some ((.ok (), { s with under := w0 }), b)) ∨
      ∃ e s', exec (openUnder k) s b = some ((.error e, s'), b) := by
    rw [exec_openUnder]
    cases ho : k.isOpen s.under with
    | true => exact .inl ⟨s.under, .inl ⟨rfl, rfl⟩, rfl⟩
    | false =>
      cases hp : k.open_ s.under with
      | mk x w =>
        cases x with
        | ok u => exact .inl ⟨w, .inr ⟨rfl, rfl⟩, rfl⟩
        | error e => exact .inr ⟨e, _, rfl⟩
  rcases h0 with ⟨w0, ho, e0⟩ | ⟨e, s', he⟩
  · cases h1 : exec (sendMsg k START (some c.name)) { s with under := w0 } b with
    | none => exact (sendMsg_some _ _ _ _ _ h1).elim
    | some x =>
      obtain ⟨⟨x, s1⟩, b1⟩ := x
      have hb1 : b1 = b := by
        unfold sendMsg at h1
        generalize packU 4 _ = y at h1
        cases y <;> (simp [sendPacked, exec, put, P.raise, Prog.run] at h1; exact h1.2.symm)
      subst hb1
      cases x with
      | error e =>
        right
        refine ⟨e, s1, ?_⟩
        unfold open_
        rw [exec_bind, e0, Res.andThen_ok, exec_bind, h1, Res.andThen_error]
      | ok u =>
        obtain ⟨g1, -, w1, g2, g3⟩ := sendMsg_inv h1
        cases hp : c.process none s.mech with
        | mk y m1 =>
          have h2 : exec (process c none) s1 b1 = some ((y, { s with mech := m1, under := w1 }), b1) := by
            rw [exec_process, g3]
            have : c.process none { s with under := w1 }.mech = (y, m1) := hp
            rw [this]
          cases y with
          | error e =>
            right
            refine ⟨e, { s with mech := m1, under := w1 }, ?_⟩
            unfold open_
            rw [exec_bind, e0, Res.andThen_ok, exec_bind, h1, Res.andThen_ok, exec_bind, h2, Res.andThen_error]
          | ok r =>
            cases h3 : exec (sendMsg k OK r) { s with mech := m1, under := w1 } b1 with
            | none => exact (sendMsg_some _ _ _ _ _ h3).elim
            | some z =>
              obtain ⟨⟨z, s3⟩, b3⟩ := z
              have hb3 : b3 = b1 := by
                unfold sendMsg at h3
                generalize packU 4 _ = y at h3
                cases y <;> (simp [sendPacked, exec, put, P.raise, Prog.run] at h3; exact h3.2.symm)
              subst hb3
              cases z with
              | error e =>
                right
                refine ⟨e, s3, ?_⟩
                unfold open_
                rw [exec_bind, e0, Res.andThen_ok, exec_bind, h1, Res.andThen_ok, exec_bind, h2, Res.andThen_ok,
                  exec_bind, h3, Res.andThen_error]
              | ok u =>
                obtain ⟨i1, -, w2, i2, i3⟩ := sendMsg_inv h3
                exact .inl ⟨g1, m1, w2, .mk ho g2 hp i1 i2⟩
  · right
    refine ⟨e, s', ?_⟩
    unfold open_
    rw [exec_bind, he, Res.andThen_error]

section
variable {τ : Type} {step : Nat → τ → Option (Except Exc Bytes × τ)} {rest : τ → Bytes}

/-- C31: `open` returns only if the server has sent challenges, all of which the client answered, and
then the message COMPLETE (5), whose content the mechanism accepted and after which it is complete. The
client has consumed exactly these messages. -/
theorem sasl_open_ok (c : Mech μ) (k : Under ω) (fuel : Nat) (s s' : St μ ω) (hd : Delivers step rest) (t t' : τ)
    (h : (open_ c k fuel s).run step t = some ((.ok (), s'), t')) :
    ∃ x cs final m1, Starts c k (s.mech, s.under) x ∧ rest t = challenges cs ++ msg 5 final ++ rest t' ∧
      Answers c k.toSink x cs (m1, s'.under) ∧ Verifies c m1 final s'.mech ∧ c.complete s'.mech = true ∧
      s'.wbuf = s.wbuf ∧ s'.rbuf = s.rbuf := by
  have hs := (open_steady c k fuel).any τ step rest hd s t
  cases he : exec (open_ c k fuel) s (rest t) with
  | none => rw [he] at hs; simp only at hs; rw [hs] at h; cases h
  | some r =>
    obtain ⟨r, b⟩ := r
    rw [he] at hs
    obtain ⟨t1, h1, h2⟩ := hs
    rw [h1] at h
    cases h
    rcases open_cases c k fuel s (rest t) with ⟨hn, m1, w2, hst⟩ | ⟨e, s2, h3⟩
    · rw [open_starts hst hn fuel s _ rfl rfl] at he
      obtain ⟨cs, final, m2, w', i1, -, -, i4, i5, i6, i7⟩ := loop_ok c k fuel _ _ _ _ he
      refine ⟨(m1, w2), cs, final, m2, hst, ?_, ?_, i5, i6, ?_, ?_⟩
      · rw [i1, ← h2]
      · rw [i7]; exact i4
      · rw [i7]
      · rw [i7]
    · rw [h3] at he
      cases he

/-- C31: if the server behaves like that, `open` returns. -/
theorem sasl_open_accepts (c : Mech μ) (k : Under ω) (s : St μ ω) (hd : Delivers step rest) (t : τ)
    {x : μ × ω} {cs : List Bytes} {final : Bytes} {m1 m2 : μ} {w : ω} {after : Bytes} (fuel : Nat)
    (hf : cs.length < fuel) (hn : c.name.length < 2 ^ 32)
    (hst : Starts c k (s.mech, s.under) x) (hr : rest t = challenges cs ++ msg 5 final ++ after)
    (hl : ∀ b ∈ cs, b.length < 2 ^ 32) (hl' : final.length < 2 ^ 32)
    (ha : Answers c k.toSink x cs (m1, w)) (hv : Verifies c m1 final m2) (hc : c.complete m2 = true) :
    ∃ t', (open_ c k fuel s).run step t = some ((.ok (), { s with mech := m2, under := w }), t') ∧ rest t' = after := by
  have hs := (open_steady c k fuel).any τ step rest hd s t
  have hx : x = (x.1, x.2) := rfl
  rw [hx] at hst
  obtain ⟨f, rfl⟩ : ∃ f, fuel = cs.length + (f + 1) := ⟨fuel - cs.length - 1, by omega⟩
  have e : exec (open_ c k (cs.length + (f + 1))) s (rest t) = some ((.ok (), { s with mech := m2, under := w }), after) := by
    rw [open_starts hst hn _ s _ rfl rfl, hr, List.append_assoc,
      loop_answers c k ha { s with mech := x.1, under := x.2 } (f + 1) _ rfl rfl hl, exec_while,
      body_complete c k _ final after hl']
    cases hv with
    | empty =>
      rw [if_neg (by simp), exec_finish]
      simp only
      rw [if_pos hc, Res.andThen_ok]
    | data hb hp =>
      rw [if_pos hb, exec_process]
      simp only
      rw [hp, Res.andThen_ok, exec_finish]
      simp only
      rw [if_pos hc, Res.andThen_ok]
  rw [e] at hs
  exact hs

/-- C31: a status other than OK (2) and COMPLETE (5) raises `NOT_OPEN`. -/
theorem sasl_open_rejected (c : Mech μ) (k : Under ω) (s : St μ ω) (hd : Delivers step rest) (t : τ)
    {x y : μ × ω} {cs : List Bytes} {body after : Bytes} {status : Nat} (fuel : Nat)
    (hf : cs.length < fuel) (hn : c.name.length < 2 ^ 32)
    (hst : Starts c k (s.mech, s.under) x) (hr : rest t = challenges cs ++ msg status body ++ after)
    (hl : ∀ b ∈ cs, b.length < 2 ^ 32) (hl' : body.length < 2 ^ 32)
    (ha : Answers c k.toSink x cs y) (h256 : status < 256) (h2 : status ≠ 2) (h5 : status ≠ 5) :
    ∃ s' t', (open_ c k fuel s).run step t = some ((.error TTransportException.NOT_OPEN, s'), t') := by
  have hs := (open_steady c k fuel).any τ step rest hd s t
  have hx : x = (x.1, x.2) := rfl
  rw [hx] at hst
  obtain ⟨f, rfl⟩ : ∃ f, fuel = cs.length + (f + 1) := ⟨fuel - cs.length - 1, by omega⟩
  have e : exec (open_ c k (cs.length + (f + 1))) s (rest t) =
      some ((.error TTransportException.NOT_OPEN, { s with mech := y.1, under := y.2 }), after) := by
    rw [open_starts hst hn _ s _ rfl rfl, hr, List.append_assoc,
      loop_answers c k ha { s with mech := x.1, under := x.2 } (f + 1) _ rfl rfl hl, exec_while,
      body_other c k _ status body after h256 h2 h5 hl', Res.andThen_error]
  rw [e] at hs
  obtain ⟨t', h1, -⟩ := hs
  exact ⟨_, t', h1⟩

/-- C31: the server announces COMPLETE but the mechanism is not complete: `NOT_OPEN`. -/
theorem sasl_open_incomplete (c : Mech μ) (k : Under ω) (s : St μ ω) (hd : Delivers step rest) (t : τ)
    {x : μ × ω} {cs : List Bytes} {final after : Bytes} {m1 m2 : μ} {w : ω} (fuel : Nat)
    (hf : cs.length < fuel) (hn : c.name.length < 2 ^ 32)
    (hst : Starts c k (s.mech, s.under) x) (hr : rest t = challenges cs ++ msg 5 final ++ after)
    (hl : ∀ b ∈ cs, b.length < 2 ^ 32) (hl' : final.length < 2 ^ 32)
    (ha : Answers c k.toSink x cs (m1, w)) (hv : Verifies c m1 final m2) (hc : c.complete m2 = false) :
    ∃ s' t', (open_ c k fuel s).run step t = some ((.error TTransportException.NOT_OPEN, s'), t') := by
  have hs := (open_steady c k fuel).any τ step rest hd s t
  have hx : x = (x.1, x.2) := rfl
  rw [hx] at hst
  obtain ⟨f, rfl⟩ : ∃ f, fuel = cs.length + (f + 1) := ⟨fuel - cs.length - 1, by omega⟩
  have e : exec (open_ c k (cs.length + (f + 1))) s (rest t) =
      some ((.error TTransportException.NOT_OPEN, { s with mech := m2, under := w }), after) := by
    rw [open_starts hst hn _ s _ rfl rfl, hr, List.append_assoc,
      loop_answers c k ha { s with mech := x.1, under := x.2 } (f + 1) _ rfl rfl hl, exec_while,
      body_complete c k _ final after hl']
    cases hv with
    | empty =>
      rw [if_neg (by simp), exec_finish]
      simp only
      rw [if_neg (by simp [hc]), Res.andThen_error]
    | data hb hp =>
      rw [if_pos hb, exec_process]
      simp only
      rw [hp, Res.andThen_ok, exec_finish]
      simp only
      rw [if_neg (by simp [hc]), Res.andThen_error]
  rw [e] at hs
  obtain ⟨t', h1, -⟩ := hs
  exact ⟨_, t', h1⟩

/-- C31: `open` ends, whatever the server sends (a finite stream). -/
theorem sasl_open_returns (c : Mech μ) (k : Under ω) (s : St μ ω) (hd : Delivers step rest) (t : τ) (fuel : Nat)
    (hf : (rest t).length < fuel) : ∃ r, (open_ c k fuel s).run step t = some r := by
  have hs := (open_steady c k fuel).any τ step rest hd s t
  cases he : exec (open_ c k fuel) s (rest t) with
  | some r => rw [he] at hs; obtain ⟨t', h1, -⟩ := hs; exact ⟨_, h1⟩
  | none =>
    exfalso
    rcases open_cases c k fuel s (rest t) with ⟨hn, m1, w2, hst⟩ | ⟨e, s2, h3⟩
    · rw [open_starts hst hn fuel s _ rfl rfl] at he
      exact loop_total c k fuel _ _ hf he
    · rw [h3] at he; cases he
end

/-! ## Data after the negotiation -/

theorem flush_eq (c : Mech μ) (k : Under ω) (s : St μ ω) {e : Bytes} {m : μ}
    (hw : c.wrap s.wbuf.value s.mech = (.ok e, m)) (he : e.length < 2 ^ 31) :
    flush c k s =
      match k.writeFlush (frame e) s.under with
      | (.error x, w) => (.error x, { s with mech := m, under := w })
      | (.ok (), w) => (.ok (), { s with mech := m, under := w, wbuf := BytesIO.of [] }) := by
  unfold flush
  rw [hw]
  simp only
  rw [packS_len he]
  rfl

/-- C31: a flush that succeeds hands over exactly one frame with the wrapped data, and starts a new
buffer. -/
theorem sasl_flush (c : Mech μ) (k : Under ω) (s : St μ ω) {e : Bytes} {m : μ} {w : ω}
    (hw : c.wrap s.wbuf.value s.mech = (.ok e, m)) (he : e.length < 2 ^ 31)
    (hk : k.writeFlush (frame e) s.under = (.ok (), w)) :
    flush c k s = (.ok (), { s with mech := m, under := w, wbuf := BytesIO.of [] }) := by
  rw [flush_eq c k s hw he, hk]

/-- A flush that fails keeps the data: it will be sent by the next flush. If wrapping fails or the
result is too large, nothing has been sent. -/
theorem sasl_flush_failed (c : Mech μ) (k : Under ω) (s s' : St μ ω) (x : Exc)
    (h : flush c k s = (.error x, s')) : s'.wbuf = s.wbuf ∧
    ((∀ e m, c.wrap s.wbuf.value s.mech = (.ok e, m) → 2 ^ 31 ≤ e.length) → s'.under = s.under) := by
  cases hw : c.wrap s.wbuf.value s.mech with
  | mk r m =>
    cases r with
    | error e =>
      unfold flush at h
      rw [hw] at h
      cases h
      exact ⟨rfl, fun _ => rfl⟩
    | ok e =>
      by_cases he : e.length < 2 ^ 31
      · rw [flush_eq c k s hw he] at h
        cases hk : k.writeFlush (frame e) s.under with
        | mk r w =>
          rw [hk] at h
          cases r with
          | error y => cases h; exact ⟨rfl, fun hx => absurd (hx e m rfl) (by omega)⟩
          | ok u => cases h
      · have h0 : ¬ InRange 32 e.length := by unfold InRange; omega
        unfold flush at h
        rw [hw] at h
        simp only at h
        rw [packS_out (n := 4) h0] at h
        cases h
        exact ⟨rfl, fun _ => rfl⟩

/-- A history of calls of `write` and `flush`: the results of the flushes and the object. -/
def saslHistory (c : Mech μ) (k : Under ω) : List WriteOp → St μ ω → List (Except Exc Unit) × St μ ω
  | [], s => ([], s)
  | .write b :: ops, s => saslHistory c k ops (write (.bytes b) s).2
  | .bad :: ops, s => saslHistory c k ops (write .other s).2
  | .flush :: ops, s =>
    let r := flush c k s
    let x := saslHistory c k ops r.2
    (r.1 :: x.1, x.2)

/-- An underlying transport that collects what is written. -/
def collector : Under Bytes where
  write := fun b w => (.ok (), w ++ b)
  flush := fun w => (.ok (), w)
  isOpen := fun _ => true
  open_ := fun w => (.ok (), w)

theorem saslHistory_eq (c : Mech μ) (ops : List WriteOp) : ∀ (s : St μ Bytes) (es : List Bytes) (m : μ),
    s.wbuf.pos = s.wbuf.value.length → Wraps c s.mech (batches false s.wbuf.value ops).1 es m →
    (saslHistory c collector ops s).2.under = s.under ++ frames es ∧
    (saslHistory c collector ops s).2.mech = m ∧
    (∀ r ∈ (saslHistory c collector ops s).1, r = .ok ()) := by
  induction ops with
  | nil =>
    intro s es m _ h
    cases h
    exact ⟨by simp [saslHistory, frames], rfl, by simp [saslHistory]⟩
  | cons op ops ih =>
    intro s es m hp h
    cases op with
    | write b =>
      obtain ⟨h1, h2, -⟩ := BytesIO.write_end s.wbuf b hp
      have := ih (write (.bytes b) s).2 es m h2
      simp only [write] at this
      rw [h1] at this
      exact this h
    | bad => exact ih (write .other s).2 es m hp h
    | flush =>
      simp only [batches] at h
      cases h with
      | @next _ m1 _ _ e _ es hw he h =>
        have hf := sasl_flush c collector s hw he (w := s.under ++ frame e) rfl
        have := ih { s with mech := m1, under := s.under ++ frame e, wbuf := BytesIO.of [] } es m rfl h
        simp only [saslHistory]
        rw [hf]
        obtain ⟨g1, g2, g3⟩ := this
        refine ⟨?_, g2, ?_⟩
        · rw [g1]; simp [frames]
        · intro r hr
          rcases List.mem_cons.mp hr with rfl | hr
          · rfl
          · exact g3 r hr

theorem readFrame_steady (c : Mech μ) : Steady (readFrame c : P (St μ ω) _) := by
  unfold readFrame
  refine Steady.bind (Steady.readAll _) fun _ => Steady.bind (Steady.readAll _) fun _ => ?_
  exact Steady.bind (steady_ret fun s => ⟨_, rfl⟩) fun _ => Steady.modify _

theorem read_steady (c : Mech μ) (n : Nat) : Steady (read c n : P (St μ ω) _) :=
  Steady.bind Steady.get fun _ => Steady.bind (Steady.set _) fun _ =>
    Steady.ite (Steady.pure _) (Steady.bind (readFrame_steady c) fun _ => Steady.bind Steady.get fun _ =>
      Steady.bind (Steady.set _) fun _ => Steady.pure _)

theorem exec_readFrame (c : Mech μ) (s : St μ ω) {b e : Bytes} {m : μ} (rest : Bytes) (h : e.length < 2 ^ 31)
    (hu : c.unwrap e s.mech = (.ok b, m)) :
    exec (readFrame c) s (frame e ++ rest) = some ((.ok (), { s with mech := m, rbuf := BytesIO.of b }), rest) := by
  unfold readFrame frame
  rw [exec_bind, List.append_assoc]
  show (Res.andThen (exec (P.readAll ((4 : Nat) : Int)) s _) _) = _
  rw [exec_readAll_append 4 s _ _ (beInt_length _ _), Res.andThen_ok, exec_bind,
    unpackS_beInt (by omega) (inRange32_of_lt h), exec_readAll_append _ s _ _ rfl, Res.andThen_ok, exec_bind]
  have : exec (unwrap c e) s rest = some ((.ok b, { s with mech := m }), rest) := by
    unfold exec unwrap
    rw [hu]
    rfl
  rw [this, Res.andThen_ok]
  rfl

theorem exec_read (c : Mech μ) (n : Nat) (s : St μ ω) (b : Bytes) :
    exec (read c n) s b =
      if (s.rbuf.unread.take n).length ≠ 0 then
        some ((.ok (s.rbuf.unread.take n), { s with rbuf := (s.rbuf.read n).2 }), b)
      else Res.andThen (exec (readFrame c) { s with rbuf := (s.rbuf.read n).2 } b) fun _ s b =>
        some ((.ok (s.rbuf.unread.take n), { s with rbuf := (s.rbuf.read n).2 }), b) := by
  unfold read
  simp only [exec_bind, exec_get, Res.andThen_ok, exec_set]
  rw [BytesIO.read_fst]
  split
  · rfl
  · simp only [exec_bind, exec_get, Res.andThen_ok, exec_set, exec_pure, BytesIO.read_fst]

/-- What the receiver can still unwrap: the frames `es` give the batches `bs`. -/
inductive Unwraps (c : Mech μ) : μ → List Bytes → List Bytes → Prop
  | done (m : μ) : Unwraps c m [] []
  | next {m m1 : μ} {b e : Bytes} {bs es : List Bytes} :
    c.unwrap e m = (.ok b, m1) → e.length < 2 ^ 31 → Unwraps c m1 bs es → Unwraps c m (b :: bs) (e :: es)

theorem unwraps_of_peers {μ' : Type} {c : Mech μ} {c' : Mech μ'} {R : μ → μ' → Prop} (hR : Peers c c' R)
    {m m2 : μ} {bs es : List Bytes} (h : Wraps c m bs es m2) : ∀ m', R m m' → Unwraps c' m' bs es := by
  induction h with
  | done m => exact fun m' _ => .done m'
  | next hw hl _ ih =>
    intro m' hr
    obtain ⟨m1', h1, h2⟩ := hR _ _ _ _ _ hr hw
    exact .next h1 hl (ih m1' h2)

section
variable {τ : Type} {step : Nat → τ → Option (Except Exc Bytes × τ)} {rest : τ → Bytes}

theorem sasl_read (c : Mech μ) (h : Delivers step rest) (bs es : List Bytes) (s : St μ ω) (t : τ)
    (hu : Unwraps c s.mech bs es) (hr : rest t = frames es) (n : Nat) (hn : 0 < n) :
    ∃ s' t' es', P.over (read c) step n (s, t) = some ((batchRead n (s.rbuf.unread, bs)).1, (s', t')) ∧
      s'.rbuf.unread = (batchRead n (s.rbuf.unread, bs)).2.1 ∧
      Unwraps c s'.mech (batchRead n (s.rbuf.unread, bs)).2.2 es' ∧ rest t' = frames es' := by
  have hs := (read_steady c n).any τ step rest h s t
  rw [hr, exec_read] at hs
  unfold P.over
  cases hb : s.rbuf.unread with
  | cons x cur =>
    rw [if_pos ((take_ne_nil hn).2 (by rw [hb]; simp))] at hs
    obtain ⟨t', h1, h2⟩ := hs
    simp only
    rw [h1]
    refine ⟨{ s with rbuf := (s.rbuf.read n).2 }, t', es, by rw [hb]; rfl, ?_, hu, h2⟩
    rw [BytesIO.read_unread, hb]
    rfl
  | nil =>
    rw [if_neg (by simp [hb])] at hs
    cases hu with
    | done m =>
      have : exec (readFrame c) { s with rbuf := (s.rbuf.read n).2 } (frames []) =
          some ((.error .eof, { s with rbuf := (s.rbuf.read n).2 }), []) := rfl
      rw [this, Res.andThen_error] at hs
      obtain ⟨t', h1, h2⟩ := hs
      simp only
      rw [h1]
      refine ⟨_, t', [], rfl, ?_, .done _, h2⟩
      rw [BytesIO.read_unread, hb]
      simp [batchRead]
    | @next _ m1 b e bs es hw hl hu =>
      have hf : frames (e :: es) = frame e ++ frames es := rfl
      rw [hf, exec_readFrame c { s with rbuf := (s.rbuf.read n).2 } _ hl hw, Res.andThen_ok] at hs
      obtain ⟨t', h1, h2⟩ := hs
      simp only
      rw [h1]
      refine ⟨_, t', es, rfl, ?_, hu, h2⟩
      rw [BytesIO.read_unread]
      rfl

theorem sasl_session (c : Mech μ) (h : Delivers step rest) (ns : List Nat) : ∀ (bs es : List Bytes),
    (∀ n ∈ ns, 0 < n) → ∀ (s : St μ ω) (t : τ), Unwraps c s.mech bs es → rest t = frames es →
    ∃ s' t', Session (P.over (read c) step) (s, t) (batchLog ns (s.rbuf.unread, bs)) (s', t') := by
  induction ns with
  | nil => exact fun bs es _ s t _ _ => ⟨s, t, .done _⟩
  | cons n ns ih =>
    intro bs es hn s t hu hr
    obtain ⟨s1, t1, es1, h1, h2, h3, h4⟩ := sasl_read c h bs es s t hu hr n (hn n (by simp))
    obtain ⟨s2, t2, h5⟩ := ih _ es1 (fun m hm => hn m (by simp [hm])) s1 t1 h3 h4
    refine ⟨s2, t2, .call h1 ?_⟩
    rw [h2] at h5
    exact h5

/-- C31: after the negotiation, one side performs any history of writes and flushes, and the mechanism
wraps the batches as `es`. Every flush succeeds and puts one frame on the wire. The peer, whose
mechanism undoes the wrapping (`Peers`), over any transport that delivers this in whatever pieces, makes
reads of any positive sizes and gets the batches in order (`batchLog`, with `batchLog_delivered`). -/
theorem sasl_transfer {μ' ω' : Type} (c : Mech μ) (c' : Mech μ') {R : μ → μ' → Prop} (hR : Peers c c' R)
    (ops : List WriteOp) (m : μ) (m' : μ') (hm : R m m') (s' : St μ' ω') (hs' : s'.mech = m')
    (hs'' : s'.rbuf.unread = []) {es : List Bytes}
    {m2 : μ} (hw : Wraps c m (batches false [] ops).1 es m2) (ns : List Nat) (hn : ∀ n ∈ ns, 0 < n)
    (h : Delivers step rest) (t : τ)
    (ht : rest t = (saslHistory c collector ops { mech := m, under := [] }).2.under) :
    (∀ r ∈ (saslHistory c collector ops { mech := m, under := [] }).1, r = .ok ()) ∧
    rest t = frames es ∧
    ∃ s'' t', Session (P.over (read c') step) (s', t) (batchLog ns ([], (batches false [] ops).1)) (s'', t') := by
  obtain ⟨h1, -, h3⟩ := saslHistory_eq c ops { mech := m, under := [] } es m2 rfl hw
  rw [h1] at ht
  have ht : rest t = frames es := by simpa using ht
  refine ⟨h3, ht, ?_⟩
  have hu := unwraps_of_peers hR hw m' hm
  rw [← hs'] at hu
  have := sasl_session c' h ns _ es hn s' t hu ht
  rw [hs''] at this
  exact this
end

/-! ## A mechanism -/

/-- A mechanism for the examples: it answers a challenge with its bytes in reverse and is complete after
a challenge `[7]`. Its security layer numbers the frames; unwrapping checks the number. The state is the
completeness and the counter. -/
def sample : Mech (Bool × UInt8) where
  name := [80]
  process := fun ch m => match ch with
    | none => (.ok (some [1]), m)
    | some b => (.ok (some b.reverse), (m.1 || b == [7], m.2))
  complete := fun m => m.1
  wrap := fun b m => (.ok (m.2 :: b), (m.1, m.2 + 1))
  unwrap := fun b m => match b with
    | x :: b => if x = m.2 then (.ok b, (m.1, m.2 + 1)) else (.error .valueError, m)
    | [] => (.error .valueError, m)

theorem sample_peers : Peers sample sample (fun m m' => m.2 = m'.2) := by
  intro m m' b e m1 hr hw
  cases hw
  refine ⟨(m'.1, m'.2 + 1), ?_, by simp [hr]⟩
  simp [sample, hr]

/-- A negotiation with one challenge, and its bytes. -/
example : exec (open_ sample collector 9) ({ mech := (false, 0), under := [] } : St (Bool × UInt8) Bytes)
      (challenges [[3, 4]] ++ msg 5 [7] ++ [9]) =
    some ((.ok (), { mech := (true, 0), under := msg 1 [80] ++ msg 2 [1] ++ msg 2 [4, 3] }), [9]) := rfl

/-- The server claims to be complete too early; the server rejects. -/
example : (exec (open_ sample collector 9) ({ mech := (false, 0), under := [] } : St (Bool × UInt8) Bytes) (msg 5 [])).map (·.1.1) =
      some (.error TTransportException.NOT_OPEN) ∧
    (exec (open_ sample collector 9) ({ mech := (false, 0), under := [] } : St (Bool × UInt8) Bytes) (msg 3 [1])).map (·.1.1) =
      some (.error TTransportException.NOT_OPEN) := ⟨rfl, rfl⟩

/-- The hypotheses of the theorems are met by this negotiation. -/
example : Starts sample collector ((false, 0), []) ((false, 0), msg 1 [80] ++ msg 2 [1]) ∧
    Answers sample collector.toSink ((false, 0), msg 1 [80] ++ msg 2 [1]) [[3, 4]]
      ((false, 0), msg 1 [80] ++ msg 2 [1] ++ msg 2 [4, 3]) ∧
    Verifies sample (false, 0) [7] (true, 0) ∧
    Wraps sample (true, 0) (batches false [] [.write [5], .flush, .flush, .write [6], .write [7], .flush]).1
      [[0, 5], [1], [2, 6, 7]] (true, 3) :=
  ⟨.mk (.inl ⟨rfl, rfl⟩) rfl rfl (by decide) rfl, .next rfl (by decide) rfl (.done _), .data (by decide) rfl,
    .next rfl (by decide) (.next rfl (by decide) (.next rfl (by decide) (.done _)))⟩

end Thrift.Sasl
