import Verif.Model.TwistedSasl
/-
C93: a SASL connection of Twisted is never established.

What a user relies on: `ThriftSASLClientProtocol` negotiates with the server, then fires `started` with a client whose calls go over the wrapped connection. It is false on Python 3 of
every SASL object, every server and every order of events; the theorems say how far it gets.
-/

namespace Thrift.TwistedSasl
open Rpc (pyStr)

variable {μ : Type}

/-! ## Specification -/

/-- A SASL message on the wire, `doc/specs/thrift-sasl-spec.txt`: a status, the length of the body in four bytes, the body -/
def wireMessage (status : UInt8) (body : Bytes) : Bytes := status :: beBytes 4 body.length ++ body

/-- The bytes that were written to the connection, call by call -/
def writes (os : List Obs) : List Bytes := os.filterMap fun
  | .wrote b => some b
  | .sent b => some b
  | _ => none

/-- The SASL objects that the user gives in the events -/
def objects (es : List (Event μ)) : List (Sasl μ) := es.filterMap fun
  | .setSasl c _ => some c
  | .create (.ok (c, _)) => some c
  | _ => none

/-! ## The constructor -/

/-- With a host, as documented, the constructor raises `AttributeError`, whatever the SASL object. -/
theorem init_raises (make : Except Exc (Sasl μ × μ)) : init true make = .error .attributeError := by
  have : pyStr "SASLClient" ∉ ["SASLCLient", "_client_class", "_iprot_factory", "_oprot_factory", "recv_map", "started", "_sasl_negotiation_deferred", "_sasl_negotiation_status",
      "client"].map pyStr := by decide +kernel
  simp only [init, createSASLClient, if_true, if_neg this]

/-- A protocol object that was made, and what has not happened to it -/
structure Inv (s : St μ) : Prop where
  attrs : pyStr "SASLClient" ∉ s.attrs
  client : s.client = false
  waiting : s.waiting = true ↔ s.stage = .message
  first : ∀ x, s.stage ≠ .thread (some x)

theorem init_inv {host : Bool} {make : Except Exc (Sasl μ × μ)} {s : St μ} (h : init host make = .ok s) : Inv s ∧ s.stage = .new ∧ s.sasl = none := by
  cases host with
  | true => rw [init_raises] at h; cases h
  | false =>
    simp only [init] at h
    cases h
    refine ⟨⟨?_, rfl, by simp, by simp⟩, rfl, rfl⟩
    exact (by decide +kernel : pyStr "SASLClient" ∉ ["SASLCLient", "_client_class", "_iprot_factory", "_oprot_factory", "recv_map", "started", "_sasl_negotiation_deferred",
      "_sasl_negotiation_status", "client"].map pyStr)

/-- The same SASL object, perhaps in another state -/
def Same (x y : Option (Sasl μ × μ)) : Prop := ∀ c m, x = some (c, m) → ∃ m', y = some (c, m')

theorem Same.refl (x : Option (Sasl μ × μ)) : Same x x := fun _ m h => ⟨m, h⟩

theorem Same.of {c : Sasl μ} {m m' : μ} {y : Option (Sasl μ × μ)} (h : y = some (c, m)) : Same (some (c, m')) y := by
  intro _ _ h'
  cases h'
  exact ⟨m, h⟩

/-! ## Sending -/

theorem bind_ok {α β : Type} {x : Except Exc α} {f : α → Except Exc β} {b : β} (h : x.bind f = .ok b) : ∃ a, x = .ok a ∧ f a = .ok b := by
  cases x with
  | error e => cases h
  | ok a => exact ⟨a, rfl, h⟩

theorem sendBody_ok {n : Nat} {x : Py} {b : Bytes} (h : sendBody n x = .ok b) : ∃ body, x = .bytes body ∧ b = wireMessage (UInt8.ofNat n) body := by
  obtain ⟨k, hl, h⟩ := bind_ok h
  obtain ⟨len, hp, h⟩ := bind_ok h
  cases x with
  | none => cases h
  | text t => cases h
  | bytes body =>
    refine ⟨body, rfl, ?_⟩
    simp only [Py.after, Except.ok.injEq] at h
    simp only [Py.len, Except.ok.injEq] at hl
    rw [packU] at hp
    split at hp
    · simp only [Except.ok.injEq, Int.toNat_natCast] at hp
      rw [← h, ← hp, ← hl]
      rfl
    · cases hp

theorem sendMessage_ok {n : Nat} {x : Py} {b : Bytes} (h : sendMessage n x = .ok b) : ∃ body, x = .bytes body ∧ b = wireMessage (UInt8.ofNat n) body := by
  cases x with
  | none => obtain ⟨body, hb, _⟩ := sendBody_ok (x := .text []) h; cases hb
  | text t => exact sendBody_ok h
  | bytes body => exact sendBody_ok h

theorem join_raises (x y : Py) (b : Bytes) : joinText (.bytes b) x ≠ .ok y := by simp [joinText]

/-- `dispatch` raises whatever the message and the SASL object; nothing is sent. -/
theorem dispatch_raises (msg : Bytes) (s : St μ) : ∃ e, (dispatch msg s).2 = [.raised e] := by
  rw [dispatch.eq_def]
  split
  · exact ⟨_, rfl⟩
  · split
    · exact ⟨_, rfl⟩
    · dsimp only
      split
      · exact ⟨_, rfl⟩
      · rename_i h
        obtain ⟨_, _, h⟩ := bind_ok h
        obtain ⟨_, _, h⟩ := bind_ok h
        exact absurd h (join_raises _ _ _)
      · exact ⟨_, rfl⟩

theorem dispatch_state (msg : Bytes) (s : St μ) : ∃ x, (dispatch msg s).1 = { s with sasl := x } ∧ Same x s.sasl := by
  rw [dispatch.eq_def]
  split
  · exact ⟨s.sasl, rfl, .refl _⟩
  · rename_i hs
    split
    · exact ⟨_, rfl, .of hs⟩
    · dsimp only
      split <;> exact ⟨_, rfl, .of hs⟩

/-! ## Receiving -/

/-- While a message of the negotiation is awaited, everything the server sends raises `TypeError`, and changes nothing. -/
theorem answer_raises (rb : Py → Except Exc Unit) (recv : Py → List Obs) (data : Bytes) (s : St μ) (h : s.waiting = true) (hd : data ≠ []) :
    dataReceived rb recv data s = (s, [.raised .typeError]) := by
  cases data with
  | nil => exact absurd rfl hd
  | cons b bs => simp [dataReceived, h, Py.item, unpackB]

theorem stringReceived_raises (rb : Py → Except Exc Unit) (recv : Py → List Obs) (frame : Bytes) (s : St μ) (hw : s.waiting = false) (hc : s.client = false) :
    ∃ e x, stringReceived rb recv frame s = (.error e, { s with sasl := x }, []) ∧ Same x s.sasl := by
  rw [stringReceived.eq_def, if_neg (by simp [hw])]
  split
  · exact ⟨_, s.sasl, rfl, .refl _⟩
  · rename_i hs
    split
    · exact ⟨_, _, rfl, .of hs⟩
    · split
      · exact ⟨_, _, rfl, .of hs⟩
      · rw [if_neg (by simp [hc])]
        exact ⟨_, _, rfl, .of hs⟩

theorem receive_keeps (rb : Py → Except Exc Unit) (recv : Py → List Obs) (fuel : Nat) (all : Bytes) (s : St μ) (hw : s.waiting = false) (hc : s.client = false) :
    ∃ x u, (receive rb recv fuel all all s).1 = { s with sasl := x, unprocessed := u } ∧ Same x s.sasl ∧
      ((receive rb recv fuel all all s).2 = [] ∨ (receive rb recv fuel all all s).2 = [.tooLong] ∨ ∃ e, (receive rb recv fuel all all s).2 = [.raised e]) := by
  cases fuel with
  | zero => exact ⟨s.sasl, all, rfl, .refl _, .inl rfl⟩
  | succ fuel =>
    rw [receive]
    split
    · exact ⟨s.sasl, all, rfl, .refl _, .inl rfl⟩
    · dsimp only
      split
      · exact ⟨s.sasl, all, rfl, .refl _, .inr (.inl rfl)⟩
      · split
        · exact ⟨s.sasl, all, rfl, .refl _, .inl rfl⟩
        · obtain ⟨e, x, he, hx⟩ := stringReceived_raises rb recv ((all.drop 4).take (beNat (all.take 4))) s hw hc
          rw [he]
          exact ⟨x, all, rfl, hx, .inr (.inr ⟨e, rfl⟩)⟩

/-- No frame is ever delivered; the state keeps all but the bytes that have come and the state of the SASL object. -/
theorem received_keeps (rb : Py → Except Exc Unit) (recv : Py → List Obs) (data : Bytes) (s : St μ) (hc : s.client = false) :
    ∃ x u, (dataReceived rb recv data s).1 = { s with sasl := x, unprocessed := u } ∧ Same x s.sasl ∧
      ((dataReceived rb recv data s).2 = [] ∨ (dataReceived rb recv data s).2 = [.tooLong] ∨ ∃ e, (dataReceived rb recv data s).2 = [.raised e]) := by
  by_cases hw : s.waiting = true
  · cases data with
    | nil =>
      have : dataReceived rb recv [] s = (s, [.raised .indexError]) := by rw [dataReceived.eq_def, if_pos hw]; rfl
      rw [this]
      exact ⟨s.sasl, s.unprocessed, rfl, .refl _, .inr (.inr ⟨_, rfl⟩)⟩
    | cons b bs =>
      rw [answer_raises rb recv _ s hw (by simp)]
      exact ⟨s.sasl, s.unprocessed, rfl, .refl _, .inr (.inr ⟨_, rfl⟩)⟩
  · rw [dataReceived.eq_def, if_neg hw, received]
    obtain ⟨x, u, h1, h2⟩ := receive_keeps rb recv (s.unprocessed.length + data.length) (s.unprocessed ++ data) { s with unprocessed := s.unprocessed ++ data }
      (by simpa using hw) hc
    exact ⟨x, u, h1, h2⟩

/-! ## One event -/

/-- How far the negotiation is: the messages that it can still send -/
def toSend : Stage → Nat
  | .new => 2
  | .thread _ => 1
  | _ => 0

/-- What one event may do -/
theorem step_spec (rb : Py → Except Exc Unit) (recv : Py → List Obs) (s : St μ) (h : Inv s) (e : Event μ) :
    Inv (step rb recv s e).1 ∧ Obs.started ∉ (step rb recv s e).2 ∧
      ((writes (step rb recv s e).2 = [] ∧ ((step rb recv s e).1.stage = s.stage ∨ toSend (step rb recv s e).1.stage = 0)) ∨
       (s.stage = .new ∧ (step rb recv s e).1.stage = .thread none ∧ ∃ c m b, s.sasl = some (c, m) ∧ c.mechanism = .bytes b ∧ writes (step rb recv s e).2 = [wireMessage 1 b]) ∨
       (s.stage = .thread none ∧ (step rb recv s e).1.stage = .message ∧ ∃ c m b, s.sasl = some (c, m) ∧ (c.process none m).1 = .ok (.bytes b) ∧ writes (step rb recv s e).2 = [wireMessage 2 b])) := by
  cases e with
  | setSasl c m => exact ⟨⟨h.attrs, h.client, h.waiting, h.first⟩, by simp [step], .inl ⟨rfl, .inl rfl⟩⟩
  | create make =>
    have : step rb recv s (.create make) = (s, [.raised .attributeError]) := by simp only [step, createSASLClient, if_neg h.attrs]
    rw [this]
    exact ⟨h, by simp, .inl ⟨rfl, .inl rfl⟩⟩
  | connectionLost =>
    have : step rb recv s .connectionLost = (s, []) := by rw [step, if_neg (by simp [h.client])]
    rw [this]
    exact ⟨h, by simp, .inl ⟨rfl, .inl rfl⟩⟩
  | dispatch msg =>
    simp only [step]
    obtain ⟨e, he⟩ := dispatch_raises msg s
    obtain ⟨x, hx, -⟩ := dispatch_state msg s
    rw [he, hx]
    exact ⟨⟨h.attrs, h.client, h.waiting, h.first⟩, by simp, .inl ⟨rfl, .inl rfl⟩⟩
  | data b =>
    simp only [step]
    obtain ⟨x, u, hx, -, ho⟩ := received_keeps rb recv b s h.client
    rw [hx]
    refine ⟨⟨h.attrs, h.client, h.waiting, h.first⟩, ?_, .inl ⟨?_, .inl rfl⟩⟩
    · rcases ho with ho | ho | ⟨e, ho⟩ <;> rw [ho] <;> simp
    · rcases ho with ho | ho | ⟨e, ho⟩ <;> rw [ho] <;> rfl
  | connectionMade =>
    simp only [step]
    by_cases hn : s.stage = .new
    · simp only [hn, if_true, connectionMade]
      have hw : s.waiting = false := by
        cases hw : s.waiting with
        | false => rfl
        | true => have := h.waiting.1 hw; rw [hn] at this; cases this
      cases hs : s.sasl with
      | none => exact ⟨⟨h.attrs, h.client, by simp [hw], by simp⟩, by simp, .inl ⟨rfl, .inr rfl⟩⟩
      | some cm =>
        obtain ⟨c, m⟩ := cm
        dsimp only
        cases hm : sendMessage START c.mechanism with
        | error e => exact ⟨⟨h.attrs, h.client, by simp [hw], by simp⟩, by simp, .inl ⟨rfl, .inr rfl⟩⟩
        | ok b =>
          obtain ⟨body, hb, hb'⟩ := sendMessage_ok hm
          refine ⟨⟨h.attrs, h.client, by simp [hw], by simp⟩, by simp, .inr (.inl ⟨trivial, rfl, c, m, body, rfl, hb, ?_⟩)⟩
          rw [hb']
          rfl
    · rw [if_neg hn]
      exact ⟨h, by simp, .inl ⟨rfl, .inl rfl⟩⟩
  | threadDone =>
    simp only [step]
    cases hst : s.stage with
    | thread x =>
      cases x with
      | some x => exact absurd hst (h.first x)
      | none =>
        have hw : s.waiting = false := by
          cases hw : s.waiting with
          | false => rfl
          | true => have := h.waiting.1 hw; rw [hst] at this; cases this
        simp only [threadDone]
        cases hs : s.sasl with
        | none => exact ⟨⟨h.attrs, h.client, by simp [hw], by simp⟩, by simp, .inl ⟨rfl, .inr rfl⟩⟩
        | some cm =>
          obtain ⟨c, m⟩ := cm
          dsimp only
          rcases hp : c.process none m with ⟨r, m'⟩
          cases r with
          | error e => exact ⟨⟨h.attrs, h.client, by simp [hw], by simp⟩, by simp, .inl ⟨rfl, .inr rfl⟩⟩
          | ok r =>
            dsimp only
            cases hm : sendMessage OK r with
            | error e => exact ⟨⟨h.attrs, h.client, by simp [hw], by simp⟩, by simp, .inl ⟨rfl, .inr rfl⟩⟩
            | ok b =>
              obtain ⟨body, hb, hb'⟩ := sendMessage_ok hm
              refine ⟨⟨h.attrs, h.client, by simp, by simp⟩, by simp, .inr (.inr ⟨trivial, rfl, c, m, body, rfl, by rw [hp, hb], ?_⟩)⟩
              rw [hb']
              rfl
    | new => exact ⟨h, by simp, .inl ⟨rfl, .inl hst⟩⟩
    | message => exact ⟨h, by simp, .inl ⟨rfl, .inl hst⟩⟩
    | ended => exact ⟨h, by simp, .inl ⟨rfl, .inl hst⟩⟩

theorem step_sasl (rb : Py → Except Exc Unit) (recv : Py → List Obs) (s : St μ) (h : Inv s) (e : Event μ) :
    Same (step rb recv s e).1.sasl s.sasl ∨ ∃ c m, (step rb recv s e).1.sasl = some (c, m) ∧ objects [e] = [c] := by
  cases e with
  | setSasl c m => exact .inr ⟨c, m, rfl, rfl⟩
  | create make =>
    have : step rb recv s (.create make) = (s, [.raised .attributeError]) := by simp only [step, createSASLClient, if_neg h.attrs]
    rw [this]
    exact .inl (.refl _)
  | connectionLost =>
    have : step rb recv s .connectionLost = (s, []) := by rw [step, if_neg (by simp [h.client])]
    rw [this]
    exact .inl (.refl _)
  | dispatch msg =>
    obtain ⟨x, hx, hs⟩ := dispatch_state msg s
    rw [step, hx]
    exact .inl hs
  | data b =>
    obtain ⟨x, u, hx, hs, -⟩ := received_keeps rb recv b s h.client
    rw [step, hx]
    exact .inl hs
  | connectionMade =>
    left
    rw [step]
    split
    · rw [connectionMade.eq_def]
      split
      · exact .refl _
      · split <;> exact .refl _
    · exact .refl _
  | threadDone =>
    left
    rw [step]
    split
    · rw [threadDone.eq_def]
      split
      · exact .refl _
      · rename_i hs
        split
        · exact .of hs
        · dsimp only
          split <;> exact .of hs
    · exact .refl _

theorem writes_append (a b : List Obs) : writes (a ++ b) = writes a ++ writes b := by simp [writes]

theorem run_inv (rb : Py → Except Exc Unit) (recv : Py → List Obs) (es : List (Event μ)) (s : St μ) (h : Inv s) :
    Inv (run rb recv s es).1 ∧ Obs.started ∉ (run rb recv s es).2 := by
  induction es generalizing s with
  | nil => exact ⟨h, by simp [run]⟩
  | cons e es ih =>
    obtain ⟨hi, hs, _⟩ := step_spec rb recv s h e
    obtain ⟨hi', hs'⟩ := ih _ hi
    exact ⟨hi', by simp [run, hs, hs']⟩

/-! ## The theorems -/

/-- Whatever the SASL object, the server and the order of events, `started` never fires: no call can be made, and no client exists. -/
theorem never_started (rb : Py → Except Exc Unit) (recv : Py → List Obs) {host : Bool} {make : Except Exc (Sasl μ × μ)} {s : St μ} (h : init host make = .ok s) (es : List (Event μ)) :
    Obs.started ∉ (run rb recv s es).2 ∧ (run rb recv s es).1.client = false :=
  ⟨(run_inv rb recv es s (init_inv h).1).2, (run_inv rb recv es s (init_inv h).1).1.client⟩

theorem run_none (rb : Py → Except Exc Unit) (recv : Py → List Obs) (es : List (Event μ)) (s : St μ) (h : Inv s) (h0 : toSend s.stage = 0) : writes (run rb recv s es).2 = [] := by
  induction es generalizing s with
  | nil => rfl
  | cons e es ih =>
    obtain ⟨hi, _, hw⟩ := step_spec rb recv s h e
    rcases hw with ⟨hw, hl⟩ | ⟨hn, _⟩ | ⟨hn, _⟩
    · rw [run, writes_append, hw, List.nil_append]
      exact ih _ hi (by rcases hl with hl | hl <;> rw [hl] <;> omega)
    · rw [hn] at h0; cases h0
    · rw [hn] at h0; cases h0

theorem run_one (rb : Py → Except Exc Unit) (recv : Py → List Obs) (es : List (Event μ)) (s : St μ) (h : Inv s) (h1 : toSend s.stage ≤ 1) :
    writes (run rb recv s es).2 = [] ∨ ∃ b, writes (run rb recv s es).2 = [wireMessage 2 b] := by
  induction es generalizing s with
  | nil => exact .inl rfl
  | cons e es ih =>
    obtain ⟨hi, _, hw⟩ := step_spec rb recv s h e
    rcases hw with ⟨hw, hl⟩ | ⟨hn, _⟩ | ⟨hn, hm, c, m, b, _, _, hw⟩
    · rw [run, writes_append, hw, List.nil_append]
      exact ih _ hi (by rcases hl with hl | hl <;> rw [hl] <;> omega)
    · rw [hn] at h1; exact absurd h1 (by decide)
    · rw [run, writes_append, hw, run_none rb recv es _ hi (by rw [hm]; rfl)]
      exact .inr ⟨b, rfl⟩

/-- All that a server ever sees: nothing, a START message, or a START and an OK message. No call, and no second message of the negotiation. -/
theorem wire (rb : Py → Except Exc Unit) (recv : Py → List Obs) {host : Bool} {make : Except Exc (Sasl μ × μ)} {s : St μ} (h : init host make = .ok s) (es : List (Event μ)) :
    ∃ mechanism body, writes (run rb recv s es).2 <+: [wireMessage 1 mechanism, wireMessage 2 body] := by
  obtain ⟨hi, hn, -⟩ := init_inv h
  clear h
  induction es generalizing s with
  | nil => exact ⟨[], [], by simp [run, writes]⟩
  | cons e es ih =>
    obtain ⟨hi', _, hw⟩ := step_spec rb recv s hi e
    rcases hw with ⟨hw, hl | hl⟩ | ⟨_, hm, c, m, b, _, _, hw⟩ | ⟨hn', _⟩
    · obtain ⟨a, b, hp⟩ := ih hi' (hl.trans hn)
      exact ⟨a, b, by rw [run, writes_append, hw, List.nil_append]; exact hp⟩
    · exact ⟨[], [], by rw [run, writes_append, hw, run_none rb recv es _ hi' hl]; exact List.nil_prefix⟩
    · rcases run_one rb recv es _ hi' (by rw [hm]; exact Nat.le_refl _) with hr | ⟨b', hr⟩
      · exact ⟨b, [], by rw [run, writes_append, hw, hr]; exact List.cons_prefix_cons.2 ⟨rfl, List.nil_prefix⟩⟩
      · exact ⟨b, b', by rw [run, writes_append, hw, hr]; exact List.prefix_refl _⟩
    · rw [hn] at hn'; cases hn'

/-- Nothing at all is written if the mechanism of every SASL object is a text, as that of `puresasl` is (`'GSSAPI'`, `'PLAIN'`), or `None`. -/
theorem silent (rb : Py → Except Exc Unit) (recv : Py → List Obs) {host : Bool} {make : Except Exc (Sasl μ × μ)} {s : St μ} (h : init host make = .ok s) (es : List (Event μ))
    (ht : ∀ c ∈ objects es, ∀ b, c.mechanism ≠ .bytes b) : writes (run rb recv s es).2 = [] := by
  obtain ⟨hi, hn, hs⟩ := init_inv h
  have ho : ∀ c m, s.sasl = some (c, m) → ∀ b, c.mechanism ≠ .bytes b := by simp [hs]
  clear h hs
  induction es generalizing s with
  | nil => rfl
  | cons e es ih =>
    obtain ⟨hi', _, hw⟩ := step_spec rb recv s hi e
    rcases hw with ⟨hw, hl | hl⟩ | ⟨_, hm, c, m, b, h1, h2, hw⟩ | ⟨hn', _⟩
    · rw [run, writes_append, hw, List.nil_append]
      have hx : ∀ c ∈ objects [e], c ∈ objects (e :: es) := by
        intro c hc
        rw [show e :: es = [e] ++ es from rfl, objects, List.filterMap_append]
        exact List.mem_append_left _ hc
      have hx' : ∀ c ∈ objects es, c ∈ objects (e :: es) := by
        intro c hc
        rw [show e :: es = [e] ++ es from rfl, objects, List.filterMap_append]
        exact List.mem_append_right _ hc
      refine ih (fun c hc => ht c (hx' c hc)) hi' (hl.trans hn) ?_
      intro c m hcm
      rcases step_sasl rb recv s hi e with hs | ⟨c', m', hs, ho'⟩
      · obtain ⟨m', hm'⟩ := hs c m hcm
        exact ho c m' hm'
      · rw [hs] at hcm
        cases hcm
        exact ht c (hx c (by rw [ho']; exact List.mem_singleton_self _))
    · rw [run, writes_append, hw, run_none rb recv es _ hi' hl]; rfl
    · exact absurd h2 (ho c m h1 b)
    · rw [hn] at hn'; cases hn'

/-! ## The hypotheses can be met -/

/-- A SASL object with one exchange, whose mechanism is `x`; it wraps by adding a zero byte. -/
def sample (x : Py) : Sasl Nat where
  mechanism := x
  process c m := (.ok (.bytes (match c with | some (.bytes b) => b | _ => [42])), m + 1)
  complete m := m == 2
  wrap b m := (.ok (.bytes (0 :: b)), m)
  unwrap b m := (.ok (.bytes (b.drop 1)), m)

/-- With a mechanism in bytes the negotiation starts, and both messages are written; the answer of the server, an OK message with a challenge, ends in a `TypeError`, and so does a call. -/
example : ∃ s, init false (.ok (sample (.text (pyStr "PLAIN")), 0)) = .ok s ∧
    (run (fun _ => .ok ()) (fun _ => []) s
      [.setSasl (sample (.bytes [80])) 0, .connectionMade, .threadDone, .data [2, 0, 0, 0, 1, 7], .dispatch [1, 2, 3], .threadDone, .data [5, 0, 0, 0, 0]]).2 =
      [.wrote [1, 0, 0, 0, 1, 80], .wrote [2, 0, 0, 0, 1, 42], .raised .typeError, .raised .typeError, .raised .typeError] :=
  ⟨_, rfl, by decide +kernel⟩

/-- With a mechanism in text, as that of `puresasl`, nothing is written; nor with a frame of the server before. -/
example : ∃ s, init false (.ok (sample (.text (pyStr "PLAIN")), 0)) = .ok s ∧
    (run (fun _ => .ok ()) (fun _ => []) s
      [.setSasl (sample (.text (pyStr "PLAIN"))) 0, .data [0, 0, 0, 1, 7], .connectionMade, .threadDone, .create (.ok (sample .none, 0))]).2 =
      [.raised .attributeError, .raised .typeError, .raised .attributeError] :=
  ⟨_, rfl, by decide +kernel⟩

end Thrift.TwistedSasl
