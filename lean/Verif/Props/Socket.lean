import Verif.Model.Socket
import Verif.Spec.Socket
/-
C32, C33: `TSocket`.
-/

namespace Thrift.Socket
open Spec

/-! ## C32: `write` -/

theorem writeLoop_spec {τ : Type} {send : Bytes → τ → Except Exc Nat × τ} {acc : τ → Bytes}
    (h : Accepts send acc) (f : Nat) : ∀ (b : Bytes) (t : τ), b.length ≤ f →
    ∃ r t', writeLoop send f b.length b t = some (r, t') ∧
      ∃ p, p <+: b ∧ acc t' = acc t ++ p ∧ (r = .ok () → p = b) ∧
        (∀ e, r = .error e → p.length < b.length) := by
  induction f with
  | zero =>
    intro b t hl
    obtain rfl : b = [] := List.length_eq_zero_iff.mp (by omega)
    exact ⟨_, _, rfl, [], by simp, by simp, fun _ => rfl, fun e he => by cases he⟩
  | succ f ih =>
    intro b t hl
    unfold writeLoop
    by_cases hb : (b.length : Int) > 0
    · rw [if_pos hb]
      have hs := h b t
      cases e : send b t with
      | mk r t1 =>
        rw [e] at hs
        cases r with
        | error x =>
          simp only at hs
          have : ∃ y, (match (Except.error x, t1) with
              | (.error .osError, t) => some (.error TTransportException.UNKNOWN, t)
              | (.error e, t) => some (.error e, t)
              | (.ok plus, t) =>
                if plus = 0 then some (.error TTransportException.END_OF_FILE, t)
                else writeLoop send f ((b.length : Int) - (plus : Nat)) (b.drop plus) t :
              Option (Except Exc Unit × τ)) = some (.error y, t1) := by
            cases x <;> exact ⟨_, rfl⟩
          obtain ⟨y, hy⟩ := this
          refine ⟨_, _, hy, [], by simp, by simp [hs], (fun h => by cases h), fun e _ => ?_⟩
          simp only [List.length_nil]; omega
        | ok plus =>
          simp only at hs
          obtain ⟨h1, h2⟩ := hs
          simp only
          by_cases hp : plus = 0
          · rw [if_pos hp]
            subst hp
            refine ⟨_, _, rfl, [], by simp, by simpa using h2, (fun h => by cases h), fun e _ => ?_⟩
            simp only [List.length_nil]; omega
          · rw [if_neg hp]
            have hlen : ((b.length : Int) - (plus : Nat)) = ((b.drop plus).length : Nat) := by
              rw [List.length_drop]; omega
            rw [hlen]
            obtain ⟨r, t', e1, p, p1, p2, p3, p4⟩ := ih (b.drop plus) t1 (by rw [List.length_drop]; omega)
            refine ⟨r, t', e1, b.take plus ++ p, ?_, ?_, ?_, ?_⟩
            · conv => rhs; rw [← List.take_append_drop plus b]
              exact (List.prefix_append_right_inj _).2 p1
            · rw [p2, h2, List.append_assoc]
            · intro hr
              rw [p3 hr, List.take_append_drop]
            · intro e he
              have := p4 e he
              rw [List.length_append, List.length_take, List.length_drop] at *
              omega
    · rw [if_neg hb]
      have : b = [] := List.length_eq_zero_iff.mp (by omega)
      subst this
      exact ⟨_, _, rfl, [], by simp, by simp, fun _ => rfl, fun e he => by cases he⟩

/-- C32: `write` ends; if it returns normally the socket accepted exactly the given bytes, in order and
once; if it raises, the bytes accepted are a proper prefix. -/
theorem socket_write {τ : Type} {send : Bytes → τ → Except Exc Nat × τ} {acc : τ → Bytes}
    (h : Accepts send acc) (b : Bytes) (t : τ) :
    ∃ r t', write send true b t = some (r, t') ∧
      (r = .ok () → acc t' = acc t ++ b) ∧
      (∀ e, r = .error e → ∃ p q, q ≠ [] ∧ b = p ++ q ∧ acc t' = acc t ++ p) := by
  obtain ⟨r, t', e1, p, p1, p2, p3, p4⟩ := writeLoop_spec h b.length b t (Nat.le_refl _)
  refine ⟨r, t', e1, ?_, ?_⟩
  · intro hr
    rw [p2, p3 hr]
  · intro e he
    obtain ⟨q, hq⟩ := p1
    refine ⟨p, q, ?_, hq.symm, p2⟩
    intro h0
    have := p4 e he
    rw [h0, List.append_nil] at hq
    rw [hq] at this
    omega

/-- A closed transport raises `NOT_OPEN` and sends nothing. -/
theorem socket_write_closed {τ : Type} (send : Bytes → τ → Except Exc Nat × τ) (b : Bytes) (t : τ) :
    write send false b t = some (.error TTransportException.NOT_OPEN, t) := rfl

/-- If no `send` fails and none returns zero, `write` returns normally. -/
theorem socket_write_ok {τ : Type} {send : Bytes → τ → Except Exc Nat × τ} {acc : τ → Bytes}
    (h : Accepts send acc) (hok : ∀ b t, b ≠ [] → ∃ n t', send b t = (.ok (n + 1), t')) (b : Bytes) (t : τ) :
    ∃ t', write send true b t = some (.ok (), t') ∧ acc t' = acc t ++ b := by
  have key : ∀ (f : Nat) (b : Bytes) (t : τ), b.length ≤ f →
      ∃ t', writeLoop send f b.length b t = some (.ok (), t') := by
    intro f
    induction f with
    | zero =>
      intro b t hl
      obtain rfl : b = [] := List.length_eq_zero_iff.mp (by omega)
      exact ⟨t, rfl⟩
    | succ f ih =>
      intro b t hl
      unfold writeLoop
      by_cases hb : (b.length : Int) > 0
      · rw [if_pos hb]
        obtain ⟨n, t1, e⟩ := hok b t (by intro h0; simp [h0] at hb)
        have hs := h b t
        rw [e] at hs
        rw [e]
        simp only at hs ⊢
        rw [if_neg (by omega)]
        have hlen : ((b.length : Int) - ((n + 1 : Nat) : Int)) = ((b.drop (n + 1)).length : Nat) := by
          rw [List.length_drop]; omega
        rw [hlen]
        exact ih _ _ (by rw [List.length_drop]; omega)
      · rw [if_neg hb]; exact ⟨t, rfl⟩
  obtain ⟨t', e⟩ := key b.length b t (Nat.le_refl _)
  obtain ⟨r, t2, e1, p1, _⟩ := socket_write h b t
  have e2 : write send true b t = some (.ok (), t') := e
  rw [e2] at e1
  cases e1
  exact ⟨t', e2, p1 rfl⟩

/-- Partial sends, then an error: the bytes accepted are the first three. -/
example : write scheduled true [1, 2, 3, 4, 5] ([.ok 2, .ok 1, .error .osError], [9]) =
    some (.error TTransportException.UNKNOWN, ([], [9, 1, 2, 3])) := by decide

example : write scheduled true [1, 2, 3, 4, 5] ([.ok 2, .ok 1], [9]) =
    some (.ok (), ([], [9, 1, 2, 3, 4, 5])) := by decide

/-! ## C33: `open` -/

/-- The sockets a list of system calls leaves open: those created and not closed. -/
def leftOpen : List Call → List Nat
  | [] => []
  | .create i :: cs => if Call.close i ∈ cs then leftOpen cs else i :: leftOpen cs
  | _ :: cs => leftOpen cs

/-- The system calls for failing addresses `i`, `i+1`, ..: create, connect, close, one after the other. -/
def tried (i : Nat) : Nat → List Call
  | 0 => []
  | n + 1 => [.create i, .connect i, .close i] ++ tried (i + 1) n

theorem openLoop_refused (n : Nat) : ∀ (i : Nat) (as : List Attempt),
    openLoop i (List.replicate n .refused ++ as) =
      ((openLoop (i + n) as).1, (openLoop (i + n) as).2.1, tried i n ++ (openLoop (i + n) as).2.2) := by
  induction n with
  | zero => intro i as; rfl
  | succ n ih =>
    intro i as
    rw [List.replicate_succ, List.cons_append, openLoop]
    simp only [ih, tried]
    rw [Nat.add_assoc, Nat.add_comm 1 n]
    simp

theorem mem_tried (n : Nat) : ∀ (i : Nat) (c : Call), c ∈ tried i n →
    ∃ j, i ≤ j ∧ j < i + n ∧ (c = .create j ∨ c = .connect j ∨ c = .close j) := by
  induction n with
  | zero => intro i c h; cases h
  | succ n ih =>
    intro i c h
    simp only [tried, List.cons_append, List.nil_append, List.mem_cons] at h
    rcases h with h | h | h | h
    · exact ⟨i, by omega, by omega, .inl h⟩
    · exact ⟨i, by omega, by omega, .inr (.inl h)⟩
    · exact ⟨i, by omega, by omega, .inr (.inr h)⟩
    · obtain ⟨j, h1, h2, h3⟩ := ih (i + 1) c h
      exact ⟨j, by omega, by omega, h3⟩

theorem leftOpen_tried (n : Nat) : ∀ (i : Nat) (cs : List Call), leftOpen (tried i n ++ cs) = leftOpen cs := by
  induction n with
  | zero => intro i cs; rfl
  | succ n ih => intro i cs; simp [tried, leftOpen, ih]

/-- C33: the first `n` addresses refuse the connection and the next one accepts: `open` returns, the
transport holds the socket of that address, the calls were made in order, each failed socket was closed
before the next was created, addresses behind are not tried, and no other socket is left open. -/
theorem socket_open_first (n : Nat) (as : List Attempt) :
    open_ none (.addrs (List.replicate n .refused ++ .accepted :: as)) =
      (.ok (), some n, tried 0 n ++ [.create n, .connect n]) ∧
    leftOpen (tried 0 n ++ [.create n, .connect n]) = [n] := by
  refine ⟨?_, ?_⟩
  · unfold open_
    simp only [openLoop_refused, openLoop, Nat.zero_add]
  · rw [leftOpen_tried]; rfl

/-- C33: no address accepts: `NOT_OPEN`, the transport stays closed and no socket is left open. -/
theorem socket_open_none (n : Nat) :
    open_ none (.addrs (List.replicate n .refused)) =
      (.error TTransportException.NOT_OPEN, none, tried 0 n) ∧ leftOpen (tried 0 n) = [] := by
  refine ⟨?_, ?_⟩
  · have := openLoop_refused n 0 []
    simp only [List.append_nil] at this
    unfold open_
    simp only [this, openLoop, List.append_nil]
  · have := leftOpen_tried n 0 []
    rwa [List.append_nil] at this

/-- C33: every list of outcomes of `connect` is one of the two cases. -/
theorem outcomes_cases (l : List Attempt) (h : ∀ a ∈ l, a = .refused ∨ a = .accepted) :
    (∃ n, l = List.replicate n .refused) ∨ (∃ n as, l = List.replicate n .refused ++ .accepted :: as) := by
  induction l with
  | nil => exact .inl ⟨0, rfl⟩
  | cons a l ih =>
    rcases h a (by simp) with rfl | rfl
    · rcases ih fun a ha => h a (by simp [ha]) with ⟨n, e⟩ | ⟨n, as, e⟩
      · exact .inl ⟨n + 1, by rw [e]; rfl⟩
      · exact .inr ⟨n + 1, as, by rw [e]; rfl⟩
    · exact .inr ⟨0, l, rfl⟩

/-- C33 in one statement, for addresses whose sockets can be made and whose `connect` returns or raises
`socket.error`. -/
theorem socket_open (l : List Attempt) (h : ∀ a ∈ l, a = .refused ∨ a = .accepted) :
    let r := open_ none (.addrs l)
    ((∃ n, l[n]? = some .accepted ∧ (∀ i, i < n → l[i]? = some .refused) ∧ r.1 = .ok () ∧
        r.2.1 = some n ∧ leftOpen r.2.2 = [n]) ∨
     ((∀ a ∈ l, a = .refused) ∧ r.1 = .error TTransportException.NOT_OPEN ∧ r.2.1 = none ∧ leftOpen r.2.2 = [])) := by
  rcases outcomes_cases l h with ⟨n, rfl⟩ | ⟨n, as, rfl⟩
  · right
    obtain ⟨h1, h2⟩ := socket_open_none n
    rw [h1]
    exact ⟨fun a ha => (List.mem_replicate.mp ha).2, rfl, rfl, h2⟩
  · left
    obtain ⟨h1, h2⟩ := socket_open_first n as
    rw [h1]
    refine ⟨n, by simp, ?_, rfl, rfl, h2⟩
    intro i hi
    rw [List.getElem?_append_left (by simpa using hi)]
    simp [hi]

/-- C33: an open transport raises `ALREADY_OPEN`, keeps its handle and touches no socket. -/
theorem socket_open_again (h : Nat) (res : Resolved) :
    open_ (some h) res = (.error TTransportException.ALREADY_OPEN, some h, []) := rfl

/-- C33: a host name that does not resolve raises `NOT_OPEN`; nothing is created. -/
theorem socket_open_unresolved : open_ none .gaierror = (.error TTransportException.NOT_OPEN, none, []) := rfl

/-- Limits of C33: a socket on which an option cannot be set, or whose `connect` raises something other
than `socket.error`, is not closed by `open`. The transport stays closed. -/
theorem socket_open_leaks (n : Nat) (as : List Attempt) (e : Exc) :
    leftOpen (open_ none (.addrs (List.replicate n .refused ++ .badOption e :: as))).2.2 = [n] ∧
    leftOpen (open_ none (.addrs (List.replicate n .refused ++ .broken e :: as))).2.2 = [n] ∧
    (open_ none (.addrs (List.replicate n .refused ++ .badOption e :: as))).2.1 = none ∧
    (open_ none (.addrs (List.replicate n .refused ++ .broken e :: as))).2.1 = none := by
  refine ⟨?_, ?_, ?_, ?_⟩ <;> unfold open_ <;>
    simp only [openLoop_refused, openLoop, Nat.zero_add, leftOpen_tried] <;> rfl

example : open_ none (.addrs [.refused, .refused, .accepted, .accepted]) =
    (.ok (), some 2, [.create 0, .connect 0, .close 0, .create 1, .connect 1, .close 1, .create 2, .connect 2]) := rfl

/-- `close` after `open` leaves no socket open. -/
theorem socket_close (n : Nat) (as : List Attempt) :
    leftOpen ((open_ none (.addrs (List.replicate n .refused ++ .accepted :: as))).2.2 ++
      (close (open_ none (.addrs (List.replicate n .refused ++ .accepted :: as))).2.1).2) = [] := by
  rw [(socket_open_first n as).1]
  dsimp only
  rw [List.append_assoc, leftOpen_tried]
  simp [close, leftOpen]

/-- `open` can be called again after it failed and after `close`. -/
theorem socket_reopen (l : List Attempt) (handle : Option Nat) :
    open_ (close handle).1 (.addrs l) = open_ none (.addrs l) := by
  cases handle <;> rfl

/-! ## `read` and `isOpen` -/

/-- `read` returns only bytes that `recv` returned, never none; the end of the stream raises
`END_OF_FILE`, a timeout `TIMED_OUT`. -/
theorem socket_read (bsd : Bool) (r : Recv) :
    (∀ b c, read bsd r = (.ok b, c) ↔ r = .data b ∧ b ≠ [] ∧ c = false) ∧
    (r = .data [] → read bsd r = (.error TTransportException.END_OF_FILE, false)) ∧
    (r = .timeout → read bsd r = (.error TTransportException.TIMED_OUT, false)) := by
  refine ⟨?_, ?_, ?_⟩
  · intro b c
    cases r with
    | data d =>
      unfold read
      simp only
      by_cases h : d.length = 0
      · rw [if_pos h]
        have : d = [] := List.length_eq_zero_iff.mp h
        subst this
        simp only [Prod.mk.injEq, reduceCtorEq, false_and, false_iff]
        rintro ⟨h1, h2, _⟩
        cases h1
        exact h2 rfl
      · rw [if_neg h]
        constructor
        · intro e; cases e; exact ⟨rfl, fun e => h (by simp [e]), rfl⟩
        · rintro ⟨e, _, rfl⟩; cases e; rfl
    | reset => cases bsd <;> simp [read]
    | timeout => simp [read]
    | wouldBlock => simp [read]
    | failed => simp [read]
    | raises e => simp [read]
  · rintro rfl; rfl
  · rintro rfl; rfl

/-- `isOpen` restores the timeout of the socket, whatever happens. If it answers `False` the transport has
no handle and the socket is closed; if it answers `True` the transport and what has arrived are as
before. -/
theorem socket_isOpen (p : Peer) :
    (∃ p', (isOpen (some p)).2.2 = some p' ∧ p'.timeout = p.timeout) ∧
    ((isOpen (some p)).1 = .ok false → (isOpen (some p)).2.1 = none ∧
      (isOpen (some p)).2.2 = some { p with closed := true }) ∧
    ((isOpen (some p)).1 = .ok true → (isOpen (some p)).2.1 = some p) ∧
    ((isOpen (some p)).1 = .ok true ↔
      (∃ x, p.peek = .data [x]) ∨ p.peek = .wouldBlock ∨ p.peek = .raises .valueError) := by
  obtain ⟨to, peek, cl⟩ := p
  cases peek with
  | data b =>
    match b with
    | [] => simp [isOpen]
    | [x] => simp [isOpen]
    | x :: y :: b => simp [isOpen]
  | timeout => simp [isOpen]
  | reset => simp [isOpen]
  | wouldBlock => simp [isOpen]
  | failed => simp [isOpen]
  | raises e => cases e <;> simp [isOpen]

end Thrift.Socket
