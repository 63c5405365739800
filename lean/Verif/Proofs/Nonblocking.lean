import Verif.Spec.Nonblocking
import Verif.Proofs.Layout
import Verif.Proofs.Pack
/-
Lemmas about the connections of the nonblocking server.
-/

namespace Thrift.Nonblocking
open Spec

/-- What `_reading` looks like between iterations. -/
def ReadInv (c : Conn) : Prop :=
  c.reading = Message.header ∨
  ∃ len : Nat, c.reading = { offset := 4, len := len, isHeader := false } ∧ 4 ≤ c.rbuf.length ∧
    unpackS (c.rbuf.take 4) = len

/-- The processor finds `content` in its transport, possibly followed by more. -/
def Carries (m : Message) (content : Bytes) : Prop := ∃ trail, m.buffer.drop m.offset = content ++ trail

theorem header_of_unpackS {h : Bytes} {n : Nat} (hl : h.length = 4) (he : unpackS h = n) :
    h = beInt 4 n ∧ n < 2 ^ 31 := by
  have h1 := packS_unpackS (b := h) (by omega)
  have h2 := unpackS_range (b := h) (by omega)
  rw [hl, he] at h1 h2
  have hr : InRange (8 * 4) (n : Int) := by
    unfold InRange
    refine ⟨?_, ?_⟩
    · have := h2.1; omega
    · have := h2.2; omega
  rw [packS_eq (n := 4) hr] at h1
  injection h1 with h1
  refine ⟨h1.symm, ?_⟩
  have := h2.2
  omega

theorem frames_cons (b : Bytes) (bs : List Bytes) : frames (b :: bs) = frame b ++ frames bs := rfl

theorem frames_append (as bs : List Bytes) : frames (as ++ bs) = frames as ++ frames bs := by
  simp [frames]

theorem _root_.Thrift.Spec.All2.append {α β : Type} {R : α → β → Prop} {as as' : List α} {bs bs' : List β}
    (h : All2 R as bs) (h' : All2 R as' bs') : All2 R (as ++ as') (bs ++ bs') := by
  induction h with
  | nil => exact h'
  | cons h _ ih => exact .cons h ih

theorem _root_.Thrift.Spec.All2.split {α β : Type} {R : α → β → Prop} {a : α} {as : List α} {bs : List β}
    (h : All2 R (a :: as) bs) : ∃ b bs', bs = b :: bs' ∧ R a b ∧ All2 R as bs' := by
  cases h with
  | cons h1 h2 => exact ⟨_, _, rfl, h1, h2⟩

/-- What the inner loop of `read` does. -/
theorem parse_spec : ∀ (f : Nat) (c : Conn), ReadInv c →
    2 * c.rbuf.length + (if c.reading.isHeader then 1 else 0) < f →
    ∃ c' ms contents, parse f c = some c' ∧ c'.received = c.received ++ ms ∧ All2 Carries ms contents ∧
      c.rbuf = frames contents ++ c'.rbuf ∧ (∀ b ∈ contents, b.length < 2 ^ 31) ∧ ReadInv c' ∧
      c'.wbuf = c.wbuf ∧ c'.remaining = c.remaining ∧
      ((c'.sock = c.sock ∧ c'.rbuf.length < c'.reading.fin ∧
          (c'.status = c.status ∨ c'.status = .waitMessage) ∧ (ms = [] → c.rbuf.length < c.reading.fin → c' = c)) ∨
        (c'.sock = false ∧ c'.status = .closed ∧ 4 ≤ c'.rbuf.length ∧ unpackS (c'.rbuf.take 4) < 0)) := by
  intro f
  induction f with
  | zero => intro c _ h; omega
  | succ f ih =>
    intro c hinv hf
    unfold parse
    by_cases hlen : c.rbuf.length ≥ c.reading.fin
    · rw [if_pos hlen]
      rcases hinv with hh | ⟨len, hh, h4, hu⟩
      · -- a header
        have hfin : c.reading.fin = 4 := by rw [hh]; rfl
        have hisH : c.reading.isHeader = true := by rw [hh]; rfl
        rw [if_pos hisH]
        rw [hisH] at hf
        simp only [if_true] at hf
        rw [hfin] at hlen
        by_cases hneg : unpackS (c.rbuf.take 4) < 0
        · simp only [if_pos hneg]
          exact ⟨c.close, [], [], rfl, by simp [Conn.close], .nil, by simp [frames, Conn.close], by simp,
            .inl hh, rfl, rfl, .inr ⟨rfl, rfl, hlen, hneg⟩⟩
        · simp only [if_neg hneg]
          have hinv' : ReadInv { c with
              reading := { offset := c.reading.fin, len := (unpackS (c.rbuf.take 4)).toNat, isHeader := false }
              status := .waitMessage } :=
            .inr ⟨(unpackS (c.rbuf.take 4)).toNat, by rw [hfin], hlen, by simp only; omega⟩
          obtain ⟨c', ms, cs, h1, h2, h3, h4, h5, h6, h7, h8, h9⟩ := ih _ hinv' (by simp; omega)
          refine ⟨c', ms, cs, h1, h2, h3, h4, h5, h6, h7, h8, ?_⟩
          rcases h9 with ⟨a1, a2, a3, a4⟩ | h9
          · refine .inl ⟨a1, a2, ?_, fun _ hl => by rw [hfin] at hl; omega⟩
            rcases a3 with a3 | a3 <;> exact .inr a3
          · exact .inr h9
      · -- a message
        have hfin : c.reading.fin = 4 + len := by rw [hh]; rfl
        have hisH : c.reading.isHeader = false := by rw [hh]
        rw [hisH]
        simp only [Bool.false_eq_true, if_false]
        rw [hfin] at hlen
        have hinv' : ReadInv { c with
            received := c.received ++ [{ c.reading with buffer := c.rbuf }]
            rbuf := c.rbuf.drop c.reading.fin
            reading := Message.header } := .inl rfl
        obtain ⟨c', ms, cs, g1, g2, g3, g4, g5, g6, g7, g8, g9⟩ := ih _ hinv' (by
          simp only [Message.header, if_true, List.length_drop, hfin]; omega)
        obtain ⟨e1, e2⟩ := header_of_unpackS (h := c.rbuf.take 4) (n := len) (by simp; omega) hu
        have hlc : ((c.rbuf.drop 4).take len).length = len := by simp; omega
        refine ⟨c', { c.reading with buffer := c.rbuf } :: ms, (c.rbuf.drop 4).take len :: cs, g1, ?_, .cons ?_ g3, ?_, ?_,
          g6, g7, g8, ?_⟩
        · rw [g2]; simp
        · refine ⟨(c.rbuf.drop 4).drop len, ?_⟩
          rw [List.take_append_drop, hh]
        · have hd : c.rbuf.drop c.reading.fin = frames cs ++ c'.rbuf := g4
          rw [frames_cons, List.append_assoc, ← hd, hfin]
          unfold frame
          rw [hlc, ← e1, List.append_assoc, ← List.drop_drop, List.take_append_drop, List.take_append_drop]
        · intro b hb
          rcases List.mem_cons.1 hb with rfl | hb
          · omega
          · exact g5 b hb
        · rcases g9 with ⟨a1, a2, a3, a4⟩ | g9
          · exact .inl ⟨a1, a2, a3, fun h => by simp at h⟩
          · exact .inr g9
    · rw [if_neg hlen]
      exact ⟨c, [], [], rfl, by simp, .nil, by simp [frames], by simp, hinv, rfl, rfl,
        .inl ⟨rfl, by omega, .inl rfl, fun _ _ => rfl⟩⟩

theorem parseFuel_ok (c : Conn) : 2 * c.rbuf.length + (if c.reading.isHeader then 1 else 0) < parseFuel c := by
  unfold parseFuel
  split <;> omega

/-- The bytes in a list of results of `recv`. -/
def bytesOf (rs : List Recv) : Bytes := rs.flatMap fun r => match r with | .data b => b | .error => []

/-- What the outer loop of `read` does, when it starts without received messages. -/
theorem readLoop_spec : ∀ (rs : List Recv) (first : Bool) (c : Conn) (c' : Conn), ReadInv c →
    (c.sock = true → c.rbuf.length < c.reading.fin) →
    c.received = [] → readLoop rs first c = some (c', []) →
    ∃ contents, All2 Carries c'.received contents ∧ c.rbuf ++ bytesOf rs = frames contents ++ c'.rbuf ∧
      (∀ b ∈ contents, b.length < 2 ^ 31) ∧ ReadInv c' ∧ c'.wbuf = c.wbuf ∧
      (c'.sock = true → c'.rbuf.length < c'.reading.fin) ∧
      (c'.received ≠ [] → c'.status = .waitProcess) ∧
      (c'.received = [] → c'.sock = false ∧ c'.status = .closed ∨
        c'.sock = true ∧ (c'.status = c.status ∨ c'.status = .waitMessage)) ∧
      (c'.received ≠ [] → c'.sock = false → 4 ≤ c'.rbuf.length ∧ unpackS (c'.rbuf.take 4) < 0) := by
  intro rs
  induction rs with
  | nil => intro first c c' _ _ _ h; simp [readLoop] at h
  | cons r rs ih =>
    intro first c c' hinv hrest hrec h
    cases r with
    | error =>
      simp only [readLoop, Option.some.injEq, Prod.mk.injEq] at h
      obtain ⟨rfl, rfl⟩ := h
      refine ⟨[], ?_, by simp [frames, bytesOf, Conn.close], by simp, hinv, rfl, ?_, ?_, ?_, ?_⟩
      · simp only [Conn.close, hrec]; exact .nil
      · intro h; simp [Conn.close] at h
      · intro h; exact absurd hrec h
      · intro _; exact .inl ⟨rfl, rfl⟩
      · intro h; exact absurd hrec h
    | data b =>
      unfold readLoop at h
      simp only at h
      by_cases hs : c.sock = true
      · rw [if_neg (by simp [hs])] at h
        have hrest := hrest hs
        generalize hc1 : (if first = true ∧ List.length b = 0 then
            Conn.close { c with rbuf := c.rbuf ++ b } else { c with rbuf := c.rbuf ++ b }) = c1 at h
        have k1 : c1.rbuf = c.rbuf ++ b := by rw [← hc1]; split <;> rfl
        have k2 : c1.received = [] := by rw [← hc1]; split <;> exact hrec
        have k3 : c1.reading = c.reading := by rw [← hc1]; split <;> rfl
        have k4 : c1.wbuf = c.wbuf := by rw [← hc1]; split <;> rfl
        have k5 : (c1.sock = true ∧ c1.status = c.status) ∨ (c1.sock = false ∧ c1.status = .closed ∧ b = []) := by
          rw [← hc1]
          split
          · rename_i hb; exact .inr ⟨rfl, rfl, List.length_eq_zero_iff.1 hb.2⟩
          · exact .inl ⟨hs, rfl⟩
        have kinv : ReadInv c1 := by
          rcases hinv with h | ⟨len, h, h4, hu⟩
          · exact .inl (by rw [k3, h])
          · refine .inr ⟨len, by rw [k3, h], by rw [k1, List.length_append]; omega, ?_⟩
            rw [k1, List.take_append_of_le_length h4, hu]
        obtain ⟨c2, ms, cs, p1, p2, p3, p4, p5, p6, p7, p8, p9⟩ := parse_spec _ c1 kinv (parseFuel_ok c1)
        rw [p1] at h
        simp only at h
        rw [k2, List.nil_append] at p2
        rw [k1] at p4
        -- the inner loop leaves the object as it is if the peer has closed
        have keep : c1.sock = false → c2 = c1 := by
          intro hf
          rcases k5 with ⟨k, -⟩ | ⟨-, -, kb⟩
          · rw [k] at hf; simp at hf
          · have hl : ¬ c1.rbuf.length ≥ c1.reading.fin := by rw [k1, k3, kb, List.append_nil]; omega
            have : parse (parseFuel c1) c1 = some c1 := by
              unfold parseFuel parse
              rw [if_neg hl]
            rw [this] at p1
            injection p1 with p1
            exact p1.symm
        have hrest2 : c2.sock = true → c2.rbuf.length < c2.reading.fin := by
          intro ht
          rcases p9 with ⟨-, a, -⟩ | ⟨a, -⟩
          · exact a
          · rw [a] at ht; simp at ht
        have hstat : c2.sock = false ∧ c2.status = .closed ∨
            c2.sock = true ∧ (c2.status = c.status ∨ c2.status = .waitMessage) := by
          rcases p9 with ⟨a1, a2, a3, -⟩ | ⟨a1, a2, -⟩
          · rcases k5 with ⟨k, k'⟩ | ⟨k, k', kb⟩
            · exact .inr ⟨by rw [a1, k], by rw [← k']; exact a3⟩
            · rw [keep k]; exact .inl ⟨k, k'⟩
          · exact .inl ⟨a1, a2⟩
        by_cases hr : c2.received = []
        · rw [if_neg (by simpa using hr)] at h
          have hms : ms = [] := by rw [← p2, hr]
          have hcs : cs = [] := by subst hms; cases p3; rfl
          by_cases hd : decide (List.length b < 8192) = true
          · rw [if_pos hd] at h
            simp only [Option.some.injEq, Prod.mk.injEq] at h
            obtain ⟨rfl, rfl⟩ := h
            refine ⟨cs, by rw [hr, hcs]; exact .nil, by simpa [bytesOf] using p4, p5, p6, by rw [← k4, ← p7],
              hrest2, ?_, fun _ => hstat, ?_⟩
            · intro h; exact absurd hr h
            · intro h; exact absurd hr h
          · rw [if_neg hd] at h
            obtain ⟨cs', q1, q2, q3, q4, q5, q6, q7, q8, q9⟩ := ih false c2 c' p6 hrest2 hr h
            refine ⟨cs', q1, ?_, q3, q4, by rw [q5, p7, k4], q6, q7, ?_, q9⟩
            · rw [← q2]
              have : c.rbuf ++ b = c2.rbuf := by rw [p4, hcs]; rfl
              rw [← this]
              simp [bytesOf]
            · intro he
              rcases q8 he with q | ⟨q, q'⟩
              · exact .inl q
              · rcases hstat with ⟨hf, hst⟩ | ⟨ht, hst⟩
                · -- on a closed socket the loop only goes on to close it
                  exfalso
                  cases rs with
                  | nil => simp [readLoop] at h
                  | cons r rs =>
                    cases r with
                    | error =>
                      simp only [readLoop, Option.some.injEq, Prod.mk.injEq] at h
                      rw [← h.1] at q
                      simp [Conn.close] at q
                    | data b' => simp [readLoop, hf] at h
                · refine .inr ⟨q, ?_⟩
                  rcases q' with q' | q'
                  · rw [q']; exact hst
                  · exact .inr q'
        · rw [if_pos hr] at h
          simp only [Option.some.injEq, Prod.mk.injEq] at h
          obtain ⟨rfl, rfl⟩ := h
          refine ⟨cs, by rw [p2]; exact p3, by simpa [bytesOf] using p4, p5, p6, by rw [← k4, ← p7], hrest2, ?_, ?_, ?_⟩
          · intro _; rfl
          · intro h; exact absurd h hr
          · intro _ hsf
            rcases p9 with ⟨a1, a2, a3, -⟩ | ⟨-, -, a3⟩
            · exfalso
              have hsf' : c2.sock = false := hsf
              rw [a1] at hsf'
              rw [keep hsf'] at hr
              exact hr k2
            · exact a3
      · rw [if_pos (by simpa using hs)] at h
        simp at h

end Thrift.Nonblocking
