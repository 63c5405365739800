import Verif.Model.Transport
import Verif.Spec.Transport
import Verif.Proofs.Simulate
import Verif.Proofs.Layout
/-
C22 (`TBufferedTransport.read`), C23 (`TBufferedTransport.flush`), C24 (`TFramedTransport`),
C25 (`TMemoryBuffer`).
-/

namespace Thrift
open Spec

/-! ## `BytesIO` -/

theorem BytesIO.read_fst (io : BytesIO) (n : Nat) : (io.read n).1 = io.unread.take n := by
  unfold BytesIO.read BytesIO.unread
  simp only
  rw [if_neg (by omega)]
  rfl

theorem BytesIO.read_unread (io : BytesIO) (n : Nat) : (io.read n).2.unread = io.unread.drop n := by
  unfold BytesIO.read BytesIO.unread
  simp only
  rw [if_neg (by omega), ← List.drop_drop]
  simp only [Int.toNat_natCast, List.length_take]
  by_cases h : n ≤ (io.value.drop io.pos).length
  · rw [Nat.min_eq_left h]
  · rw [Nat.min_eq_right (by omega), List.drop_length, List.drop_eq_nil_of_le (by omega)]

theorem BytesIO.of_unread (b : Bytes) : (BytesIO.of b).unread = b := rfl

theorem BytesIO.write_end (io : BytesIO) (b : Bytes) (h : io.pos = io.value.length) :
    (io.write b).value = io.value ++ b ∧ (io.write b).pos = (io.write b).value.length ∧
    (io.write b).closed = io.closed := by
  unfold BytesIO.write
  by_cases hb : b = []
  · simp [hb, h]
  · simp only [if_neg hb, h, List.take_length, Nat.sub_self, List.replicate_zero, List.append_nil]
    rw [List.drop_eq_nil_of_le (by omega)]
    simp

theorem take_ne_nil {b : Bytes} {n : Nat} (hn : 0 < n) : (b.take n).length ≠ 0 ↔ b ≠ [] := by
  cases b <;> simp; omega

/-! ## C25: `TMemoryBuffer` -/

/-- Calls on a `TMemoryBuffer`. -/
inductive MemOp where
  | read (sz : Int)
  | write (b : Bytes)
  deriving DecidableEq, Repr

/-- The bytes returned by the reads of a history, `none` if some call raised, and the object. -/
def memHistory : List MemOp → BytesIO → Option (List Bytes) × BytesIO
  | [], io => (some [], io)
  | .read n :: ops, io =>
    match MemoryBuffer.read n io with
    | (.ok b, io) =>
      let r := memHistory ops io
      (r.1.map (b :: ·), r.2)
    | (.error _, io) => (none, io)
  | .write b :: ops, io =>
    match MemoryBuffer.write (.bytes b) io with
    | (.ok (), io) => memHistory ops io
    | (.error _, io) => (none, io)

/-- The bytes written in a history. -/
def written : List MemOp → Bytes
  | [] => []
  | .read _ :: ops => written ops
  | .write b :: ops => b ++ written ops

/-- The number of reads in a history. -/
def readCount : List MemOp → Nat
  | [] => 0
  | .read _ :: ops => 1 + readCount ops
  | .write _ :: ops => readCount ops

theorem memHistory_end (ops : List MemOp) : ∀ io : BytesIO, io.closed = false → io.pos = io.value.length →
    (memHistory ops io).1 = some (List.replicate (readCount ops) []) ∧
    MemoryBuffer.getvalue (memHistory ops io).2 = .ok (io.value ++ written ops) := by
  induction ops with
  | nil => intro io hc _; simp [memHistory, readCount, written, MemoryBuffer.getvalue, hc]
  | cons op ops ih =>
    intro io hc hp
    cases op with
    | read n =>
      have hr : MemoryBuffer.read n io = (.ok [], io) := by
        unfold MemoryBuffer.read BytesIO.read
        have : io.value.drop io.pos = [] := by rw [hp]; simp
        rw [if_neg (by simp [hc])]
        simp only [this, List.take_nil, ite_self, List.length_nil, Nat.add_zero]
      have := ih io hc hp
      simp only [memHistory, hr, written, this, Option.map_some, readCount, Nat.add_comm 1,
        List.replicate_succ, and_self]
    | write b =>
      have hw : MemoryBuffer.write (.bytes b) io = (.ok (), io.write b) := by
        unfold MemoryBuffer.write
        rw [hc]
        rfl
      obtain ⟨h1, h2, h3⟩ := BytesIO.write_end io b hp
      have := ih (io.write b) (h3.trans hc) h2
      simp only [memHistory, hw, written, readCount, this, h1, List.append_assoc, and_self]

/-- C25: whatever is done with a `TMemoryBuffer` that was created without a value, no call raises,
every read returns `b''`, and `getvalue` returns the concatenation of the writes. -/
theorem memory_writes (ops : List MemOp) :
    ∃ io, MemoryBuffer.init none 0 = .ok io ∧
      (memHistory ops io).1 = some (List.replicate (readCount ops) []) ∧
      MemoryBuffer.getvalue (memHistory ops io).2 = .ok (written ops) := by
  refine ⟨BytesIO.of [], rfl, ?_⟩
  have := memHistory_end ops (BytesIO.of []) rfl rfl
  simpa [BytesIO.of] using this

example : memHistory [.write [1, 2], .read 5, .write [3]] (BytesIO.of []) =
    (some [[]], { value := [1, 2, 3], pos := 3 }) := by rfl

/-- What the reads of sizes `ns` return from `b`: the next bytes, all of them for a negative size. -/
def cuts : List Int → Bytes → List Bytes
  | [], _ => []
  | n :: ns, b =>
    if n < 0 then b :: cuts ns [] else b.take n.toNat :: cuts ns (b.drop n.toNat)

theorem memHistory_reads (ns : List Int) : ∀ io : BytesIO, io.closed = false →
    (memHistory (ns.map .read) io).1 = some (cuts ns io.unread) ∧
    MemoryBuffer.getvalue (memHistory (ns.map .read) io).2 = .ok io.value := by
  induction ns with
  | nil => intro io hc; simp [memHistory, cuts, MemoryBuffer.getvalue, hc]
  | cons n ns ih =>
    intro io hc
    have hr : MemoryBuffer.read n io = (.ok (io.read n).1, (io.read n).2) := by
      unfold MemoryBuffer.read
      rw [hc]
      rfl
    have := ih (io.read n).2 hc
    simp only [List.map_cons, memHistory, hr, this, Option.map_some, cuts]
    refine ⟨?_, rfl⟩
    by_cases hn : n < 0
    · rw [if_pos hn]
      have e : (io.read n).2.unread = [] := by
        unfold BytesIO.read BytesIO.unread
        simp only [if_pos hn]
        rw [← List.drop_drop, List.drop_length]
      rw [e]
      unfold BytesIO.read BytesIO.unread
      simp only [if_pos hn]
    · rw [if_neg hn]
      obtain ⟨m, rfl⟩ : ∃ m : Nat, n = m := ⟨n.toNat, by omega⟩
      rw [BytesIO.read_fst, BytesIO.read_unread, Int.toNat_natCast]

/-- C25: reads on a `TMemoryBuffer` made from a value return the value's bytes in order from the
offset on, each as many as asked for or as there are, and `b''` at the end. The value stays. -/
theorem memory_reads (v : Bytes) (offset : Nat) (ns : List Int) :
    ∃ io, MemoryBuffer.init (some v) offset = .ok io ∧
      (memHistory (ns.map .read) io).1 = some (cuts ns (v.drop offset)) ∧
      MemoryBuffer.getvalue (memHistory (ns.map .read) io).2 = .ok v := by
  have h0 : MemoryBuffer.init (some v) offset = .ok { value := v, pos := offset } := by
    unfold MemoryBuffer.init
    by_cases h : (offset : Int) = 0
    · have : offset = 0 := by omega
      subst this
      rfl
    · rw [if_neg h, if_neg (by omega)]
      rfl
  exact ⟨_, h0, memHistory_reads ns { value := v, pos := offset } rfl⟩

example : cuts [2, 0, -1, 4] [1, 2, 3, 4, 5] = [[1, 2], [], [3, 4, 5], []] := by rfl

/-- The transport under `exec` is a `TMemoryBuffer`: same answers, and the unread part evolves in
the same way. -/
theorem memory_is_memStep (io : BytesIO) (n : Nat) (hc : io.closed = false) :
    ∃ io', MemoryBuffer.read n io = (.ok (io.unread.take n), io') ∧ io'.closed = false ∧
      memStep n io.unread = some (.ok (io.unread.take n), io'.unread) := by
  refine ⟨(io.read n).2, ?_, hc, ?_⟩
  · unfold MemoryBuffer.read
    rw [hc]
    simp only [Bool.false_eq_true, if_false, BytesIO.read_fst]
  · rw [BytesIO.read_unread]
    rfl

/-- C25: a closed buffer raises `ValueError` and is not changed. -/
theorem memory_closed (io : BytesIO) (n : Int) (b : WArg) :
    let c := MemoryBuffer.close io
    MemoryBuffer.isOpen c = false ∧ MemoryBuffer.read n c = (.error .valueError, c) ∧
    MemoryBuffer.write b c = (.error .valueError, c) ∧ MemoryBuffer.getvalue c = .error .valueError := by
  refine ⟨rfl, rfl, ?_, rfl⟩
  cases b <;> rfl

/-! ## C22: `TBufferedTransport.read` -/

namespace Buffered

theorem run_read {τ : Type} (step : Nat → τ → Option (Except Exc Bytes × τ)) (n : Nat) (s : St) (t : τ) :
    P.over read step n (s, t) =
      if (s.rbuf.unread.take n).length ≠ 0 then
        some (.ok (s.rbuf.unread.take n), ({ s with rbuf := (s.rbuf.read n).2 }, t))
      else
        match step (max n s.rbufSize) t with
        | none => none
        | some (.ok d, t') => some (.ok (d.take n), ({ s with rbuf := ((BytesIO.of d).read n).2 }, t'))
        | some (.error e, t') => some (.error e, ({ s with rbuf := (s.rbuf.read n).2 }, t')) := by
  unfold P.over
  have h : read n s = if (s.rbuf.unread.take n).length ≠ 0 then
        Prog.ret (.ok (s.rbuf.unread.take n), { s with rbuf := (s.rbuf.read n).2 })
      else Prog.read (max n s.rbufSize) fun r =>
        match r with
        | .ok d => Prog.ret (.ok (d.take n), { s with rbuf := ((BytesIO.of d).read n).2 })
        | .error e => Prog.ret (.error e, { s with rbuf := (s.rbuf.read n).2 }) := by
    show (if ((s.rbuf.read n).1).length ≠ 0 then _ else _ : P St Bytes) _ = _
    rw [BytesIO.read_fst]
    split
    · rfl
    · show Prog.read _ _ = Prog.read _ _
      congr 1
      funext r
      cases r with
      | error e => rfl
      | ok d =>
        show Prog.ret (Except.ok ((BytesIO.of d).read n).1, _) = _
        rw [BytesIO.read_fst]
        rfl
  simp only [h]
  by_cases hc : (s.rbuf.unread.take n).length ≠ 0
  · rw [if_pos hc, if_pos hc]
    rfl
  · rw [if_neg hc, if_neg hc, Prog.run]
    cases hst : step (max n s.rbufSize) t with
    | none => rfl
    | some x =>
      obtain ⟨r, t'⟩ := x
      cases r <;> simp only [Prog.run]

/-- What is still to come: the unread part of the buffer, then the underlying stream. -/
def pending {τ : Type} (rest : τ → Bytes) (x : St × τ) : Bytes := x.1.rbuf.unread ++ rest x.2

/-- C22: over a transport that delivers a stream, in whatever pieces, and may raise in between,
`TBufferedTransport` again is such a transport, for the same stream. -/
theorem buffered_faithful {τ : Type} {step : Nat → τ → Option (Except Exc Bytes × τ)} {rest : τ → Bytes}
    (h : Faithful step rest) : Faithful (P.over read step) (pending rest) := by
  intro n x
  obtain ⟨s, t⟩ := x
  rw [run_read]
  by_cases hu : s.rbuf.unread = []
  · rw [if_neg (by simp [hu])]
    obtain ⟨m, hm⟩ : ∃ m, max (n + 1) s.rbufSize = m + 1 := ⟨max (n + 1) s.rbufSize - 1, by omega⟩
    rw [hm]
    obtain ⟨r, t', he, hr⟩ := h m t
    rw [he]
    cases r with
    | error e =>
      refine ⟨.error e, _, rfl, ?_⟩
      simp only [pending] at hr ⊢
      rw [BytesIO.read_unread, hu, hr]
      simp
    | ok d =>
      refine ⟨.ok (d.take (n + 1)), _, rfl, ?_⟩
      simp only [pending] at hr ⊢
      rw [BytesIO.read_unread, hu, BytesIO.of_unread, List.nil_append, ← List.append_assoc,
        List.take_append_drop]
      refine ⟨hr.1, by simp; omega, fun h0 => hr.2.2 ?_⟩
      cases d with
      | nil => rfl
      | cons => simp at h0
  · rw [if_pos ((take_ne_nil (by omega)).2 hu)]
    refine ⟨_, _, rfl, ?_⟩
    simp only [pending]
    rw [BytesIO.read_unread, ← List.append_assoc, List.take_append_drop]
    refine ⟨rfl, by simp; omega, fun h0 => ?_⟩
    cases h1 : s.rbuf.unread with
    | nil => exact absurd h1 hu
    | cons => rw [h1] at h0; simp at h0

/-- C22: over a transport that delivers a stream without raising, so does `TBufferedTransport`. -/
theorem buffered_delivers {τ : Type} {step : Nat → τ → Option (Except Exc Bytes × τ)} {rest : τ → Bytes}
    (h : Delivers step rest) : Delivers (P.over read step) (pending rest) := by
  intro n x
  have hf : Faithful step rest := by
    intro n t
    obtain ⟨p, t', h1, h2⟩ := h n t
    exact ⟨.ok p, t', h1, h2⟩
  obtain ⟨r, x', h1, h2⟩ := buffered_faithful hf n x
  cases r with
  | ok p => exact ⟨p, x', h1, h2⟩
  | error e =>
    obtain ⟨s, t⟩ := x
    rw [run_read] at h1
    split at h1
    · simp at h1
    · obtain ⟨m, hm⟩ : ∃ m, max (n + 1) s.rbufSize = m + 1 := ⟨max (n + 1) s.rbufSize - 1, by omega⟩
      rw [hm] at h1
      obtain ⟨p, t', h3, -⟩ := h m t
      rw [h3] at h1
      simp at h1

end Buffered

/-- In any sequence of positive-size reads on a faithful transport: what was delivered, followed by
what is left, is the stream; no answer is longer than asked. -/
theorem faithful_session {τ : Type} {step : Nat → τ → Option (Except Exc Bytes × τ)} {rest : τ → Bytes}
    (h : Faithful step rest) {t t' : τ} {log : List (Nat × Except Exc Bytes)}
    (hs : Session step t log t') (hn : ∀ x ∈ log, 0 < x.1) :
    rest t = delivered log ++ rest t' ∧
    ∀ n b, (n, .ok b) ∈ log → b.length ≤ n := by
  induction hs with
  | done t => simp [delivered]
  | @call n r t t1 t2 log h1 h2 ih =>
    obtain ⟨ih1, ih2⟩ := ih fun x hx => hn x (by simp [hx])
    have hpos := hn (n, r) (by simp)
    obtain ⟨m, rfl⟩ : ∃ m, n = m + 1 := ⟨n - 1, by simp only at hpos; omega⟩
    obtain ⟨r', t1', he, hr⟩ := h m t
    rw [h1] at he
    simp only [Option.some.injEq, Prod.mk.injEq] at he
    obtain ⟨rfl, rfl⟩ := he
    cases r with
    | error e =>
      simp only at hr
      refine ⟨by rw [← hr, ih1]; rfl, fun n b hb => ih2 n b ?_⟩
      simpa using hb
    | ok p =>
      simp only at hr
      refine ⟨by rw [hr.1, ih1]; simp [delivered], fun n b hb => ?_⟩
      simp only [List.mem_cons, Prod.mk.injEq, Except.ok.injEq] at hb
      rcases hb with ⟨rfl, rfl⟩ | hb
      · exact hr.2.1
      · exact ih2 n b hb

/-- C22, for a whole sequence of calls: the bytes delivered by the reads on a `TBufferedTransport`
are a prefix of the underlying stream `stream`; no read returns more than asked; a read that returns
`b''` comes at the end of the stream. The reads are of positive size; the buffer size, the pieces of
the underlying transport and its exceptions are arbitrary. -/
theorem buffered_session {τ : Type} {step : Nat → τ → Option (Except Exc Bytes × τ)} {rest : τ → Bytes}
    (h : Faithful step rest) (size : Nat) (t t' : τ) (s' : Buffered.St) (log : List (Nat × Except Exc Bytes))
    (hs : Session (P.over Buffered.read step) ({ rbufSize := size }, t) log (s', t'))
    (hn : ∀ x ∈ log, 0 < x.1) :
    delivered log <+: rest t ∧ (∀ n b, (n, .ok b) ∈ log → b.length ≤ n) ∧
    ∀ pre n post, log = pre ++ (n, .ok []) :: post → delivered pre = rest t := by
  have hf := Buffered.buffered_faithful h
  have hp0 : Buffered.pending rest (({ rbufSize := size } : Buffered.St), t) = rest t := rfl
  obtain ⟨h1, h2⟩ := faithful_session hf hs hn
  rw [hp0] at h1
  refine ⟨⟨_, h1.symm⟩, h2, ?_⟩
  rintro pre n post rfl
  -- cut the session after `pre`
  have split : ∀ (pre : List (Nat × Except Exc Bytes)) x y post,
      Session (P.over Buffered.read step) x (pre ++ post) y →
      ∃ z, Session (P.over Buffered.read step) x pre z ∧ Session (P.over Buffered.read step) z post y := by
    intro pre
    induction pre with
    | nil => exact fun x y post h => ⟨x, .done x, h⟩
    | cons a pre ih =>
      intro x y post h
      cases h with
      | call h1 h2 =>
        obtain ⟨z, h3, h4⟩ := ih _ _ _ h2
        exact ⟨z, .call h1 h3, h4⟩
  obtain ⟨z, hz1, hz2⟩ := split pre _ _ _ hs
  have := (faithful_session hf hz1 fun x hx => hn x (by simp [hx])).1
  rw [hp0] at this
  cases hz2 with
  | call h3 h4 =>
    have hpos := hn (n, .ok []) (by simp)
    obtain ⟨m, rfl⟩ : ∃ m, n = m + 1 := ⟨n - 1, by simp only at hpos; omega⟩
    obtain ⟨r', t1', he, hr⟩ := hf m z
    rw [h3] at he
    simp only [Option.some.injEq, Prod.mk.injEq] at he
    obtain ⟨rfl, rfl⟩ := he
    rw [hr.2.2 rfl, List.append_nil] at this
    exact this.symm

/-- Over a transport that delivers single bytes, with a buffer of 3: reads of 2, 5 and 1. -/
example : Session (P.over Buffered.read bytewise) ({ rbufSize := 3 }, [7, 8, 9])
    [(2, .ok [7]), (5, .ok [8]), (1, .ok [9]), (4, .ok [])]
    ({ rbufSize := 3, rbuf := BytesIO.of [] }, []) :=
  .call rfl (.call rfl (.call rfl (.call rfl (.done _))))

/-- Over a memory buffer the first read fetches all; the rest is served from the buffer. -/
example : Session (P.over Buffered.read memStep) ({ rbufSize := 3 }, [7, 8, 9, 10])
    [(2, .ok [7, 8]), (2, .ok [9]), (2, .ok [10])]
    ({ rbufSize := 3, rbuf := { value := [10], pos := 1 } }, []) :=
  .call rfl (.call rfl (.call rfl (.done _)))

/-- The restriction to positive sizes matters: `read(0)` throws away what is buffered. -/
theorem buffered_read_zero :
    Session (P.over Buffered.read memStep) ({ rbufSize := 3 }, [7, 8, 9, 10])
    [(1, .ok [7]), (0, .ok []), (1, .ok [10])] ({ rbufSize := 3, rbuf := { value := [10], pos := 1 } }, []) :=
  .call rfl (.call rfl (.call rfl (.done _)))

/-- C22, the interface for the C extension: `cstringio_refill` puts in front what the caller had
taken, adds the next bytes of the stream, at least up to the requested length, and loses nothing; or
it raises `EOFError`, and then the stream was too short and is used up. -/
theorem buffered_refill {τ : Type} {step : Nat → τ → Option (Except Exc Bytes × τ)} {rest : τ → Bytes}
    (h : Delivers step rest) (part : Bytes) (reqlen : Nat) (s : Buffered.St) (t : τ) :
    ∃ r s' t', (Buffered.refill part reqlen s).run step t = some ((r, s'), t') ∧
      match r with
      | .ok b => reqlen ≤ b.length ∧ b ++ rest t' = part ++ rest t ∧ s' = { s with rbuf := BytesIO.of b } ∧
          part <+: b
      | .error e => e = .eof ∧ (part ++ rest t).length < reqlen ∧ s' = s ∧ rest t' = [] := by
  have tail : ∀ (ret : Bytes) (t1 : τ), part <+: ret → ret ++ rest t1 = part ++ rest t →
      ∃ r s' t', (Buffered.refillRest ret reqlen s).run step t1 = some ((r, s'), t') ∧
      match r with
      | .ok b => reqlen ≤ b.length ∧ b ++ rest t' = part ++ rest t ∧ s' = { s with rbuf := BytesIO.of b } ∧
          part <+: b
      | .error e => e = .eof ∧ (part ++ rest t).length < reqlen ∧ s' = s ∧ rest t' = [] := by
    intro ret t1 hp he
    unfold Buffered.refillRest
    by_cases hl : ret.length < reqlen
    · rw [if_pos hl]
      have hst : Steady (do
          let d ← P.readAll (reqlen - ret.length : Nat)
          Buffered.refillDone (ret ++ d)) :=
        Steady.bind (Steady.readAll _) fun _ => Steady.bind (Steady.modify _) fun _ => Steady.pure _
      have h1 := hst.any τ step rest h s t1
      simp only [exec_bind, exec_readAll, Int.toNat_natCast] at h1
      by_cases hlen : reqlen - ret.length ≤ (rest t1).length
      · rw [if_pos hlen] at h1
        simp only [Res.andThen_ok, Buffered.refillDone, exec_pure, exec_modify, exec_bind] at h1
        obtain ⟨t', h2, h3⟩ := h1
        refine ⟨_, _, t', h2, ?_, ?_, rfl, ?_⟩
        · simp; omega
        · rw [h3, List.append_assoc, List.take_append_drop, he]
        · exact hp.trans (List.prefix_append _ _)
      · rw [if_neg hlen] at h1
        simp only [Res.andThen_error] at h1
        obtain ⟨t', h2, h3⟩ := h1
        refine ⟨_, _, t', h2, rfl, ?_, rfl, h3⟩
        have := congrArg List.length he
        simp only [List.length_append] at this ⊢
        omega
    · rw [if_neg hl]
      exact ⟨_, _, t1, rfl, by omega, he, rfl, hp⟩
  by_cases hr : reqlen < s.rbufSize
  · have hun : Buffered.refill part reqlen s = Prog.read s.rbufSize fun r =>
        match r with
        | .ok d => Buffered.refillRest (part ++ d) reqlen s
        | .error e => Prog.ret (.error e, s) := by
      show ((if reqlen < s.rbufSize then _ else _ : P Buffered.St Bytes)) s = _
      rw [if_pos hr]
      show Prog.read _ _ = Prog.read _ _
      congr 1
      funext r
      cases r <;> rfl
    obtain ⟨m, hm⟩ : ∃ m, s.rbufSize = m + 1 := ⟨s.rbufSize - 1, by omega⟩
    obtain ⟨d, t1, h1, h2, -, -⟩ := h m t
    rw [← hm] at h1
    rw [hun, Prog.run, h1]
    exact tail (part ++ d) t1 (List.prefix_append _ _) (by rw [h2, List.append_assoc])
  · have hun : Buffered.refill part reqlen s = Buffered.refillRest part reqlen s := by
      show ((if reqlen < s.rbufSize then _ else _ : P Buffered.St Bytes)) s = _
      rw [if_neg hr]
    rw [hun]
    exact tail part t (List.prefix_refl _) rfl

/-! ## C23: `TBufferedTransport.write` and `flush` -/

/-- Hand a list of batches to an underlying transport, each with one `write` and, if that did not
raise, one `flush`. The results of the calls and the final state. -/
def deliverAll {ω : Type} (k : Sink ω) : List Bytes → ω → List (Except Exc Unit) × ω
  | [], w => ([], w)
  | b :: bs, w =>
    let r1 := match k.write b w with
      | (.ok (), w') => k.flush w'
      | (.error e, w') => (.error e, w')
    let r := deliverAll k bs r1.2
    (r1.1 :: r.1, r.2)

/-- A history of calls on a `TBufferedTransport`: the results of the `flush` calls, the object, the
underlying transport. -/
def bufferedHistory {ω : Type} (k : Sink ω) : List WriteOp → Buffered.St → ω →
    List (Except Exc Unit) × Buffered.St × ω
  | [], s, w => ([], s, w)
  | .write b :: ops, s, w => bufferedHistory k ops (Buffered.write (.bytes b) s).2 w
  | .bad :: ops, s, w => bufferedHistory k ops (Buffered.write .other s).2 w
  | .flush :: ops, s, w =>
    match Buffered.flush k s w with
    | (r, s', w') =>
      let x := bufferedHistory k ops s' w'
      (r :: x.1, x.2)

theorem bufferedHistory_eq {ω : Type} (k : Sink ω) (ops : List WriteOp) :
    ∀ (s : Buffered.St) (w : ω), s.wbuf.pos = s.wbuf.value.length →
    let x := bufferedHistory k ops s w
    (x.1, x.2.2) = deliverAll k (batches true s.wbuf.value ops).1 w ∧
    x.2.1.wbuf.value = (batches true s.wbuf.value ops).2 ∧ x.2.1.rbuf = s.rbuf := by
  induction ops with
  | nil => intro s w _; exact ⟨rfl, rfl, rfl⟩
  | cons op ops ih =>
    intro s w hp
    cases op with
    | write b =>
      obtain ⟨h1, h2, -⟩ := BytesIO.write_end s.wbuf b hp
      have := ih (Buffered.write (.bytes b) s).2 w h2
      simp only [Buffered.write] at this
      rw [h1] at this
      exact this
    | bad => exact ih (Buffered.write .other s).2 w rfl
    | flush =>
      simp only [bufferedHistory, Buffered.flush, Sink.writeFlush, batches, deliverAll]
      cases hw : k.write s.wbuf.value w with
      | mk r w1 =>
        cases r with
        | error e =>
          have := ih { s with wbuf := BytesIO.of [] } w1 rfl
          simp only at this ⊢
          obtain ⟨g1, g2, g3⟩ := this
          refine ⟨?_, g2, g3⟩
          have e : (BytesIO.of []).value = [] := rfl
          rw [e] at g1
          rw [← g1]
        | ok u =>
          have := ih { s with wbuf := BytesIO.of [] } (k.flush w1).2 rfl
          simp only at this ⊢
          obtain ⟨g1, g2, g3⟩ := this
          refine ⟨?_, g2, g3⟩
          have e : (BytesIO.of []).value = [] := rfl
          rw [e] at g1
          rw [← g1]

/-- C23: for any history of writes and flushes, and an underlying transport that may fail at any
point in any way, each flush hands over exactly what was written since the previous flush attempt,
once, in one `write`, in order; its result is that of the underlying transport; nothing is handed
over otherwise. A batch whose delivery failed is not handed over again. -/
theorem buffered_writes {ω : Type} (k : Sink ω) (ops : List WriteOp) (size : Nat) (w : ω) :
    let x := bufferedHistory k ops { rbufSize := size } w
    (x.1, x.2.2) = deliverAll k (batches true [] ops).1 w ∧ x.2.1.wbuf.value = (batches true [] ops).2 :=
  let h := bufferedHistory_eq k ops { rbufSize := size } w rfl
  ⟨h.1, h.2.1⟩

/-- A `write` on a `TBufferedTransport` succeeds for bytes and raises `TypeError` otherwise. -/
theorem buffered_write_result (s : Buffered.St) (b : Bytes) :
    (Buffered.write (.bytes b) s).1 = .ok () ∧ (Buffered.write .other s).1 = .error .typeError := ⟨rfl, rfl⟩

/-- A transport that records what it is given and fails on the second write. -/
example : bufferedHistory
    (ω := List Bytes) { write := fun b w => if w.length = 1 then (.error .osError, w ++ [[]]) else (.ok (), w ++ [b]),
                        flush := fun w => (.ok (), w) }
    [.write [1], .write [2], .flush, .write [3], .flush, .write [4], .bad, .write [5], .flush, .write [6]] {} [] =
    ([.ok (), .error .osError, .ok ()], { wbuf := { value := [6], pos := 1 } }, [[1, 2], [], [5]]) := by rfl

/-! ## C24: `TFramedTransport` -/

theorem packS_len {n : Nat} (h : n < 2 ^ 31) : packS 4 (n : Int) = .ok (beInt 4 n) :=
  packS_eq (n := 4) (inRange32_of_lt h)

/-- A history of calls on a `TFramedTransport`. -/
def framedHistory {ω : Type} (k : Sink ω) : List WriteOp → Framed.St → ω →
    List (Except Exc Unit) × Framed.St × ω
  | [], s, w => ([], s, w)
  | .write b :: ops, s, w => framedHistory k ops (Framed.write (.bytes b) s).2 w
  | .bad :: ops, s, w => framedHistory k ops (Framed.write .other s).2 w
  | .flush :: ops, s, w =>
    let r := Framed.flush k s w
    let x := framedHistory k ops r.2.1 r.2.2
    (r.1 :: x.1, x.2)

theorem framed_flush_eq {ω : Type} (k : Sink ω) (s : Framed.St) (w : ω) (h : s.wbuf.value.length < 2 ^ 31) :
    Framed.flush k s w = ((k.writeFlush (frame s.wbuf.value) w).1, { s with wbuf := BytesIO.of [] },
      (k.writeFlush (frame s.wbuf.value) w).2) := by
  have : Framed.sendFrame k (packS 4 s.wbuf.value.length) s.wbuf.value w = k.writeFlush (frame s.wbuf.value) w := by
    rw [packS_len h]
    rfl
  unfold Framed.flush
  rw [this]

theorem framedHistory_eq {ω : Type} (k : Sink ω) (p : Bytes → Prop)
    (hflush : ∀ (s : Framed.St) (w : ω), p s.wbuf.value → Framed.flush k s w =
      ((k.writeFlush (frame s.wbuf.value) w).1, { s with wbuf := BytesIO.of [] },
        (k.writeFlush (frame s.wbuf.value) w).2)) (ops : List WriteOp) :
    ∀ (s : Framed.St) (w : ω), s.wbuf.pos = s.wbuf.value.length →
    (∀ b ∈ (batches false s.wbuf.value ops).1, p b) →
    let x := framedHistory k ops s w
    (x.1, x.2.2) = deliverAll k ((batches false s.wbuf.value ops).1.map frame) w ∧
    x.2.1.wbuf.value = (batches false s.wbuf.value ops).2 := by
  induction ops with
  | nil => intro s w _ _; exact ⟨rfl, rfl⟩
  | cons op ops ih =>
    intro s w hp hl
    cases op with
    | write b =>
      obtain ⟨h1, h2, -⟩ := BytesIO.write_end s.wbuf b hp
      have := ih (Framed.write (.bytes b) s).2 w h2
      simp only [Framed.write] at this
      rw [h1] at this
      exact this hl
    | bad => exact ih (Framed.write .other s).2 w hp hl
    | flush =>
      simp only [batches, List.mem_cons] at hl
      have := ih { s with wbuf := BytesIO.of [] } (k.writeFlush (frame s.wbuf.value) w).2 rfl fun b hb => hl b (.inr hb)
      have hx : framedHistory k (.flush :: ops) s w =
          ((Framed.flush k s w).1 :: (framedHistory k ops (Framed.flush k s w).2.1 (Framed.flush k s w).2.2).1,
            (framedHistory k ops (Framed.flush k s w).2.1 (Framed.flush k s w).2.2).2) := by rw [framedHistory]
      rw [hflush s w (hl _ (.inl rfl))] at hx
      rw [hx]
      obtain ⟨g1, g2⟩ := this
      refine ⟨?_, g2⟩
      have e : (BytesIO.of []).value = [] := rfl
      simp only [e] at g1
      simp only [batches, List.map_cons, deliverAll]
      show _ = (_ :: (deliverAll k _ (k.writeFlush _ _).2).1, (deliverAll k _ (k.writeFlush _ _).2).2)
      rw [← g1]
      rfl

/-- C24, sending: each flush hands over one frame with what was written since the previous flush
attempt. -/
theorem framed_writes {ω : Type} (k : Sink ω) (ops : List WriteOp) (w : ω)
    (hl : ∀ b ∈ (batches false [] ops).1, b.length < 2 ^ 31) :
    let x := framedHistory k ops {} w
    (x.1, x.2.2) = deliverAll k ((batches false [] ops).1.map frame) w ∧
    x.2.1.wbuf.value = (batches false [] ops).2 :=
  framedHistory_eq k (fun b => b.length < 2 ^ 31) (framed_flush_eq k) ops {} w rfl hl

/-- A batch of 2^31 bytes or more is refused and dropped, nothing is sent. -/
theorem framed_too_large {ω : Type} (k : Sink ω) (s : Framed.St) (w : ω) (h : 2 ^ 31 ≤ s.wbuf.value.length) :
    Framed.flush k s w = (.error .structError, { s with wbuf := BytesIO.of [] }, w) := by
  have h0 : ¬ InRange 32 s.wbuf.value.length := by unfold InRange; omega
  have : Framed.sendFrame k (packS 4 s.wbuf.value.length) s.wbuf.value w = (.error .structError, w) := by
    rw [packS_out (n := 4) h0]
    rfl
  unfold Framed.flush
  rw [this]

namespace Framed

theorem readFrame_steady : Steady readFrame :=
  Steady.bind (Steady.readAll _) fun _ => Steady.bind (Steady.readAll _) fun _ => Steady.modify _

theorem read_steady (n : Nat) : Steady (read n) :=
  Steady.bind Steady.get fun _ => Steady.bind (Steady.set _) fun _ =>
    Steady.ite (Steady.pure _) (Steady.bind readFrame_steady fun _ => Steady.bind Steady.get fun _ =>
      Steady.bind (Steady.set _) fun _ => Steady.pure _)

theorem exec_readFrame (s : St) (b rest : Bytes) (h : b.length < 2 ^ 31) :
    exec readFrame s (frame b ++ rest) = some ((.ok (), { s with rbuf := BytesIO.of b }), rest) := by
  unfold readFrame frame
  have h4 : ((4 : Int)).toNat = 4 := rfl
  rw [exec_bind, List.append_assoc]
  show (Res.andThen (exec (P.readAll ((4 : Nat) : Int)) s _) _) = _
  rw [exec_readAll_append 4 s _ _ (beInt_length _ _), Res.andThen_ok, exec_bind,
    unpackS_beInt (by omega) (inRange32_of_lt h), exec_readAll_append _ s _ _ rfl, Res.andThen_ok]
  rfl

theorem exec_read (n : Nat) (s : St) (b : Bytes) :
    exec (read n) s b =
      if (s.rbuf.unread.take n).length ≠ 0 then
        some ((.ok (s.rbuf.unread.take n), { s with rbuf := (s.rbuf.read n).2 }), b)
      else Res.andThen (exec readFrame { s with rbuf := (s.rbuf.read n).2 } b) fun _ s b =>
        some ((.ok (s.rbuf.unread.take n), { s with rbuf := (s.rbuf.read n).2 }), b) := by
  unfold read
  simp only [exec_bind, exec_get, Res.andThen_ok, exec_set]
  rw [BytesIO.read_fst]
  split
  · rfl
  · simp only [exec_bind, exec_get, Res.andThen_ok, exec_set, exec_pure, BytesIO.read_fst]

end Framed

/-- C24, receiving, one call: over a transport that delivers the frames `bs` in whatever pieces, a
read of positive size returns what `batchRead` says and moves on accordingly. -/
theorem framed_read {τ : Type} {step : Nat → τ → Option (Except Exc Bytes × τ)} {rest : τ → Bytes}
    (h : Delivers step rest) (bs : List Bytes) (hl : ∀ b ∈ bs, b.length < 2 ^ 31) (s : Framed.St) (t : τ)
    (hr : rest t = frames bs) (n : Nat) (hn : 0 < n) :
    ∃ s' t', P.over Framed.read step n (s, t) = some ((batchRead n (s.rbuf.unread, bs)).1, (s', t')) ∧
      s'.rbuf.unread = (batchRead n (s.rbuf.unread, bs)).2.1 ∧
      rest t' = frames (batchRead n (s.rbuf.unread, bs)).2.2 := by
  have hs := (Framed.read_steady n).any τ step rest h s t
  rw [hr, Framed.exec_read] at hs
  unfold P.over
  cases hu : s.rbuf.unread with
  | cons c cur =>
    rw [if_pos ((take_ne_nil hn).2 (by rw [hu]; simp))] at hs
    obtain ⟨t', h1, h2⟩ := hs
    simp only
    rw [h1]
    refine ⟨{ s with rbuf := (s.rbuf.read n).2 }, t', by rw [hu]; rfl, ?_, h2⟩
    rw [BytesIO.read_unread, hu]
    rfl
  | nil =>
    rw [if_neg (by simp [hu])] at hs
    cases bs with
    | nil =>
      have : exec Framed.readFrame { s with rbuf := (s.rbuf.read n).2 } (frames []) =
          some ((.error .eof, { s with rbuf := (s.rbuf.read n).2 }), []) := rfl
      rw [this, Res.andThen_error] at hs
      obtain ⟨t', h1, h2⟩ := hs
      simp only
      rw [h1]
      refine ⟨_, t', rfl, ?_, h2⟩
      rw [BytesIO.read_unread, hu]
      simp [batchRead]
    | cons b bs =>
      have hf : frames (b :: bs) = frame b ++ frames bs := rfl
      rw [hf, Framed.exec_readFrame _ _ _ (hl b (by simp)), Res.andThen_ok] at hs
      obtain ⟨t', h1, h2⟩ := hs
      simp only
      rw [h1]
      refine ⟨_, t', rfl, ?_, h2⟩
      rw [BytesIO.read_unread]
      rfl

theorem framed_session {τ : Type} {step : Nat → τ → Option (Except Exc Bytes × τ)} {rest : τ → Bytes}
    (h : Delivers step rest) (ns : List Nat) : ∀ (bs : List Bytes), (∀ b ∈ bs, b.length < 2 ^ 31) →
    (∀ n ∈ ns, 0 < n) → ∀ (s : Framed.St) (t : τ), rest t = frames bs →
    ∃ s' t', Session (P.over Framed.read step) (s, t) (batchLog ns (s.rbuf.unread, bs)) (s', t') := by
  induction ns with
  | nil => exact fun bs _ _ s t _ => ⟨s, t, .done _⟩
  | cons n ns ih =>
    intro bs hl hn s t hr
    obtain ⟨s1, t1, h1, h2, h3⟩ := framed_read h bs hl s t hr n (hn n (by simp))
    have hl' : ∀ b ∈ (batchRead n (s.rbuf.unread, bs)).2.2, b.length < 2 ^ 31 := by
      intro b hb
      apply hl
      revert hb
      cases s.rbuf.unread <;> cases bs <;> simp only [batchRead, List.mem_cons] <;> intro hb
      · exact hb
      · exact .inr hb
      · exact hb
      · exact hb
    obtain ⟨s2, t2, h4⟩ := ih _ hl' (fun m hm => hn m (by simp [hm])) s1 t1 h3
    refine ⟨s2, t2, .call h1 ?_⟩
    rw [h2] at h4
    exact h4

/-- C24: one side performs any history of writes and flushes. The other side, over any transport that
delivers what was sent in whatever pieces, makes reads of any positive sizes. The wire carries one
frame per flush; the reads return the batches one after the other, no read crosses the end of a batch
(`batchLog`), at the end they raise `EOFError`. -/
theorem framed_transfer (ops : List WriteOp) (hl : ∀ b ∈ (batches false [] ops).1, b.length < 2 ^ 31)
    (ns : List Nat) (hn : ∀ n ∈ ns, 0 < n)
    {τ : Type} {step : Nat → τ → Option (Except Exc Bytes × τ)} {rest : τ → Bytes} (h : Delivers step rest) (t : τ)
    (ht : rest t = (framedHistory { write := fun b w => (.ok (), w ++ b), flush := fun w => (.ok (), w) }
      ops {} []).2.2) :
    rest t = frames (batches false [] ops).1 ∧
    ∃ s' t', Session (P.over Framed.read step) ({}, t) (batchLog ns ([], (batches false [] ops).1)) (s', t') := by
  have hw : ∀ (bs : List Bytes) (w : Bytes), (deliverAll (ω := Bytes)
      { write := fun b w => (.ok (), w ++ b), flush := fun w => (.ok (), w) } bs w).2 = w ++ bs.flatten := by
    intro bs
    induction bs with
    | nil => simp [deliverAll]
    | cons b bs ih => intro w; simp only [deliverAll, ih, List.flatten_cons, List.append_assoc]
  have h1 := (framed_writes (ω := Bytes) { write := fun b w => (.ok (), w ++ b), flush := fun w => (.ok (), w) }
    ops [] hl).1
  have h2 := congrArg Prod.snd h1
  simp only [hw, List.nil_append] at h2
  rw [h2] at ht
  exact ⟨ht, framed_session h ns _ hl hn {} t ht⟩

/-- The bytes delivered by such reads, in order, are a prefix of the concatenation of the batches. -/
theorem batchLog_delivered (ns : List Nat) : ∀ x : Bytes × List Bytes,
    delivered (batchLog ns x) <+: x.1 ++ x.2.flatten := by
  induction ns with
  | nil => intro x; simp [batchLog, delivered]
  | cons n ns ih =>
    intro x
    have key : ∀ (p : Bytes) (y : Bytes × List Bytes), p ++ (y.1 ++ y.2.flatten) = x.1 ++ x.2.flatten →
        p ++ delivered (batchLog ns y) <+: x.1 ++ x.2.flatten := by
      intro p y hy
      rw [← hy]
      exact (List.prefix_append_right_inj p).2 (ih y)
    simp only [batchLog]
    match x with
    | (c :: cur, bs) =>
      exact key _ (List.drop n (c :: cur), bs) (by rw [← List.append_assoc, List.take_append_drop])
    | ([], b :: bs) =>
      exact key _ (List.drop n b, bs) (by rw [← List.append_assoc, List.take_append_drop]; rfl)
    | ([], []) => exact key [] ([], []) rfl

/-- Two batches and an empty one, read with sizes 1, 5, 5, 1, 3. -/
example : batchLog [1, 5, 5, 1, 3] ([], (batches false [] [.write [1, 2], .flush, .flush, .write [3], .flush]).1) =
    [(1, .ok [1]), (5, .ok [2]), (5, .ok []), (1, .ok [3]), (3, .error .eof)] := by rfl

/-- As for `TBufferedTransport`, `read(0)` throws away what is buffered. -/
theorem framed_read_zero :
    Session (P.over Framed.read memStep) ({}, frames [[1, 2], [3]]) [(1, .ok [1]), (0, .ok []), (1, .ok [3])]
      ({ rbuf := { value := [3], pos := 1 } }, []) :=
  .call (t1 := ({ rbuf := { value := [1, 2], pos := 1 } }, frames [[3]])) (by decide +kernel)
    (.call (t1 := ({ rbuf := { value := [3], pos := 0 } }, [])) (by decide +kernel)
      (.call (by decide +kernel) (.done _)))

end Thrift
