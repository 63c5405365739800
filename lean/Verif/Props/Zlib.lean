import Verif.Spec.Zlib
import Verif.Props.Transport
/-
C30: `TZlibTransport`. C55: its statistics.
-/

namespace Thrift
open Spec ZlibT

namespace ZlibT
variable {ζ δ τ : Type}

theorem run_readComp (z : Codec ζ δ) (step : Nat → τ → Option (Except Exc Bytes × τ)) (n : Nat) (s : St ζ δ)
    (t : τ) : (readComp z n s).run step t =
      match step n t with
      | none => none
      | some (.ok x, t') => some (inflateInto z x s, t')
      | some (.error e, t') => some ((.error e, s), t') := by
  simp only [readComp, P.bind, P.transRead, Prog.bind, Prog.run]
  cases step n t with
  | none => rfl
  | some x => obtain ⟨r, t'⟩ := x; cases r <;> rfl

theorem run_fill_succ (z : Codec ζ δ) (step : Nat → τ → Option (Except Exc Bytes × τ)) (f n : Nat) (s : St ζ δ)
    (t : τ) : (fill z (f + 1) n s).run step t =
      match (readComp z n s).run step t with
      | none => none
      | some ((.error e, s'), t') => some ((.error e, s'), t')
      | some ((.ok true, s'), t') => some ((.ok (), s'), t')
      | some ((.ok false, s'), t') => (fill z f n s').run step t' := by
  simp only [fill, P.bind]
  rw [Prog.run_bind]
  cases (readComp z n s).run step t with
  | none => rfl
  | some x =>
    obtain ⟨⟨r, s'⟩, t'⟩ := x
    cases r with
    | error e => rfl
    | ok b => cases b <;> rfl

theorem over_read (z : Codec ζ δ) (step : Nat → τ → Option (Except Exc Bytes × τ)) (f n : Nat) (s : St ζ δ)
    (t : τ) : P.over (read z f) step n (s, t) =
      if (s.rbuf.unread.take n).length > 0 then
        some (.ok (s.rbuf.unread.take n), ({ s with rbuf := (s.rbuf.read n).2 }, t))
      else
        match (fill z f n { s with rbuf := (s.rbuf.read n).2 }).run step t with
        | none => none
        | some ((.error e, s'), t') => some (.error e, (s', t'))
        | some ((.ok (), s'), t') =>
          some (.ok (s'.rbuf.unread.take n), ({ s' with rbuf := (s'.rbuf.read n).2 }, t')) := by
  have h : read z f n s = if (s.rbuf.unread.take n).length > 0 then
        Prog.ret (.ok (s.rbuf.unread.take n), { s with rbuf := (s.rbuf.read n).2 })
      else P.bind (fill z f n) (fun _ => take n) { s with rbuf := (s.rbuf.read n).2 } := by
    show (if ((s.rbuf.read n).1).length > 0 then _ else _ : P (St ζ δ) Bytes) _ = _
    rw [BytesIO.read_fst]
    split <;> rfl
  unfold P.over
  simp only [h]
  by_cases hc : (s.rbuf.unread.take n).length > 0
  · rw [if_pos hc, if_pos hc]; rfl
  · rw [if_neg hc, if_neg hc, P.bind, Prog.run_bind]
    cases (fill z f n { s with rbuf := (s.rbuf.read n).2 }).run step t with
    | none => rfl
    | some x =>
      obtain ⟨⟨r, s'⟩, t'⟩ := x
      cases r with
      | error e => rfl
      | ok u => simp only [take, Prog.run, BytesIO.read_fst]

theorem read_all (io : BytesIO) : (io.read (-1)).1 = io.unread := by
  simp [BytesIO.read, BytesIO.unread]

theorem inflateInto_ok (z : Codec ζ δ) {x buf : Bytes} {s : St ζ δ} {zr : δ}
    (h : z.decompress (z.tail s.zr ++ x) (s.max - s.decompressed) s.zr = (.ok buf, zr)) (ht : z.tail zr = []) :
    inflateInto z x s = (.ok (decide (s.rbuf.unread ++ buf ≠ [])),
      { s with
        zr := zr
        decompressed := s.decompressed + buf.length
        bytesIn := s.bytesIn + (z.tail s.zr ++ x).length
        bytesInComp := s.bytesInComp + buf.length
        rbuf := BytesIO.of (s.rbuf.unread ++ buf) }) := by
  unfold inflateInto
  simp only [h, ht, ne_eq, not_true_eq_false, if_false, read_all]
  have he : (s.rbuf.unread.length + buf.length = 0) ↔ s.rbuf.unread ++ buf = [] := by
    rw [← List.length_append, List.length_eq_zero_iff]
  by_cases hc : s.rbuf.unread ++ buf = []
  · rw [if_pos (he.2 hc)]; simp [hc]
  · rw [if_neg (fun h => hc (he.1 h))]; simp [hc]

/-- What holds of a reader between calls: it was given `w`, what it was given and what is to come is
the stream `wire`; it handed out `handed` and keeps the rest of what `w` decompresses to. -/
structure Reading (z : Codec ζ δ) (k : ZlibContract z) (rest : τ → Bytes) (wire : Bytes) (N : Int)
    (handed : Bytes) (x : St ζ δ × τ) : Prop where
  ex : ∃ w, k.RepD x.1.zr w ∧ w ++ rest x.2 = wire ∧ handed ++ x.1.rbuf.unread = k.inflate w
  tail : z.tail x.1.zr = []
  max : x.1.max = N
  count : x.1.decompressed = (handed ++ x.1.rbuf.unread).length

/-- One `readComp`. -/
theorem readComp_reading {z : Codec ζ δ} {k : ZlibContract z} {step : Nat → τ → Option (Except Exc Bytes × τ)}
    {rest : τ → Bytes} (hf : Faithful step rest) {wire : Bytes} {N : Int} (hv : k.valid wire)
    (hN : ((k.inflate wire).length : Int) < N) {handed : Bytes} {s : St ζ δ} {t : τ}
    (h : Reading z k rest wire N handed (s, t)) (n : Nat) :
    ∃ r s' t', (readComp z (n + 1) s).run step t = some ((r, s'), t') ∧
      Reading z k rest wire N handed (s', t') ∧
      match r with
      | .error _ => ∃ e, step (n + 1) t = some (.error e, t')
      | .ok b => (b = true ↔ s'.rbuf.unread ≠ []) ∧ (rest t ≠ [] → (rest t').length < (rest t).length) := by
  obtain ⟨r, t', hst, hr⟩ := hf n t
  rw [run_readComp]
  obtain ⟨⟨w, hd, hw, hi⟩, ht, hm, hc⟩ := h
  simp only at hd hw hi ht hm hc
  cases r with
  | error e =>
    simp only at hr
    exact ⟨.error e, s, t', by rw [hst], ⟨⟨w, hd, by simpa [hr] using hw, hi⟩, ht, hm, hc⟩, e, hst⟩
  | ok p =>
    simp only at hr
    obtain ⟨h1, h2, h3⟩ := hr
    have hwp : (w ++ p) ++ rest t' = wire := by rw [List.append_assoc, ← h1, hw]
    have hvp : k.valid (w ++ p) := k.valid_prefix (w' := rest t') (by rw [hwp]; exact hv)
    have hle : (k.inflate (w ++ p)).length ≤ (k.inflate wire).length := by
      have := k.inflate_prefix (w := w ++ p) (w' := rest t') (by rw [hwp]; exact hv)
      rw [hwp] at this
      exact this.length_le
    have hlen : s.decompressed = (k.inflate w).length := by rw [hc, hi]
    obtain ⟨out, d', hdec, hinf, hrd, htl⟩ := k.decompress p (s.max - s.decompressed) hd hvp (by omega)
    have hin := inflateInto_ok z (x := p) (s := s) (buf := out) (zr := d') (by rw [ht]; exact hdec) htl
    rw [hst]
    simp only [hin]
    refine ⟨_, _, t', rfl, ⟨⟨w ++ p, hrd, hwp, ?_⟩, htl, hm, ?_⟩, ?_, ?_⟩
    · simp only [BytesIO.of_unread]
      rw [← List.append_assoc, hi, hinf]
    · simp only [BytesIO.of_unread]
      rw [hc]
      simp only [List.length_append]
      omega
    · simp only [BytesIO.of_unread, decide_eq_true_eq]
    · intro hne
      have : p ≠ [] := fun h => hne (h3 h)
      rw [h1, List.length_append]
      have := List.length_pos_iff.2 this
      omega

/-- The loop. -/
theorem fill_reading {z : Codec ζ δ} {k : ZlibContract z} {step : Nat → τ → Option (Except Exc Bytes × τ)}
    {rest : τ → Bytes} (hf : Faithful step rest) {wire : Bytes} {N : Int} (hv : k.valid wire)
    (hN : ((k.inflate wire).length : Int) < N) {handed : Bytes} (n : Nat) :
    ∀ (f : Nat) (s : St ζ δ) (t : τ), Reading z k rest wire N handed (s, t) → ∀ r s' t',
      (fill z f (n + 1) s).run step t = some ((r, s'), t') →
      Reading z k rest wire N handed (s', t') ∧ (r = .ok () → s'.rbuf.unread ≠ []) := by
  intro f
  induction f with
  | zero => intro s t _ r s' t' h; simp [fill, P.diverge, Prog.run] at h
  | succ f ih =>
    intro s t h r s' t' he
    obtain ⟨r1, s1, t1, h1, h2, h3⟩ := readComp_reading hf hv hN h n
    rw [run_fill_succ, h1] at he
    cases r1 with
    | error e =>
      simp only [Option.some.injEq, Prod.mk.injEq] at he
      obtain ⟨⟨rfl, rfl⟩, rfl⟩ := he
      exact ⟨h2, fun h => by simp at h⟩
    | ok b =>
      cases b with
      | true =>
        simp only [Option.some.injEq, Prod.mk.injEq] at he
        obtain ⟨⟨rfl, rfl⟩, rfl⟩ := he
        exact ⟨h2, fun _ => h3.1.1 rfl⟩
      | false => exact ih s1 t1 h2 r s' t' he

theorem reading_take {z : Codec ζ δ} {k : ZlibContract z} {rest : τ → Bytes} {wire : Bytes} {N : Int}
    {handed : Bytes} {s : St ζ δ} {t : τ} (h : Reading z k rest wire N handed (s, t)) (n : Nat) :
    Reading z k rest wire N (handed ++ s.rbuf.unread.take n) ({ s with rbuf := (s.rbuf.read n).2 }, t) := by
  obtain ⟨⟨w, hd, hw, hi⟩, ht, hm, hc⟩ := h
  have e : (handed ++ List.take n s.rbuf.unread) ++ (s.rbuf.read n).2.unread = handed ++ s.rbuf.unread := by
    rw [BytesIO.read_unread, List.append_assoc, List.take_append_drop]
  exact ⟨⟨w, hd, hw, by simp only [e]; exact hi⟩, ht, hm, by simp only [e]; exact hc⟩

/-- One `read`. -/
theorem read_reading {z : Codec ζ δ} {k : ZlibContract z} {step : Nat → τ → Option (Except Exc Bytes × τ)}
    {rest : τ → Bytes} (hf : Faithful step rest) {wire : Bytes} {N : Int} (hv : k.valid wire)
    (hN : ((k.inflate wire).length : Int) < N) {handed : Bytes} {f n : Nat} {x y : St ζ δ × τ}
    (h : Reading z k rest wire N handed x) {r : Except Exc Bytes}
    (he : P.over (read z f) step (n + 1) x = some (r, y)) :
    match r with
    | .ok b => b ≠ [] ∧ b.length ≤ n + 1 ∧ Reading z k rest wire N (handed ++ b) y
    | .error _ => Reading z k rest wire N handed y := by
  obtain ⟨s, t⟩ := x
  rw [over_read] at he
  split at he
  · rename_i hc
    simp only [Option.some.injEq, Prod.mk.injEq] at he
    obtain ⟨rfl, rfl⟩ := he
    exact ⟨List.length_pos_iff.1 hc, by simp; omega, reading_take h (n + 1)⟩
  · rename_i hc
    have hu : s.rbuf.unread = [] := by
      cases hs : s.rbuf.unread with
      | nil => rfl
      | cons a l => rw [hs] at hc; simp at hc
    have h0 := reading_take h (n + 1)
    rw [hu] at h0
    simp only [List.take_nil, List.append_nil] at h0
    cases hr : (fill z f (n + 1) { s with rbuf := (s.rbuf.read (n + 1 : Nat)).2 }).run step t with
    | none => rw [hr] at he; simp at he
    | some q =>
      obtain ⟨⟨r1, s1⟩, t1⟩ := q
      obtain ⟨h1, h2⟩ := fill_reading hf hv hN n f _ t h0 r1 s1 t1 hr
      rw [hr] at he
      cases r1 with
      | error e =>
        simp only [Option.some.injEq, Prod.mk.injEq] at he
        obtain ⟨rfl, rfl⟩ := he
        exact h1
      | ok u =>
        simp only [Option.some.injEq, Prod.mk.injEq] at he
        obtain ⟨rfl, rfl⟩ := he
        refine ⟨?_, by simp; omega, reading_take h1 (n + 1)⟩
        have := h2 rfl
        intro h3
        rw [List.take_eq_nil_iff] at h3
        simp_all

theorem reading_init {z : Codec ζ δ} (k : ZlibContract z) {rest : τ → Bytes} (t : τ) (N : Int) :
    Reading z k rest (rest t) N [] (init z N, t) :=
  ⟨⟨[], k.newD, rfl, by simp [init, BytesIO.of, BytesIO.unread, k.inflate_nil]⟩, k.new_tail, rfl, rfl⟩

theorem session_reading {z : Codec ζ δ} {k : ZlibContract z} {step : Nat → τ → Option (Except Exc Bytes × τ)}
    {rest : τ → Bytes} (hf : Faithful step rest) {wire : Bytes} {N : Int} (hv : k.valid wire)
    (hN : ((k.inflate wire).length : Int) < N) {f : Nat} {x y : St ζ δ × τ}
    {log : List (Nat × Except Exc Bytes)} (hs : Session (P.over (read z f) step) x log y)
    (hn : ∀ q ∈ log, 0 < q.1) {handed : Bytes} (h : Reading z k rest wire N handed x) :
    Reading z k rest wire N (handed ++ delivered log) y ∧
    ∀ n b, (n, .ok b) ∈ log → b ≠ [] ∧ b.length ≤ n := by
  induction hs generalizing handed with
  | done x => exact ⟨by simpa [delivered] using h, by simp⟩
  | @call n r x x1 y log h1 h2 ih =>
    have hpos := hn (n, r) (by simp)
    obtain ⟨m, rfl⟩ : ∃ m, n = m + 1 := ⟨n - 1, by simp only at hpos; omega⟩
    have h3 := read_reading hf hv hN h h1
    cases r with
    | error e =>
      obtain ⟨h4, h5⟩ := ih (fun q hq => hn q (by simp [hq])) h3
      exact ⟨h4, fun n b hb => h5 n b (by simpa using hb)⟩
    | ok p =>
      obtain ⟨h4, h5⟩ := ih (fun q hq => hn q (by simp [hq])) h3.2.2
      refine ⟨by simpa [delivered] using h4, fun n b hb => ?_⟩
      simp only [List.mem_cons, Prod.mk.injEq, Except.ok.injEq] at hb
      rcases hb with ⟨rfl, rfl⟩ | hb
      · exact ⟨h3.1, h3.2.1⟩
      · exact h5 n b hb

theorem reading_prefix {z : Codec ζ δ} {k : ZlibContract z} {rest : τ → Bytes} {wire : Bytes} {N : Int}
    {handed : Bytes} {x : St ζ δ × τ} (hv : k.valid wire) (h : Reading z k rest wire N handed x) :
    handed <+: k.inflate wire := by
  obtain ⟨⟨w, -, hw, hi⟩, -⟩ := h
  refine List.IsPrefix.trans ⟨_, hi⟩ ?_
  have := k.inflate_prefix (w := w) (w' := rest x.2) (by rw [hw]; exact hv)
  rwa [hw] at this

/-- As long as not everything was handed out, the loop ends. -/
theorem fill_progress {z : Codec ζ δ} {k : ZlibContract z} {step : Nat → τ → Option (Except Exc Bytes × τ)}
    {rest : τ → Bytes} (hf : Faithful step rest) {wire : Bytes} {N : Int} (hv : k.valid wire)
    (hN : ((k.inflate wire).length : Int) < N) {handed : Bytes} (hleft : handed ≠ k.inflate wire) (n : Nat) :
    ∀ (f : Nat) (s : St ζ δ) (t : τ), Reading z k rest wire N handed (s, t) → (rest t).length < f →
      ∃ r s' t', (fill z f (n + 1) s).run step t = some ((r, s'), t') ∧
        (r = .ok () ∨ ∃ e t1, step (n + 1) t1 = some (.error e, t')) := by
  intro f
  induction f with
  | zero => intro s t _ h; omega
  | succ f ih =>
    intro s t h hlt
    obtain ⟨r1, s1, t1, h1, h2, h3⟩ := readComp_reading hf hv hN h n
    rw [run_fill_succ, h1]
    cases r1 with
    | error e => obtain ⟨e', he'⟩ := h3; exact ⟨_, _, _, rfl, .inr ⟨e', t, he'⟩⟩
    | ok b =>
      cases b with
      | true => exact ⟨_, _, _, rfl, .inl rfl⟩
      | false =>
        by_cases hr : rest t = []
        · -- nothing is left below, so everything is in the buffer
          exfalso
          obtain ⟨⟨w, -, hw, hi⟩, -⟩ := h2
          simp only at hw hi
          have hb : s1.rbuf.unread = [] := by
            cases hu : s1.rbuf.unread with
            | nil => rfl
            | cons a l =>
              have := h3.1.2 (by rw [hu]; simp)
              simp at this
          have hr1 : rest t1 = [] := by
            obtain ⟨r, t', hst, hrr⟩ := hf n t
            rw [run_readComp, hst] at h1
            cases r with
            | error e => simp at h1
            | ok p =>
              simp only [Option.some.injEq, Prod.mk.injEq] at h1
              obtain ⟨-, rfl⟩ := h1
              have := hrr.1
              rw [hr] at this
              exact (List.nil_eq_append_iff.1 this).2
          rw [hr1, List.append_nil] at hw
          rw [hb, List.append_nil, hw] at hi
          exact hleft hi
        · have := h3.2 hr
          exact ih s1 t1 h2 (by omega)

/-- As long as not everything was handed out, `read` ends. -/
theorem read_progress {z : Codec ζ δ} {k : ZlibContract z} {step : Nat → τ → Option (Except Exc Bytes × τ)}
    {rest : τ → Bytes} (hf : Faithful step rest) {wire : Bytes} {N : Int} (hv : k.valid wire)
    (hN : ((k.inflate wire).length : Int) < N) {handed : Bytes} (hleft : handed ≠ k.inflate wire) (n f : Nat)
    (x : St ζ δ × τ) (h : Reading z k rest wire N handed x) (hlt : (rest x.2).length < f) :
    ∃ r y, P.over (read z f) step (n + 1) x = some (r, y) ∧
      ((∃ b, r = .ok b) ∨ ∃ e t1, step (n + 1) t1 = some (.error e, y.2)) := by
  obtain ⟨s, t⟩ := x
  rw [over_read]
  split
  · exact ⟨_, _, rfl, .inl ⟨_, rfl⟩⟩
  · rename_i hc
    have hu : s.rbuf.unread = [] := by
      cases hs : s.rbuf.unread with
      | nil => rfl
      | cons a l => rw [hs] at hc; simp at hc
    have h0 := reading_take h (n + 1)
    rw [hu] at h0
    simp only [List.take_nil, List.append_nil] at h0
    obtain ⟨r, s', t', h1, h2⟩ := fill_progress hf hv hN hleft n f _ t h0 hlt
    rw [h1]
    rcases h2 with rfl | h2
    · exact ⟨_, _, rfl, .inl ⟨_, rfl⟩⟩
    · cases r with
      | error e => exact ⟨_, _, rfl, .inr h2⟩
      | ok u => exact ⟨_, _, rfl, .inl ⟨_, rfl⟩⟩

/-! ## Writing -/

/-- A history of calls on a `TZlibTransport`: the results of the `flush` calls, the object, the
underlying transport. -/
def history {ω : Type} (z : Codec ζ δ) (k : Sink ω) : List WriteOp → St ζ δ → ω →
    List (Except Exc Unit) × St ζ δ × ω
  | [], s, w => ([], s, w)
  | .write b :: ops, s, w => history z k ops (write (.bytes b) s).2 w
  | .bad :: ops, s, w => history z k ops (write .other s).2 w
  | .flush :: ops, s, w =>
    let r := flush z k s w
    let x := history z k ops r.2.1 r.2.2
    (r.1 :: x.1, x.2)

/-- An underlying transport that remembers what was written to it and how often it was flushed. -/
def wireSink : Sink (Bytes × Nat) where
  write b w := (.ok (), (w.1 ++ b, w.2))
  flush w := (.ok (), (w.1, w.2 + 1))

/-- What holds of a writer that has sent the bytes `wire` for the bytes `plain`. -/
structure Writing (z : Codec ζ δ) (k : ZlibContract z) (plain : Bytes) (wire : Bytes) (s : St ζ δ) : Prop where
  rep : k.RepC s.zw wire plain
  pos : s.wbuf.pos = s.wbuf.value.length
  out : s.bytesOut = plain.length
  outComp : s.bytesOutComp = wire.length

theorem flush_writing {z : Codec ζ δ} (k : ZlibContract z) {plain : Bytes} {w : Bytes × Nat} {s : St ζ δ}
    (h : Writing z k plain w.1 s) (hc : k.Synced s.zw ∨ (w.1 = [] ∧ plain = [] ∧ s.wbuf.value ≠ [])) :
    ∃ s' w', flush z wireSink s w = (.ok (), s', w') ∧ Writing z k (plain ++ s.wbuf.value) w'.1 s' ∧
      k.Synced s'.zw ∧ s'.wbuf.value = [] ∧ w'.2 = w.2 + 1 := by
  obtain ⟨hr, hp, ho, hoc⟩ := h
  unfold flush
  by_cases hw : s.wbuf.value = []
  · rw [if_neg (by simp [hw])]
    rcases hc with hc | hc
    · obtain ⟨e1, e2, e3⟩ := k.again hr hc
      obtain ⟨g1, g2, -⟩ := k.flush hr
      rw [e1, List.append_nil] at g1
      unfold send
      simp only [e1, Option.getD_none, List.length_nil, Nat.add_zero, gt_iff_lt, Nat.lt_irrefl, if_false]
      refine ⟨_, _, rfl, ⟨by simpa [hw, wireSink] using g1, hp, by simpa [hw] using ho, hoc⟩, g2, hw, rfl⟩
    · exact absurd hw hc.2.2
  · rw [if_pos (by have := List.length_pos_iff.2 hw; omega)]
    have c1 := k.compress s.wbuf.value hr
    obtain ⟨g1, g2, g3, g4⟩ := k.flush c1
    have hpos : (z.compress s.wbuf.value s.zw).1.length +
        (z.syncFlush (z.compress s.wbuf.value s.zw).2).1.length > 0 := by
      rcases Nat.eq_zero_or_pos ((z.compress s.wbuf.value s.zw).1.length +
        (z.syncFlush (z.compress s.wbuf.value s.zw).2).1.length) with h0 | h0
      · exfalso
        have e1 : (z.compress s.wbuf.value s.zw).1 = [] := List.length_eq_zero_iff.1 (by omega)
        have e2 : (z.syncFlush (z.compress s.wbuf.value s.zw).2).1 = [] := List.length_eq_zero_iff.1 (by omega)
        rw [e1, e2, List.append_nil, List.append_nil] at g4
        have : k.inflate w.1 = plain := by
          rcases hc with hc | ⟨hc, hc', -⟩
          · exact (k.again hr hc).2.2
          · rw [hc, hc', k.inflate_nil]
        rw [this] at g4
        exact hw (by simpa using g4)
      · exact h0
    unfold send
    simp only [Option.getD_some]
    rw [if_pos hpos]
    refine ⟨_, _, rfl, ⟨?_, rfl, ?_, ?_⟩, g2, rfl, rfl⟩
    · simpa [wireSink, Sink.writeFlush] using g1
    · simp [ho]
    · simp [wireSink, Sink.writeFlush, hoc]; omega

theorem history_writing {z : Codec ζ δ} (k : ZlibContract z) (ops : List WriteOp) :
    ∀ (s : St ζ δ) (w : Bytes × Nat) (plain : Bytes), Writing z k plain w.1 s →
    (k.Synced s.zw ∨ (w.1 = [] ∧ plain = [] ∧ (batches false s.wbuf.value ops).1.head? ≠ some [])) →
    let x := history z wireSink ops s w
    let bs := batches false s.wbuf.value ops
    x.1 = List.replicate bs.1.length (.ok ()) ∧ Writing z k (plain ++ bs.1.flatten) x.2.2.1 x.2.1 ∧
    x.2.1.wbuf.value = bs.2 ∧ x.2.2.2 = w.2 + bs.1.length ∧ (bs.1 ≠ [] ∨ k.Synced s.zw → k.Synced x.2.1.zw) := by
  induction ops with
  | nil =>
    intro s w plain h hc
    exact ⟨rfl, by simpa [batches, history] using h, rfl, rfl, by simp [batches, history]⟩
  | cons op ops ih =>
    intro s w plain h hc
    cases op with
    | write b =>
      obtain ⟨h1, h2, -⟩ := BytesIO.write_end s.wbuf b h.pos
      have := ih (write (.bytes b) s).2 w plain ⟨h.rep, h2, h.out, h.outComp⟩ (by
        rcases hc with hc | ⟨hc, hc', hc''⟩
        · exact .inl hc
        · refine .inr ⟨hc, hc', ?_⟩
          simp only [write, h1]
          exact hc'')
      simp only [write, h1] at this
      exact this
    | bad => exact ih (write .other s).2 w plain h hc
    | flush =>
      obtain ⟨s', w', e, hw, hs, hb, hn⟩ := flush_writing k h (by
        rcases hc with hc | ⟨hc, hc', hc''⟩
        · exact .inl hc
        · exact .inr ⟨hc, hc', by simpa [batches] using hc''⟩)
      have := ih s' w' _ hw (.inl hs)
      rw [hb] at this
      obtain ⟨i1, i2, i3, i4, i5⟩ := this
      simp only [history, e, batches, List.length_cons, List.replicate_succ, List.flatten_cons]
      refine ⟨by rw [i1], by simpa using i2, i3, by omega, fun _ => i5 (.inr hs)⟩

theorem init_writing {z : Codec ζ δ} (k : ZlibContract z) (N : Int) : Writing z k [] [] (init z N) :=
  ⟨k.newC, rfl, rfl, rfl⟩

end ZlibT

/-! ## C30: the two sides together -/

variable {ζ δ τ : Type}

/-- C30: any history of writes and flushes on a fresh `TZlibTransport` whose first flush is not an empty
one. No flush raises; each one flushes the underlying transport; what was sent is a compressed stream
that decompresses to what was written before the last flush, in order. -/
theorem zlib_writes {z : Codec ζ δ} (k : ZlibContract z) (N : Int) (ops : List WriteOp)
    (hfirst : (batches false [] ops).1.head? ≠ some []) (hne : (batches false [] ops).1 ≠ []) :
    let x := history z wireSink ops (init z N) ([], 0)
    x.1 = List.replicate (batches false [] ops).1.length (.ok ()) ∧
    k.valid x.2.2.1 ∧ k.inflate x.2.2.1 = (batches false [] ops).1.flatten ∧
    x.2.2.2 = (batches false [] ops).1.length ∧ x.2.1.wbuf.value = (batches false [] ops).2 := by
  have h := history_writing k ops (init z N) ([], 0) [] (init_writing k N) (.inr ⟨rfl, rfl, hfirst⟩)
  obtain ⟨h1, h2, h3, h4, h5⟩ := h
  obtain ⟨-, g1, g2⟩ := k.again h2.rep (h5 (.inl hne))
  refine ⟨h1, g1, ?_, by simpa [init, BytesIO.of] using h4, h3⟩
  rw [g2]
  rfl

/-- C30: one side performs any history of writes and flushes (the first flush not an empty one); the
other side, over any transport that delivers what was sent, in whatever pieces and possibly raising in
between, makes reads of positive sizes, with a limit above the amount of data. What the reads deliver is
the beginning of what was written and flushed, in order; each read that returns gives at least one byte
and not more than asked for. -/
theorem zlib_transfer {z : Codec ζ δ} (k : ZlibContract z) (M N : Int) (ops : List WriteOp)
    (hfirst : (batches false [] ops).1.head? ≠ some []) (hne : (batches false [] ops).1 ≠ [])
    (hN : ((batches false [] ops).1.flatten.length : Int) < N)
    {step : Nat → τ → Option (Except Exc Bytes × τ)} {rest : τ → Bytes} (hf : Faithful step rest) (t : τ)
    (ht : rest t = (history z wireSink ops (init z M) ([], 0)).2.2.1)
    (fuel : Nat) (log : List (Nat × Except Exc Bytes)) (y : St ζ δ × τ)
    (hs : Session (P.over (ZlibT.read z fuel) step) (init z N, t) log y) (hn : ∀ q ∈ log, 0 < q.1) :
    delivered log <+: (batches false [] ops).1.flatten ∧
    (∀ n b, (n, .ok b) ∈ log → b ≠ [] ∧ b.length ≤ n) := by
  obtain ⟨-, hv, hi, -⟩ := zlib_writes k M ops hfirst hne
  rw [← ht] at hv hi
  obtain ⟨h1, h2⟩ := session_reading (k := k) hf hv (by rw [hi]; exact hN) hs hn (reading_init k t N)
  refine ⟨?_, h2⟩
  rw [← hi]
  simpa using reading_prefix hv h1

/-- C30, continued: until everything was delivered, the next read ends, with data unless the underlying
transport raises. The number of iterations it needs is bounded by the number of bytes still to come. -/
theorem zlib_transfer_progress {z : Codec ζ δ} (k : ZlibContract z) (M N : Int) (ops : List WriteOp)
    (hfirst : (batches false [] ops).1.head? ≠ some []) (hne : (batches false [] ops).1 ≠ [])
    (hN : ((batches false [] ops).1.flatten.length : Int) < N)
    {step : Nat → τ → Option (Except Exc Bytes × τ)} {rest : τ → Bytes} (hf : Faithful step rest) (t : τ)
    (ht : rest t = (history z wireSink ops (init z M) ([], 0)).2.2.1)
    (fuel : Nat) (log : List (Nat × Except Exc Bytes)) (y : St ζ δ × τ)
    (hs : Session (P.over (ZlibT.read z fuel) step) (init z N, t) log y) (hn : ∀ q ∈ log, 0 < q.1)
    (hleft : delivered log ≠ (batches false [] ops).1.flatten) (n : Nat) (hfuel : (rest y.2).length < fuel) :
    ∃ r y', P.over (ZlibT.read z fuel) step (n + 1) y = some (r, y') ∧
      ((∃ b, r = .ok b ∧ b ≠ []) ∨ ∃ e t1, step (n + 1) t1 = some (.error e, y'.2)) := by
  obtain ⟨-, hv, hi, -⟩ := zlib_writes k M ops hfirst hne
  rw [← ht] at hv hi
  obtain ⟨h1, h2⟩ := session_reading (k := k) hf hv (by rw [hi]; exact hN) hs hn (reading_init k t N)
  rw [List.nil_append] at h1
  obtain ⟨r, y', h3, h4⟩ := read_progress hf hv (by rw [hi]; exact hN) (by rw [hi]; exact hleft) n fuel y h1 hfuel
  refine ⟨r, y', h3, ?_⟩
  rcases h4 with ⟨b, rfl⟩ | h4
  · exact .inl ⟨b, rfl, (read_reading hf hv (by rw [hi]; exact hN) h1 h3).1⟩
  · exact .inr h4

/-- A reader of the toy format that has taken `c` bytes, decompressed `d` and handed out all of them,
the last ones being `v`. -/
def toyState (max : Int) (v : Bytes) (d c : Nat) : St ToyC ToyD :=
  { max := max, zr := (false, []), zw := (true, []), rbuf := { value := v, pos := v.length }, decompressed := d
    bytesIn := c, bytesInComp := d }

/-- Two flushes with an empty one in between, read over single bytes. -/
example : (history toy wireSink [.write [1, 2], .flush, .flush, .write [3], .flush] (init toy 100) ([], 0)).2.2
      = ([0x78, 1, 2, 3], 3) ∧
    Session (P.over (ZlibT.read toy 9) bytewise) (init toy 100, [0x78, 1, 2, 3])
      [(5, .ok [1]), (1, .ok [2]), (4, .ok [3])]
      (toyState 100 [3] 3 4, []) := by
  refine ⟨by decide +kernel, .call (t1 := (toyState 100 [1] 1 2, [2, 3]))
    (by decide +kernel) (.call (t1 := (toyState 100 [2] 2 3, [3]))
    (by decide +kernel) (.call (by decide +kernel) (.done _)))⟩

/-! ## C30: the limit -/

/-- What a reader counts is what it handed out and what it still holds. -/
theorem ZlibT.fill_count {z : Codec ζ δ} {step : Nat → τ → Option (Except Exc Bytes × τ)}
    (hb : ∀ {d d' x out} {m : Int}, 0 < m → z.decompress x m d = (.ok out, d') → (out.length : Int) ≤ m)
    (n : Nat) : ∀ (f : Nat) (s : St ζ δ) (t : τ) r s' t', (fill z f n s).run step t = some ((r, s'), t') →
      (s'.decompressed + s.rbuf.unread.length = s.decompressed + s'.rbuf.unread.length ∧ s'.max = s.max ∧
        (s.rbuf.unread = [] → (s.decompressed : Int) < s.max → (s'.decompressed : Int) ≤ s'.max)) := by
  intro f
  induction f with
  | zero => intro s t r s' t' h; simp [fill, P.diverge, Prog.run] at h
  | succ f ih =>
    intro s t r s' t' h
    rw [run_fill_succ, run_readComp] at h
    cases hst : step n t with
    | none => rw [hst] at h; simp at h
    | some q =>
      obtain ⟨q, t1⟩ := q
      rw [hst] at h
      cases q with
      | error e =>
        simp only [Option.some.injEq, Prod.mk.injEq] at h
        obtain ⟨⟨rfl, rfl⟩, rfl⟩ := h
        exact ⟨rfl, rfl, fun _ h => by omega⟩
      | ok x =>
        simp only at h
        cases hd : z.decompress (z.tail s.zr ++ x) (s.max - s.decompressed) s.zr with
        | mk o zr =>
          cases o with
          | error e =>
            simp only [inflateInto, hd, Option.some.injEq, Prod.mk.injEq] at h
            obtain ⟨⟨rfl, rfl⟩, rfl⟩ := h
            exact ⟨rfl, rfl, fun _ h => by simp only; omega⟩
          | ok buf =>
            by_cases htl : z.tail zr = []
            · rw [inflateInto_ok z hd htl] at h
              have hbound : (s.decompressed : Int) < s.max → (s.decompressed + buf.length : Int) ≤ s.max := by
                intro hlt
                have := hb (by omega) hd
                omega
              by_cases hem : s.rbuf.unread ++ buf = []
              · simp only [hem, ne_eq, not_true_eq_false, decide_false] at h
                have := ih _ _ _ _ _ h
                obtain ⟨i1, i2, i3⟩ := this
                simp only [List.append_eq_nil_iff] at hem
                obtain ⟨e1, e2⟩ := hem
                simp only [e2, List.length_nil, Nat.add_zero, BytesIO.of_unread] at i1 i2 i3
                refine ⟨by rw [e1]; simp; omega, i2, fun _ hlt => i3 trivial hlt⟩
              · simp only [hem, ne_eq, not_false_eq_true, decide_true, Option.some.injEq, Prod.mk.injEq] at h
                obtain ⟨⟨rfl, rfl⟩, rfl⟩ := h
                simp only [BytesIO.of_unread, List.length_append]
                exact ⟨by omega, trivial, fun _ hlt => by have := hbound hlt; omega⟩
            · simp only [inflateInto, hd, ne_eq, htl, not_false_eq_true, if_true, Option.some.injEq,
                Prod.mk.injEq] at h
              obtain ⟨⟨rfl, rfl⟩, rfl⟩ := h
              exact ⟨rfl, rfl, fun _ h => by simp only; omega⟩

theorem ZlibT.read_count {z : Codec ζ δ} {step : Nat → τ → Option (Except Exc Bytes × τ)}
    (hb : ∀ {d d' x out} {m : Int}, 0 < m → z.decompress x m d = (.ok out, d') → (out.length : Int) ≤ m)
    (f n : Nat) (x y : St ζ δ × τ) (r : Except Exc Bytes) (h : P.over (ZlibT.read z f) step (n + 1) x = some (r, y)) :
    y.1.decompressed + x.1.rbuf.unread.length =
      x.1.decompressed + y.1.rbuf.unread.length + (delivered [(n, r)]).length ∧
    y.1.max = x.1.max ∧ ((x.1.decompressed : Int) < x.1.max → (y.1.decompressed : Int) ≤ y.1.max) := by
  obtain ⟨s, t⟩ := x
  rw [over_read] at h
  split at h
  · simp only [Option.some.injEq, Prod.mk.injEq] at h
    obtain ⟨rfl, rfl⟩ := h
    simp only [BytesIO.read_unread, delivered, List.append_nil, List.length_take, List.length_drop]
    exact ⟨by omega, trivial, fun h => by omega⟩
  · rename_i hc
    have hu : s.rbuf.unread = [] := by
      cases hs : s.rbuf.unread with
      | nil => rfl
      | cons a l => rw [hs] at hc; simp at hc
    have hu' : (s.rbuf.read (n + 1 : Nat)).2.unread = [] := by rw [BytesIO.read_unread, hu]; rfl
    cases hr : (fill z f (n + 1) { s with rbuf := (s.rbuf.read (n + 1 : Nat)).2 }).run step t with
    | none => rw [hr] at h; simp at h
    | some q =>
      obtain ⟨⟨r1, s1⟩, t1⟩ := q
      obtain ⟨i1, i2, i3⟩ := ZlibT.fill_count hb (n + 1) f _ t r1 s1 t1 hr
      simp only [hu', List.length_nil, Nat.add_zero] at i1 i2 i3
      rw [hr] at h
      cases r1 with
      | error e =>
        simp only [Option.some.injEq, Prod.mk.injEq] at h
        obtain ⟨rfl, rfl⟩ := h
        exact ⟨by simp [delivered, hu]; omega, i2, fun h => i3 trivial h⟩
      | ok u =>
        simp only [Option.some.injEq, Prod.mk.injEq] at h
        obtain ⟨rfl, rfl⟩ := h
        refine ⟨?_, i2, fun h => i3 trivial h⟩
        simp only [BytesIO.read_unread, delivered, List.append_nil, List.length_take, List.length_drop, hu,
          List.length_nil]
        omega

/-- C30, the limit, partial: in any sequence of reads on a fresh transport with
`max_decompressed_size = N`, over any transport and any stream (also a malformed or hostile one), the
bytes handed out are at most `N`, unless at some point between the reads exactly `N` bytes had been
decompressed. What is missing: that exception, see `zlib_limit_bypassed`. -/
theorem zlib_limit_partial {z : Codec ζ δ} (k : ZlibContract z) {step : Nat → τ → Option (Except Exc Bytes × τ)}
    (N : Int) (hN : 0 < N) (f : Nat) (t : τ) (y : St ζ δ × τ) (log : List (Nat × Except Exc Bytes))
    (hs : Session (P.over (ZlibT.read z f) step) (init z N, t) log y) (hn : ∀ q ∈ log, 0 < q.1) :
    ((delivered log).length : Int) ≤ N ∨
    ∃ pre post mid, log = pre ++ post ∧ Session (P.over (ZlibT.read z f) step) (init z N, t) pre mid ∧
      (mid.1.decompressed : Int) = N := by
  have key : ∀ {x y : St ζ δ × τ} {log}, Session (P.over (ZlibT.read z f) step) x log y → (∀ q ∈ log, 0 < q.1) →
      x.1.max = N → (x.1.decompressed : Int) < N →
      (y.1.decompressed + x.1.rbuf.unread.length =
        x.1.decompressed + y.1.rbuf.unread.length + (delivered log).length ∧ (y.1.decompressed : Int) < N) ∨
      ∃ pre post mid, log = pre ++ post ∧ Session (P.over (ZlibT.read z f) step) x pre mid ∧
        (mid.1.decompressed : Int) = N := by
    intro x y log hs
    induction hs with
    | done x => intro _ _ h; exact .inl ⟨by simp [delivered], h⟩
    | @call n r x x1 y log h1 h2 ih =>
      intro hn hm hlt
      have hpos := hn (n, r) (by simp)
      obtain ⟨m, rfl⟩ : ∃ m, n = m + 1 := ⟨n - 1, by simp only at hpos; omega⟩
      obtain ⟨c1, c2, c3⟩ := ZlibT.read_count k.bounded f m x x1 r h1
      have c4 := c3 (by omega)
      by_cases heq : (x1.1.decompressed : Int) = N
      · exact .inr ⟨[(m + 1, r)], log, x1, rfl, .call h1 (.done _), heq⟩
      · rcases ih (fun q hq => hn q (by simp [hq])) (by omega) (by omega) with ⟨i1, i2⟩ | ⟨pre, post, mid, e, s, c⟩
        · refine .inl ⟨?_, i2⟩
          have : (delivered ((m + 1, r) :: log)).length = (delivered [(m, r)]).length + (delivered log).length := by
            cases r <;> simp [delivered]
          omega
        · exact .inr ⟨(m + 1, r) :: pre, post, mid, by rw [e]; rfl, .call h1 s, c⟩
  rcases key hs hn rfl (by simpa [init] using hN) with ⟨h1, h2⟩ | h
  · left
    have : (init z N).rbuf.unread.length = 0 := rfl
    have h0 : (init z N).decompressed = 0 := rfl
    simp only [this, h0] at h1
    omega
  · exact .inr h

/-- The limit at work: 3 bytes allowed, 5 come; the read raises and nothing is handed out. -/
example : Session (P.over (ZlibT.read toy 9) memStep) (init toy 3, [0x78, 1, 2, 3, 4, 5])
    [(9, .error TTransportException.SIZE_LIMIT)]
    ({ max := 3, zr := (false, [4, 5]), zw := (true, []) }, []) :=
  .call (by decide +kernel) (.done _)

/-- C30, the limit: the full statement is false. When exactly `N` bytes were decompressed, `remaining` is
0, which `decompress` takes for "no limit": here 2 bytes are allowed and 5 handed out. -/
theorem zlib_limit_bypassed :
    ∃ log y, Session (P.over (ZlibT.read toy 9) memStep) (init toy 2, [0x78, 1, 2, 3, 4, 5]) log y ∧
      (∀ q ∈ log, 0 < q.1) ∧ (delivered log).length = 5 := by
  refine ⟨[(3, .ok [1, 2]), (3, .ok [3, 4, 5])],
    (toyState 2 [3, 4, 5] 5 6, []),
    .call (t1 := (toyState 2 [1, 2] 2 3, [3, 4, 5])) (by decide +kernel)
      (.call (by decide +kernel) (.done _)), by simp, rfl⟩

/-! ## C30: empty flushes -/

/-- C30, partial: after a flush that went through, a flush with nothing written is harmless: nothing is
sent, the underlying transport is flushed. What is missing: the first flush, see `zlib_empty_flush`. -/
theorem zlib_empty_flush_partial {z : Codec ζ δ} (k : ZlibContract z) (N : Int) (ops : List WriteOp)
    (hfirst : (batches false [] ops).1.head? ≠ some []) (hne : (batches false [] ops).1 ≠ [])
    (hp : (batches false [] ops).2 = []) :
    let x := history z wireSink ops (init z N) ([], 0)
    let y := flush z wireSink x.2.1 x.2.2
    y.1 = .ok () ∧ y.2.2.1 = x.2.2.1 ∧ y.2.2.2 = x.2.2.2 + 1 := by
  have h := history_writing k ops (init z N) ([], 0) [] (init_writing k N) (.inr ⟨rfl, rfl, hfirst⟩)
  obtain ⟨-, h2, h3, -, h5⟩ := h
  have hw : (history z wireSink ops (init z N) ([], 0)).2.1.wbuf.value = [] := by rw [h3]; exact hp
  obtain ⟨e1, -, -⟩ := k.again h2.rep (h5 (.inl hne))
  intro x y
  have : y = flush z wireSink x.2.1 x.2.2 := rfl
  unfold flush at this
  rw [if_neg (by simp [x, hw])] at this
  unfold send at this
  simp only [x, e1, Option.getD_none, List.length_nil, Nat.add_zero, gt_iff_lt, Nat.lt_irrefl, if_false] at this
  rw [this]
  exact ⟨rfl, rfl, rfl⟩

/-- C30: the full statement is false. If the compressor emits anything when it is flushed for the first
time (zlib: the header of the stream), flushing a fresh transport with nothing written raises `TypeError`,
and what the compressor emitted is lost. -/
theorem zlib_empty_flush {ω : Type} (z : Codec ζ δ) (k : Sink ω) (N : Int) (w : ω)
    (hz : (z.syncFlush z.newC).1 ≠ []) :
    ∃ s', flush z k (init z N) w = (.error .typeError, s', w) := by
  unfold flush
  rw [if_neg (by simp [init, BytesIO.of])]
  unfold send
  rw [if_pos (by simpa [init] using List.length_pos_iff.2 hz)]
  exact ⟨_, rfl⟩

/-- The consequence: what is written afterwards does not reach the peer. -/
theorem zlib_empty_flush_breaks :
    let x := history toy wireSink [.flush, .write [1, 2], .flush] (init toy 100) ([], 0)
    x.1 = [.error .typeError, .ok ()] ∧ x.2.2.1 = [1, 2] ∧ ¬ toyContract.valid [1, 2] ∧
    (P.over (ZlibT.read toy 9) memStep 5 (init toy 100, [1, 2])).map Prod.fst = some (.error (.user 0)) := by
  refine ⟨by decide +kernel, by decide +kernel, ?_, by decide +kernel⟩
  rintro (h | ⟨x, h⟩) <;> simp at h

/-! ## C30: the end of the stream -/

/-- C30, partial: at the end of the stream, if the underlying transport raises there (as `TSocket` does),
so does `read`. What is missing: transports that return `b''`, see `zlib_eof_hangs`. -/
theorem zlib_eof_partial (z : Codec ζ δ) {step : Nat → τ → Option (Except Exc Bytes × τ)} (f n : Nat)
    (s : St ζ δ) (t t' : τ) (e : Exc) (hs : s.rbuf.unread = []) (hst : step n t = some (.error e, t')) :
    ∃ s', P.over (ZlibT.read z (f + 1)) step n (s, t) = some (.error e, (s', t')) ∧ s'.rbuf.unread = [] := by
  rw [over_read, if_neg (by simp [hs]), run_fill_succ, run_readComp, hst]
  exact ⟨_, rfl, by simp [BytesIO.read_unread, hs]⟩

/-- C30: the full statement is false. Over a transport that answers `b''` at the end of the stream
(`TMemoryBuffer`, `TFileObjectTransport`), a read at the end never returns: no number of iterations is
enough. -/
theorem zlib_eof_hangs {z : Codec ζ δ} (k : ZlibContract z) (N : Int) (n f : Nat) (wire handed : Bytes)
    (hv : k.valid wire) (hN : ((k.inflate wire).length : Int) < N) (x : St ζ δ × Bytes)
    (hx : Reading z k id wire N handed x) (hb : x.2 = []) (hr : x.1.rbuf.unread = []) :
    P.over (ZlibT.read z f) memStep (n + 1) x = none := by
  have hf : Faithful memStep id := by
    intro m b
    refine ⟨.ok (b.take (m + 1)), b.drop (m + 1), rfl, (List.take_append_drop _ _).symm, by simp; omega, ?_⟩
    cases b <;> simp
  have key : ∀ f s, Reading z k id wire N handed (s, []) → s.rbuf.unread = [] →
      (fill z f (n + 1) s).run memStep [] = none := by
    intro f
    induction f with
    | zero => intro s _ _; rfl
    | succ f ih =>
      intro s h hs
      obtain ⟨r1, s1, t1, h1, h2, h3⟩ := readComp_reading hf hv hN h n
      rw [run_fill_succ, h1]
      cases r1 with
      | error e => obtain ⟨e', he'⟩ := h3; simp [memStep] at he'
      | ok b =>
        have ht1 : t1 = [] := by
          rw [run_readComp] at h1
          simp only [memStep, List.take_nil, List.drop_nil, Option.some.injEq, Prod.mk.injEq] at h1
          exact h1.2.symm
        subst ht1
        have hu : s1.rbuf.unread = [] := by
          obtain ⟨⟨w, -, hw, hi⟩, -⟩ := h
          obtain ⟨⟨w', -, hw', hi'⟩, -⟩ := h2
          simp only [id, List.append_nil] at hw hw'
          simp only [hs, List.append_nil] at hi
          rw [hw'] at hi'
          rw [hw, ← hi'] at hi
          simpa using hi
        cases b with
        | true => exact absurd hu (h3.1.1 rfl)
        | false => exact ih s1 h2 hu
  obtain ⟨s, t⟩ := x
  simp only at hb hr
  subst hb
  rw [over_read, if_neg (by simp [hr])]
  have h0 := reading_take hx (n + 1)
  rw [hr] at h0
  simp only [List.take_nil, List.append_nil] at h0
  rw [key f _ h0 (by rw [BytesIO.read_unread, hr]; rfl)]

/-- For instance a fresh transport over an empty buffer. -/
example (f n : Nat) : P.over (ZlibT.read toy f) memStep (n + 1) (init toy 100, []) = none :=
  zlib_eof_hangs toyContract 100 n f [] [] (.inl rfl) (by decide) _ (reading_init toyContract (rest := id) [] 100) rfl rfl

/-- C30, C55: whatever was done before, a transport that was closed and opened again is as a new one with the same limit: nothing
that was buffered or counted before is left over, so that all of the above holds for the next connection. -/
theorem zlib_reopen (z : Codec ζ δ) (s : St ζ δ) : opened (close z s) = init z s.max := rfl

/-- For instance after data was read and more was written than flushed. -/
example : opened (close toy (ZlibT.write (.bytes [7, 8]) (toyState 100 [1, 2, 3] 3 4)).2) = init toy 100 := zlib_reopen _ _

/-! ## C55: the statistics -/

/-- C55, partial (outbound): after any history of writes and flushes, the savings and the ratio that are
reported for the outgoing direction are those of the data that was sent: uncompressed minus compressed,
compressed over uncompressed. What is missing: the inbound direction, see `zlib_stats_inbound`. -/
theorem zlib_stats_partial {z : Codec ζ δ} (k : ZlibContract z) (N : Int) (ops : List WriteOp)
    (hfirst : (batches false [] ops).1.head? ≠ some []) :
    let x := history z wireSink ops (init z N) ([], 0)
    let plain := (batches false [] ops).1.flatten
    (getCompSavings x.2.1).2 = (plain.length : Int) - x.2.2.1.length ∧
    (getCompRatio x.2.1).2 = if plain.length > 0 then some (x.2.2.1.length, plain.length) else none := by
  have h := history_writing k ops (init z N) ([], 0) [] (init_writing k N) (.inr ⟨rfl, rfl, hfirst⟩)
  obtain ⟨-, h2, -⟩ := h
  have e1 := h2.out
  have e2 := h2.outComp
  rw [List.nil_append] at e1
  simp only [getCompSavings, getCompRatio]
  rw [e1, e2]
  exact ⟨rfl, rfl⟩

/-- C55: the full statement is false. In the inbound direction the two counters are exchanged: here four
compressed bytes were received for three bytes of data, so the savings are −1 and the ratio 4/3; reported
are 1 and 3/4. -/
theorem zlib_stats_inbound :
    ∃ y, Session (P.over (ZlibT.read toy 9) memStep) (init toy 100, [0x78, 1, 2, 3]) [(9, .ok [1, 2, 3])] (y, []) ∧
      (getCompSavings y).1 = 1 ∧ (getCompRatio y).1 = some (3, 4) :=
  ⟨toyState 100 [1, 2, 3] 3 4, .call (by decide +kernel) (.done _), rfl, rfl⟩

end Thrift
