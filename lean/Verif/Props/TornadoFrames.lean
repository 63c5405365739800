import Verif.Props.Tornado
import Verif.Props.Transport
/-
C56: frames over a Tornado stream.
-/

namespace Thrift.Tornado
open Spec.Tornado Spec

theorem results_append (a b : List TObs) : results (a ++ b) = results a ++ results b := by simp [results]
theorem consumed_append (a b : List TObs) : consumed (a ++ b) = consumed a ++ consumed b := by simp [consumed]
theorem gotBy_append (i : Nat) (a b : List TObs) : gotBy i (a ++ b) = gotBy i a ++ gotBy i b := by simp [gotBy]

/-- What holds between `m` ended calls and the rest, whatever call `m` is doing. -/
structure Core (s : Conn) (os : List TObs) (m : Nat) : Prop where
  lock : LockInv s.lock m
  len : s.calls.length = s.lock.made
  over : ∀ i, i < m → s.calls[i]? = some .over
  later : ∀ i, m < i → i < s.lock.made → s.calls[i]? = some (.waiting (i - 1))
  results : (results os).map (·.1) = List.range m
  noassert : ∀ i, (i, .error .assertion) ∉ Spec.Tornado.results os
  gotLater : ∀ i, m < i → gotBy i os = []
  ok : ∀ i f, (i, .ok f) ∈ Spec.Tornado.results os →
    ∃ h, gotBy i os = [h, f] ∧ h.length = 4 ∧ (unpackS h = f.length ∨ unpackS h < 0)
  consumed : consumed os = (List.range (m + 1)).flatMap fun i => (gotBy i os).flatten

/-- What call `m` is doing. -/
inductive Cur (s : Conn) (os : List TObs) (m : Nat) : Prop
  | idle (hm : m = s.lock.made) (hr : s.reading = none) (hg : gotBy m os = [])
  | waits (hm : m < s.lock.made) (hp : 0 < m) (hr : s.reading = none) (hc : s.calls[m]? = some (.waiting (m - 1))) (hg : gotBy m os = [])
  | header (hm : m < s.lock.made) (hr : s.reading = some (m, 4)) (hc : s.calls[m]? = some .header) (hg : gotBy m os = [])
  | body (h : Bytes) (hm : m < s.lock.made) (hl : h.length = 4) (hr : s.reading = some (m, unpackS h)) (hc : s.calls[m]? = some .body)
      (hg : gotBy m os = [h])

structure CInv (s : Conn) (os : List TObs) (m : Nat) : Prop where
  core : Core s os m
  cur : Cur s os m

theorem finish_inv {s : Conn} {os : List TObs} {m : Nat} (h : Core s os m) (hm : m < s.lock.made) (hrd : s.reading = none)
    {r : Except Exc Bytes} (hra : r ≠ .error .assertion)
    (hr : ∀ f, r = .ok f → ∃ h, gotBy m os = [h, f] ∧ h.length = 4 ∧ (unpackS h = f.length ∨ unpackS h < 0)) :
    CInv (s.finish m r).1 (os ++ (s.finish m r).2) (m + 1) := by
  obtain ⟨l', g1, g2, g3⟩ := h.lock.release hm
  have hf : s.finish m r = ({ s with lock := l', calls := s.calls.set m .over }, [.ended m r]) := by simp [Conn.finish, g1]
  rw [hf]
  have hgot : ∀ i, gotBy i (os ++ [.ended m r]) = gotBy i os := fun i => by simp [gotBy]
  have hlen := h.len
  refine ⟨⟨g2, by simp [g3, h.len], ?_, ?_, ?_, ?_, ?_, ?_, ?_⟩, ?_⟩
  · intro i hi
    by_cases e : i = m
    · subst e; simp [hlen, hm]
    · simp only
      rw [List.getElem?_set_ne (Ne.symm e)]
      exact h.over i (by omega)
  · intro i h1 h2
    simp only
    rw [List.getElem?_set_ne (by omega)]
    exact h.later i (by omega) (by simpa [g3] using h2)
  · rw [results_append, List.map_append, h.results, List.range_succ]; simp [Spec.Tornado.results]
  · intro i hi
    rw [results_append, List.mem_append] at hi
    rcases hi with hi | hi
    · exact h.noassert i hi
    · simp [Spec.Tornado.results] at hi
      exact hra hi.2.symm
  · intro i hi
    rw [hgot]
    exact h.gotLater i (by omega)
  · intro i f hi
    rw [results_append, List.mem_append] at hi
    rw [hgot]
    rcases hi with hi | hi
    · exact h.ok i f hi
    · simp [Spec.Tornado.results] at hi
      obtain ⟨rfl, e⟩ := hi
      exact hr f e.symm
  · rw [consumed_append, h.consumed, List.range_succ (n := m + 1), List.flatMap_append]
    simp only [hgot]
    simp [Spec.Tornado.consumed, h.gotLater (m + 1) (by omega)]
  · by_cases hm' : m + 1 < s.lock.made
    · refine .waits (by simpa [g3] using hm') (by omega) hrd ?_ (by rw [hgot]; exact h.gotLater _ (by omega))
      simp only
      rw [List.getElem?_set_ne (by omega)]
      exact h.later (m + 1) (by omega) hm'
    · exact .idle (by simp only [g3]; omega) hrd (by rw [hgot]; exact h.gotLater _ (by omega))

theorem Core.got {s : Conn} {os : List TObs} {m : Nat} (h : Core s os m) (b : Bytes) : Core { s with reading := none } (os ++ [.got m b]) m := by
  have hgot : ∀ i, i ≠ m → gotBy i (os ++ [.got m b]) = gotBy i os := fun i hi => by simp [gotBy, Ne.symm hi]
  have hm : ∀ i r, (i, r) ∈ Spec.Tornado.results os → i < m := fun i r hi => by
    have := List.mem_map_of_mem (f := Prod.fst) hi
    rw [h.results] at this
    simpa using this
  refine ⟨h.lock, h.len, h.over, h.later, ?_, ?_, ?_, ?_, ?_⟩
  · rw [results_append, List.map_append, h.results]; simp [Spec.Tornado.results]
  · intro i hi
    rw [results_append, List.mem_append] at hi
    rcases hi with hi | hi
    · exact h.noassert i hi
    · simp [Spec.Tornado.results] at hi
  · intro i hi
    rw [hgot i (by omega)]
    exact h.gotLater i hi
  · intro i f hi
    rw [results_append, List.mem_append] at hi
    rcases hi with hi | hi
    · rw [hgot i (by have := hm i _ hi; omega)]
      exact h.ok i f hi
    · simp [Spec.Tornado.results] at hi
  · rw [consumed_append, h.consumed, List.range_succ, List.flatMap_append, List.flatMap_append, List.append_assoc]
    congr 1
    · rw [List.flatMap_def, List.flatMap_def]
      congr 1
      apply List.map_congr_left
      intro i hi
      simp only [List.mem_range] at hi
      rw [hgot i (by omega)]
    · simp [Spec.Tornado.consumed, gotBy]

/-- What `write` and `flush` leave alone. -/
theorem CInv.other {s s' : Conn} {os o : List TObs} {m : Nat} (h : CInv s os m) (h1 : s'.lock = s.lock) (h2 : s'.calls = s.calls)
    (h3 : s'.reading = s.reading) (ho : ∀ x ∈ o, (∃ b, x = .sent b) ∨ ∃ r, x = .done r) : CInv s' (os ++ o) m := by
  have e1 : results o = [] := by
    simp only [results, List.filterMap_eq_nil_iff]
    intro x hx
    rcases ho x hx with ⟨b, rfl⟩ | ⟨r, rfl⟩ <;> rfl
  have e2 : consumed o = [] := by
    simp only [consumed, List.flatMap_eq_nil_iff]
    intro x hx
    rcases ho x hx with ⟨b, rfl⟩ | ⟨r, rfl⟩ <;> rfl
  have e3 : ∀ i, gotBy i o = [] := by
    intro i
    simp only [gotBy, List.filterMap_eq_nil_iff]
    intro x hx
    rcases ho x hx with ⟨b, rfl⟩ | ⟨r, rfl⟩ <;> rfl
  have e1' : results (os ++ o) = results os := by rw [results_append, e1, List.append_nil]
  have e2' : consumed (os ++ o) = consumed os := by rw [consumed_append, e2, List.append_nil]
  have e3' : ∀ i, gotBy i (os ++ o) = gotBy i os := fun i => by rw [gotBy_append, e3, List.append_nil]
  obtain ⟨c, u⟩ := h
  refine ⟨⟨by rw [h1]; exact c.lock, by rw [h1, h2]; exact c.len, by rw [h2]; exact c.over, by rw [h1, h2]; exact c.later,
    by rw [e1']; exact c.results, by rw [e1']; exact c.noassert, fun i => by rw [e3']; exact c.gotLater i, fun i => by rw [e1', e3']; exact c.ok i,
    by rw [e2', c.consumed]; simp only [e3']⟩, ?_⟩
  cases u with
  | idle a b d => exact .idle (by rw [h1]; exact a) (by rw [h3]; exact b) (by rw [e3']; exact d)
  | waits a b d e f => exact .waits (by rw [h1]; exact a) b (by rw [h3]; exact d) (by rw [h2]; exact e) (by rw [e3']; exact f)
  | header a b d e => exact .header (by rw [h1]; exact a) (by rw [h3]; exact b) (by rw [h2]; exact d) (by rw [e3']; exact e)
  | body x a b d e f => exact .body x (by rw [h1]; exact a) b (by rw [h3]; exact d) (by rw [h2]; exact e) (by rw [e3']; exact f)

theorem Conn.send_other (s : Conn) (hdr : Except Exc Bytes) (f : Bytes) (r : Option Fail) :
    (s.send hdr f r).1.lock = s.lock ∧ (s.send hdr f r).1.calls = s.calls ∧ (s.send hdr f r).1.reading = s.reading ∧
    ∀ x ∈ (s.send hdr f r).2, (∃ b, x = .sent b) ∨ ∃ r, x = .done r := by
  cases hdr <;> cases r <;> simp [Conn.send]

theorem cinv_step {s s' : Conn} {e : TEvent} {os o : List TObs} {m : Nat} (h : CInv s os m) (hs : s.step e = some (s', o)) :
    ∃ m', CInv s' (os ++ o) m' := by
  obtain ⟨c, u⟩ := h
  have hle := c.lock.le
  have hlen := c.len
  cases e with
  | call =>
    obtain ⟨g1, g2, g3⟩ := c.lock.acquire
    simp only [Conn.step] at hs
    by_cases hm : m < s.lock.made
    · rw [if_pos hm] at g3
      rw [show s.lock.acquire = (s.lock.acquire.1, some (s.lock.made - 1)) from Prod.ext rfl g3] at hs
      simp only [Option.some.injEq, Prod.mk.injEq] at hs
      obtain ⟨rfl, rfl⟩ := hs
      rw [List.append_nil]
      have hget : ∀ i, i < s.lock.made → (s.calls ++ [Call.waiting (s.lock.made - 1)])[i]? = s.calls[i]? := fun i hi =>
        List.getElem?_append_left (by omega)
      refine ⟨m, ⟨g1, by simp [g2, hlen], ?_, ?_, c.results, c.noassert, c.gotLater, c.ok, c.consumed⟩, ?_⟩
      · intro i hi
        simp only
        rw [hget i (by omega)]
        exact c.over i hi
      · intro i h1 h2
        simp only [g2] at h2 ⊢
        by_cases e : i = s.lock.made
        · subst e
          rw [List.getElem?_append_right (by omega), hlen]
          simp
        · rw [hget i (by omega)]
          exact c.later i h1 (by omega)
      · cases u with
        | idle a b d => omega
        | waits a b d e f => exact .waits (by simp only [g2]; omega) b d (by simp only; rw [hget m hm]; exact e) f
        | header a b d e => exact .header (by simp only [g2]; omega) b (by simp only; rw [hget m hm]; exact d) e
        | body x a b d e f => exact .body x (by simp only [g2]; omega) b d (by simp only; rw [hget m hm]; exact e) f
    · rw [if_neg hm] at g3
      rw [show s.lock.acquire = (s.lock.acquire.1, none) from Prod.ext rfl g3] at hs
      have hmm : m = s.lock.made := by omega
      have hrd : s.reading = none ∧ gotBy m os = [] := by cases u <;> first | exact ⟨by assumption, by assumption⟩ | omega
      simp only [Conn.ask, hrd.1, Option.some.injEq, Prod.mk.injEq] at hs
      obtain ⟨rfl, rfl⟩ := hs
      rw [List.append_nil]
      refine ⟨m, ⟨g1, by simp [g2, hlen], ?_, ?_, c.results, c.noassert, c.gotLater, c.ok, c.consumed⟩, ?_⟩
      · intro i hi
        simp only
        rw [List.getElem?_set_ne (by omega), List.getElem?_append_left (by omega)]
        exact c.over i hi
      · intro i h1 h2
        simp only [g2] at h2
        omega
      · refine .header (by simp only [g2]; omega) (by simp only [hlen, hmm]) ?_ hrd.2
        simp [hmm, ← hlen]
  | resume i =>
    simp only [Conn.step] at hs
    split at hs
    · rename_i b hb
      split at hs
      · rename_i hset
        rw [c.lock.set] at hset
        have hi : i < s.lock.made := by
          rw [← hlen]
          exact (List.getElem?_eq_some_iff.1 hb).1
        have him : i = m := by
          rcases Nat.lt_trichotomy i m with h1 | h1 | h1
          · rw [c.over i h1] at hb; simp at hb
          · exact h1
          · rw [c.later i h1 hi] at hb
            simp at hb
            omega
        subst him
        have hrd : s.reading = none ∧ gotBy i os = [] := by
          cases u with
          | idle a b d => omega
          | waits a b d e f => exact ⟨d, f⟩
          | header a b d e => rw [d] at hb; simp at hb
          | body x a b d e f => rw [e] at hb; simp at hb
        simp only [Conn.ask, hrd.1, Option.some.injEq, Prod.mk.injEq] at hs
        obtain ⟨rfl, rfl⟩ := hs
        rw [List.append_nil]
        refine ⟨i, ⟨c.lock, by simp [hlen], ?_, ?_, c.results, c.noassert, c.gotLater, c.ok, c.consumed⟩, ?_⟩
        · intro j hj
          simp only
          rw [List.getElem?_set_ne (by omega)]
          exact c.over j hj
        · intro j h1 h2
          simp only
          rw [List.getElem?_set_ne (by omega)]
          exact c.later j h1 h2
        · exact .header hi rfl (by simp [hlen, hi]) hrd.2
      · simp at hs
    · simp at hs
  | data b =>
    have k := c.got b
    simp only [Conn.step] at hs
    cases u with
    | idle a b d => rw [b] at hs; simp at hs
    | waits a b d e f => rw [d] at hs; simp at hs
    | header hm hr hc hg =>
      simp only [hr] at hs
      split at hs
      · rename_i hb
        by_cases hb0 : b.length = 0
        · simp only [Conn.goOn, hc, hb0, if_true, Option.some.injEq, Prod.mk.injEq] at hs
          obtain ⟨rfl, rfl⟩ := hs
          refine ⟨m + 1, ?_⟩
          have := finish_inv k hm rfl (r := .error TTransportException.END_OF_FILE) (by simp [TTransportException.END_OF_FILE]) (by simp)
          rw [List.append_assoc] at this
          exact this
        · simp only [Conn.goOn, hc, hb0, if_false, Conn.ask, Option.some.injEq, Prod.mk.injEq] at hs
          obtain ⟨rfl, rfl⟩ := hs
          refine ⟨m, ⟨k.lock, by simp [hlen], ?_, ?_, k.results, k.noassert, k.gotLater, k.ok, k.consumed⟩, ?_⟩
          · intro j hj
            simp only
            rw [List.getElem?_set_ne (by omega)]
            exact c.over j hj
          · intro j h1 h2
            simp only
            rw [List.getElem?_set_ne (by omega)]
            exact c.later j h1 h2
          · refine .body b hm ?_ rfl (by simp [hlen, hm]) (by rw [gotBy_append, hg]; simp [gotBy])
            rcases hb with hb | hb | hb
            · omega
            · omega
            · simp [hb.1] at hb0
      · simp at hs
    | body x hm hl hr hc hg =>
      simp only [hr] at hs
      split at hs
      · rename_i hb
        simp only [Conn.goOn, hc, Option.some.injEq, Prod.mk.injEq] at hs
        obtain ⟨rfl, rfl⟩ := hs
        refine ⟨m + 1, ?_⟩
        have := finish_inv k hm rfl (r := .ok b) (by simp) (fun f e => by
          cases e
          refine ⟨x, by rw [gotBy_append, hg]; simp [gotBy], hl, ?_⟩
          rcases hb with hb | hb | hb
          · exact Or.inl hb.symm
          · exact Or.inr hb
          · have h2 := hb.2
            simp [hc] at h2)
        rw [List.append_assoc] at this
        exact this
      · simp at hs
  | fail f =>
    have hk : Core { s with reading := none } os m := ⟨c.lock, c.len, c.over, c.later, c.results, c.noassert, c.gotLater, c.ok, c.consumed⟩
    have hx : f.exc ≠ .assertion := by cases f <;> simp [Fail.exc, TTransportException.END_OF_FILE, TTransportException.UNKNOWN]
    simp only [Conn.step] at hs
    cases u with
    | idle a b d => rw [b] at hs; simp at hs
    | waits a b d e f => rw [d] at hs; simp at hs
    | header hm hr hc hg =>
      simp only [hr, Option.some.injEq] at hs
      have := finish_inv hk hm rfl (r := .error f.exc) (by simpa using hx) (by simp)
      rw [hs] at this
      exact ⟨_, this⟩
    | body x hm hl hr hc hg =>
      simp only [hr, Option.some.injEq] at hs
      have := finish_inv hk hm rfl (r := .error f.exc) (by simpa using hx) (by simp)
      rw [hs] at this
      exact ⟨_, this⟩
  | write a =>
    refine ⟨m, CInv.other ⟨c, u⟩ ?_ ?_ ?_ ?_⟩ <;> cases a <;> simp only [Conn.step, Option.some.injEq, Prod.mk.injEq] at hs <;>
      obtain ⟨rfl, rfl⟩ := hs <;> simp
  | flush r =>
    simp only [Conn.step, Option.some.injEq] at hs
    obtain ⟨h1, h2, h3, h4⟩ := s.send_other (packS 4 s.wbuf.value.length) s.wbuf.value r
    rw [hs] at h1 h2 h3 h4
    exact ⟨m, CInv.other ⟨c, u⟩ h1 h2 h3 h4⟩

theorem cinv_run : ∀ {es : List TEvent} {s s' : Conn} {os os' : List TObs} {m : Nat}, CInv s os m → s.run es = some (s', os') →
    ∃ m', CInv s' (os ++ os') m'
  | [], s, s', os, os', m, h, hr => by
    simp only [Conn.run, Option.some.injEq, Prod.mk.injEq] at hr
    obtain ⟨rfl, rfl⟩ := hr
    exact ⟨m, by simpa using h⟩
  | e :: es, s, s', os, os', m, h, hr => by
    simp only [Conn.run] at hr
    split at hr
    · simp at hr
    · rename_i s1 o hs
      split at hr
      · simp at hr
      · rename_i s2 os2 hr2
        simp only [Option.some.injEq, Prod.mk.injEq] at hr
        obtain ⟨rfl, rfl⟩ := hr
        obtain ⟨m1, h1⟩ := cinv_step h hs
        obtain ⟨m2, h2⟩ := cinv_run h1 hr2
        exact ⟨m2, by rw [← List.append_assoc]; exact h2⟩

theorem cinv_init : CInv {} [] 0 :=
  ⟨⟨⟨by simp, by simp, by simp⟩, by simp, by simp, by simp, by simp [results], by simp [results], by simp [gotBy], by simp [results],
    by simp [consumed, gotBy]⟩, .idle rfl rfl rfl⟩

/-- C56: however many calls of `readFrame` run at the same time, they end in the order in which they were made, none of them meets a
stream that is already reading, and the bytes of the stream go to the calls in that order: what was read is what the first call got,
then what the second got, and so on. A call that returns a frame has got a header of four bytes and the frame, whose length the header
gives. -/
theorem tornado_calls_in_order {es : List TEvent} {s : Conn} {os : List TObs} (hr : ({} : Conn).run es = some (s, os)) :
    ∃ m, (results os).map (·.1) = List.range m ∧ m ≤ s.calls.length ∧
      (∀ i, (i, .error .assertion) ∉ results os) ∧
      consumed os = ((List.range (m + 1)).map fun i => (gotBy i os).flatten).flatten ∧
      ∀ i f, (i, .ok f) ∈ results os → ∃ h, gotBy i os = [h, f] ∧ h.length = 4 ∧ (0 ≤ unpackS h → unpackS h = f.length) := by
  obtain ⟨m, c, u⟩ := cinv_run cinv_init hr
  rw [List.nil_append] at c
  have := c.lock.le
  refine ⟨m, c.results, by rw [c.len]; exact c.lock.le, c.noassert, by rw [c.consumed]; simp [List.flatMap], fun i f hi => ?_⟩
  obtain ⟨h, h1, h2, h3⟩ := c.ok i f hi
  exact ⟨h, h1, h2, by omega⟩

/-- C56: as long as no call has failed and no header announces a negative length, what was read from the stream is the frames that the
calls returned, in the order of the calls, followed by what the call that is reading got. So the `n`-th call returns the `n`-th frame. -/
theorem tornado_frames {es : List TEvent} {s : Conn} {os : List TObs} (hr : ({} : Conn).run es = some (s, os)) {fs : List Bytes}
    (hok : (results os).map (·.2) = fs.map .ok) (hneg : ∀ i h bs, gotBy i os = h :: bs → 0 ≤ unpackS h) :
    results os = (List.range fs.length).zip (fs.map .ok) ∧
    consumed os = frames fs ++ (gotBy fs.length os).flatten := by
  obtain ⟨m, c, u⟩ := cinv_run cinv_init hr
  rw [List.nil_append] at c
  have hlen : fs.length = m := by
    have h1 := congrArg List.length hok
    have h2 := congrArg List.length c.results
    simp at h1 h2
    omega
  have hz : results os = (List.range fs.length).zip (fs.map .ok) := by
    rw [hlen, ← c.results, ← hok, List.zip_map']
    simp
  refine ⟨hz, ?_⟩
  rw [c.consumed, List.range_succ, List.flatMap_append, hlen]
  congr 1
  · rw [frames, List.flatMap_def]
    congr 1
    apply List.ext_getElem
    · simp [hlen]
    · intro i h1 h2
      simp only [List.length_map, List.length_range] at h1 h2
      have hmem : (i, Except.ok fs[i]) ∈ results os := by
        rw [hz, List.mem_iff_getElem]
        exact ⟨i, by simpa using h2, by simp⟩
      obtain ⟨h, e1, e2, e3⟩ := c.ok i fs[i] hmem
      have h0 := hneg i h _ e1
      have hu : unpackS h = fs[i].length := by omega
      have hb : beInt 4 fs[i].length = h := by
        have hrg := unpackS_range (b := h) (by omega)
        rw [e2, hu] at hrg
        have := packS_unpackS (b := h) (by omega)
        rw [e2, hu] at this
        rw [packS_eq (n := 4) (by unfold InRange; omega)] at this
        simpa using this
      simp [e1, frame, hb]
  · simp

/-- C56: reading never gets stuck: unless all calls have ended, the stream owes an answer, which it can give, or the first call that
has not ended can be resumed. -/
theorem tornado_no_stuck {es : List TEvent} {s : Conn} {os : List TObs} (hr : ({} : Conn).run es = some (s, os))
    (hopen : (results os).length < s.calls.length) :
    (∃ n, s.reading = some ((results os).length, n) ∧ (∀ f, (s.step (.fail f)).isSome) ∧
      ∀ b : Bytes, (b.length : Int) = n → (s.step (.data b)).isSome) ∨
    (s.reading = none ∧ (s.step (.resume (results os).length)).isSome) := by
  obtain ⟨m, c, u⟩ := cinv_run cinv_init hr
  rw [List.nil_append] at c u
  have hm : (results os).length = m := by simpa using congrArg List.length c.results
  rw [hm, c.len] at hopen
  rw [hm]
  cases u with
  | idle a b d => omega
  | waits a b d e f =>
    refine Or.inr ⟨d, ?_⟩
    have : m - 1 ∈ s.lock.set := (c.lock.set _).2 (by omega)
    simp [Conn.step, e, this]
  | header a b d e => exact Or.inl ⟨4, b, fun f => by simp [Conn.step, b], fun x hx => by simp [Conn.step, b, hx]⟩
  | body h a b d e f => exact Or.inl ⟨_, d, fun f => by simp [Conn.step, d], fun x hx => by simp [Conn.step, d, hx]⟩

/-! ## Writing -/

theorem sent_append (a b : List TObs) : sent (a ++ b) = sent a ++ sent b := by simp [sent]

/-- What the events other than `write` and `flush` leave alone. -/
theorem finish_write (s : Conn) (i : Nat) (r : Except Exc Bytes) : (s.finish i r).1.wbuf = s.wbuf ∧ sent (s.finish i r).2 = [] := by
  unfold Conn.finish
  split <;> simp [sent]

theorem ask_write (s : Conn) (i : Nat) (st : Call) (n : Int) : (s.ask i st n).1.wbuf = s.wbuf ∧ sent (s.ask i st n).2 = [] := by
  unfold Conn.ask
  split
  · exact finish_write s i _
  · simp [sent]

theorem goOn_write (s : Conn) (i : Nat) (b : Bytes) : (s.goOn i b).1.wbuf = s.wbuf ∧ sent (s.goOn i b).2 = [] := by
  unfold Conn.goOn
  split
  · split
    · exact finish_write s i _
    · exact ask_write s i _ _
  · exact finish_write s i _

theorem step_write {s s' : Conn} {e : TEvent} {o : List TObs} (hw : writeOps [e] = []) (hs : s.step e = some (s', o)) :
    s'.wbuf = s.wbuf ∧ sent o = [] := by
  cases e with
  | call =>
    simp only [Conn.step] at hs
    split at hs
    · rename_i l _
      simp only [Option.some.injEq] at hs
      have := ask_write { s with lock := l, calls := s.calls ++ [.header] } s.calls.length .header 4
      rw [hs] at this
      exact this
    · simp only [Option.some.injEq, Prod.mk.injEq] at hs
      obtain ⟨rfl, rfl⟩ := hs
      simp [sent]
  | resume i =>
    simp only [Conn.step] at hs
    split at hs
    · split at hs
      · simp only [Option.some.injEq] at hs
        have := ask_write s i .header 4
        rw [hs] at this
        exact this
      · simp at hs
    · simp at hs
  | data b =>
    simp only [Conn.step] at hs
    split at hs
    · simp at hs
    · rename_i i n _
      split at hs
      · simp only [Option.some.injEq, Prod.mk.injEq] at hs
        obtain ⟨rfl, rfl⟩ := hs
        have := goOn_write { s with reading := none } i b
        exact ⟨this.1, by simpa [sent] using this.2⟩
      · simp at hs
  | fail f =>
    simp only [Conn.step] at hs
    split at hs
    · simp at hs
    · rename_i i n _
      simp only [Option.some.injEq] at hs
      have := finish_write { s with reading := none } i (.error f.exc)
      rw [hs] at this
      exact this
  | write a => cases a <;> simp [writeOps] at hw
  | flush r => simp [writeOps] at hw

theorem flush_step (s : Conn) (r : Option Fail) :
    s.step (.flush r) = some (s.send (packS 4 s.wbuf.value.length) s.wbuf.value r) := rfl

theorem send_ok (s : Conn) (h f : Bytes) :
    s.send (.ok h) f none = ({ s with wbuf := BytesIO.of [] }, [.sent (h ++ f), .done (.ok ())]) := rfl

theorem send_failed (s : Conn) (h f : Bytes) (x : Fail) :
    s.send (.ok h) f (some x) = ({ s with wbuf := BytesIO.of [] }, [.done (.error x.exc)]) := rfl

theorem sends_run : ∀ {es : List TEvent} {s s' : Conn} {os : List TObs}, s.wbuf.pos = s.wbuf.value.length →
    (∀ f, .flush (some f) ∉ es) → (∀ b ∈ (batches false s.wbuf.value (writeOps es)).1, b.length < 2 ^ 31) → s.run es = some (s', os) →
    sent os = (batches false s.wbuf.value (writeOps es)).1.map frame ∧ s'.wbuf.value = (batches false s.wbuf.value (writeOps es)).2
  | [], s, s', os, hp, hf, hl, hr => by
    simp only [Conn.run, Option.some.injEq, Prod.mk.injEq] at hr
    obtain ⟨rfl, rfl⟩ := hr
    simp [sent, writeOps, batches]
  | e :: es, s, s', os, hp, hf, hl, hr => by
    simp only [Conn.run] at hr
    split at hr
    · simp at hr
    · rename_i s1 o hs
      split at hr
      · simp at hr
      · rename_i s2 os2 hr2
        simp only [Option.some.injEq, Prod.mk.injEq] at hr
        obtain ⟨rfl, rfl⟩ := hr
        have hf' : ∀ f, .flush (some f) ∉ es := fun f h => hf f (List.mem_cons_of_mem _ h)
        rw [sent_append]
        have other : writeOps [e] = [] → writeOps (e :: es) = writeOps es → sent o ++ sent os2 =
            (batches false s.wbuf.value (writeOps (e :: es))).1.map frame ∧ s2.wbuf.value = (batches false s.wbuf.value (writeOps (e :: es))).2 := by
          intro h1 h2
          obtain ⟨g1, g2⟩ := step_write h1 hs
          rw [h2] at hl ⊢
          rw [← g1] at hl hp
          have := sends_run hp hf' hl hr2
          rw [g2, List.nil_append, ← g1]
          exact this
        cases e with
        | call => exact other rfl rfl
        | resume i => exact other rfl rfl
        | data b => exact other rfl rfl
        | fail f => exact other rfl rfl
        | write a =>
          cases a with
          | bytes b =>
            simp only [Conn.step, Option.some.injEq, Prod.mk.injEq] at hs
            obtain ⟨rfl, rfl⟩ := hs
            obtain ⟨g1, g2, -⟩ := s.wbuf.write_end b hp
            have e1 : writeOps (.write (.bytes b) :: es) = .write b :: writeOps es := rfl
            rw [e1] at hl ⊢
            simp only [batches, ← g1] at hl ⊢
            have := sends_run (s := { s with wbuf := s.wbuf.write b }) g2 hf' hl hr2
            simpa [sent] using this
          | other =>
            simp only [Conn.step, Option.some.injEq, Prod.mk.injEq] at hs
            obtain ⟨rfl, rfl⟩ := hs
            have e1 : writeOps (.write .other :: es) = .bad :: writeOps es := rfl
            rw [e1] at hl ⊢
            simp only [batches, Bool.false_eq_true, if_false] at hl ⊢
            have := sends_run hp hf' hl hr2
            simpa [sent] using this
        | flush r =>
          cases r with
          | some f => exact absurd List.mem_cons_self (hf f)
          | none =>
            have e1 : writeOps (.flush none :: es) = .flush :: writeOps es := rfl
            rw [e1] at hl ⊢
            simp only [batches, List.mem_cons, forall_eq_or_imp] at hl ⊢
            rw [flush_step, packS_len hl.1, send_ok] at hs
            simp only [Option.some.injEq, Prod.mk.injEq] at hs
            obtain ⟨rfl, rfl⟩ := hs
            have := sends_run (s := { s with wbuf := BytesIO.of [] }) rfl hf' hl.2 hr2
            simp only [BytesIO.of] at this
            refine ⟨?_, this.2⟩
            rw [this.1]
            simp [sent, frame]

/-- C56: every flush gives the stream, in one call, one frame with exactly what was written since the previous flush, whatever is being
read at the same time; what was written after the last flush is kept. -/
theorem tornado_flushes {es : List TEvent} {s : Conn} {os : List TObs} (hr : ({} : Conn).run es = some (s, os))
    (hf : ∀ f, .flush (some f) ∉ es) (hl : ∀ b ∈ (batches false [] (writeOps es)).1, b.length < 2 ^ 31) :
    sent os = (batches false [] (writeOps es)).1.map frame ∧ s.wbuf.value = (batches false [] (writeOps es)).2 :=
  sends_run (s := {}) rfl hf hl hr

/-- C56: a flush that the stream refuses drops what was written, so that the next frame starts afresh; the error is a
`TTransportException` for an `IOError` (also for a closed stream) and for a full buffer. -/
theorem tornado_flush_fails (s : Conn) (f : Fail) (hl : s.wbuf.value.length < 2 ^ 31) :
    s.step (.flush (some f)) = some ({ s with wbuf := BytesIO.of [] }, [.done (.error (match f with
      | .io => TTransportException.END_OF_FILE
      | .bufferFull => TTransportException.UNKNOWN
      | .other n => .user n))]) := by
  rw [flush_step, packS_len hl, send_failed]
  cases f <;> rfl

/-- C56: a read that the stream refuses ends the call with the same errors, and the lock is free again: the next call goes on. -/
theorem tornado_read_fails {es : List TEvent} {s : Conn} {os : List TObs} (hr : ({} : Conn).run es = some (s, os)) {i : Nat} {n : Int}
    (hread : s.reading = some (i, n)) (f : Fail) :
    ∃ s', s.step (.fail f) = some (s', [.ended i (.error (match f with
      | .io => TTransportException.END_OF_FILE
      | .bufferFull => TTransportException.UNKNOWN
      | .other n => .user n))]) ∧ s'.reading = none ∧
      (i + 1 < s.calls.length → (s'.step (.resume (i + 1))).isSome) ∧
      (i + 1 = s.calls.length → ∃ s'', s'.step .call = some (s'', []) ∧ s''.reading = some (i + 1, 4)) := by
  obtain ⟨m, h⟩ := cinv_run cinv_init hr
  rw [List.nil_append] at h
  obtain ⟨c, u⟩ := h
  have him : i = m ∧ m < s.lock.made := by
    cases u with
    | idle a b d => rw [b] at hread; simp at hread
    | waits a b d e f => rw [d] at hread; simp at hread
    | header a b d e => rw [b] at hread; simp at hread; exact ⟨hread.1.symm, a⟩
    | body x a b d e f => rw [d] at hread; simp at hread; exact ⟨hread.1.symm, a⟩
  obtain ⟨rfl, hm⟩ := him
  obtain ⟨l', g1, g2, g3⟩ := c.lock.release hm
  have hlen := c.len
  refine ⟨{ s with reading := none, lock := l', calls := s.calls.set i .over }, ?_, rfl, ?_, ?_⟩
  · simp only [Conn.step, hread, Conn.finish, g1]
    cases f <;> rfl
  · intro hi
    have h1 := c.later (i + 1) (by omega) (by omega)
    have h2 : i ∈ l'.set := (g2.set i).2 (by omega)
    simp only [Conn.step]
    rw [List.getElem?_set_ne (by omega), h1]
    simp [h2]
  · intro hi
    obtain ⟨k1, k2, k3⟩ := g2.acquire
    rw [if_neg (by omega)] at k3
    simp only [Conn.step]
    rw [show l'.acquire = (l'.acquire.1, none) from Prod.ext rfl k3]
    simp [Conn.ask, hi]

theorem conn_of_check {es : List TEvent} {P : Conn → List TObs → Prop} [∀ s os, Decidable (P s os)]
    (h : (match ({} : Conn).run es with | some (s, os) => decide (P s os) | none => false) = true) :
    ∃ s os, ({} : Conn).run es = some (s, os) ∧ P s os := by
  cases hr : ({} : Conn).run es with
  | none => rw [hr] at h; simp at h
  | some x =>
    obtain ⟨s, os⟩ := x
    rw [hr] at h
    exact ⟨s, os, rfl, by simpa using h⟩

/-- Three calls at the same time: the first two read a frame, the third gets a header; a frame is written meanwhile. -/
example : ∃ s os, ({} : Conn).run [.call, .call, .data [0, 0, 0, 2], .write (.bytes [1]), .data [7, 8], .call, .write (.bytes [2]),
      .flush none, .resume 1, .data [0, 0, 0, 0], .data [], .resume 2, .data [0, 0, 0, 9]] = some (s, os) ∧
    (os = [.got 0 [0, 0, 0, 2], .done (.ok ()), .got 0 [7, 8], .ended 0 (.ok [7, 8]), .done (.ok ()), .sent [0, 0, 0, 2, 1, 2], .done (.ok ()),
      .got 1 [0, 0, 0, 0], .got 1 [], .ended 1 (.ok []), .got 2 [0, 0, 0, 9]] ∧ s.reading = some (2, 9) ∧ s.calls.length = 3 ∧
      (results os).map (·.2) = [[7, 8], []].map .ok ∧ (results os).length < s.calls.length) :=
  conn_of_check (by decide +kernel)

end Thrift.Tornado
