import Verif.Spec.Tornado
/-
C43: the lock of the Tornado transport.
-/

namespace Thrift.Tornado
open Spec.Tornado

/-- The state of the lock after `m` releases and `n` calls of `acquire`. -/
structure LockInv (l : Lock) (m : Nat) : Prop where
  le : m ≤ l.made
  waiters : l.waiters = List.range' m (l.made - m)
  set : ∀ j, j ∈ l.set ↔ j < m

/-- Where coroutine `j` is, when `m` have left and `k` were let in. -/
def taskAt (m k j : Nat) : Task := if j < m then .left else if j < k then .inside else .waiting (j - 1)

structure Inv (s : St) (os : List Obs) (m k : Nat) : Prop where
  lock : LockInv s.lock m
  left_le : m ≤ k
  km : k ≤ m + 1
  kn : k ≤ s.lock.made
  first : 0 < s.lock.made → 0 < k
  tasks : s.tasks = (List.range s.lock.made).map (taskAt m k)
  granted : granted os = List.range k
  released : released os = List.range m
  failed : ∀ i, .failed i ∉ os

theorem LockInv.acquire {l : Lock} {m : Nat} (h : LockInv l m) :
    LockInv l.acquire.1 m ∧ l.acquire.1.made = l.made + 1 ∧ l.acquire.2 = if m < l.made then some (l.made - 1) else none := by
  have hle := h.le
  refine ⟨⟨by simp [Lock.acquire]; omega, ?_, h.set⟩, rfl, ?_⟩
  · simp only [Lock.acquire]
    rw [h.waiters, show l.made + 1 - m = (l.made - m) + 1 by omega, List.range'_concat]
    simp
    omega
  · simp only [Lock.acquire, Lock.acquired, h.waiters, List.length_range']
    by_cases hm : m < l.made
    · obtain ⟨d, hd⟩ : ∃ d, l.made - m = d + 1 := ⟨l.made - m - 1, by omega⟩
      rw [hd, List.range'_concat]
      simp [hm]
      omega
    · simp [hm, show l.made - m = 0 by omega]

theorem LockInv.release {l : Lock} {m : Nat} (h : LockInv l m) (hm : m < l.made) :
    ∃ l', l.release = .ok l' ∧ LockInv l' (m + 1) ∧ l'.made = l.made := by
  obtain ⟨d, hd⟩ : ∃ d, l.made - m = d + 1 := ⟨l.made - m - 1, by omega⟩
  have hw := h.waiters
  rw [hd, List.range'_succ] at hw
  refine ⟨{ l with waiters := List.range' (m + 1) d, set := m :: l.set }, by simp [Lock.release, hw], ⟨Nat.succ_le_of_lt hm, ?_, ?_⟩, rfl⟩
  · simp only
    rw [show l.made - (m + 1) = d by omega]
  · intro j
    simp only [List.mem_cons, h.set]
    omega

theorem getElem?_taskAt {n m k i : Nat} {t : Task} (h : ((List.range n).map (taskAt m k))[i]? = some t) : i < n ∧ t = taskAt m k i := by
  rw [List.getElem?_map] at h
  rcases Nat.lt_or_ge i n with hi | hi
  · rw [List.getElem?_range hi] at h
    simp at h
    exact ⟨hi, h.symm⟩
  · rw [List.getElem?_eq_none (by simpa using hi)] at h
    simp at h

theorem set_taskAt {n m k i m' k' : Nat} {t : Task} (ht : t = taskAt m' k' i)
    (h : ∀ j, j ≠ i → taskAt m k j = taskAt m' k' j) :
    ((List.range n).map (taskAt m k)).set i t = (List.range n).map (taskAt m' k') := by
  apply List.ext_getElem
  · simp
  · intro j h1 h2
    simp only [List.length_map, List.length_range] at h2
    rw [List.getElem_set]
    split
    · rename_i e; subst e; simp [ht]
    · rename_i e; simpa using h j (fun e' => e e'.symm)

theorem inv_step {s s' : St} {e : Event} {os o : List Obs} {m k : Nat} (h : Inv s os m k) (hs : s.step e = some (s', o)) :
    ∃ m' k', Inv s' (os ++ o) m' k' := by
  have gapp : ∀ (a b : List Obs), Spec.Tornado.granted (a ++ b) = Spec.Tornado.granted a ++ Spec.Tornado.granted b := fun a b => by
    simp [Spec.Tornado.granted]
  have rapp : ∀ (a b : List Obs), Spec.Tornado.released (a ++ b) = Spec.Tornado.released a ++ Spec.Tornado.released b := fun a b => by
    simp [Spec.Tornado.released]
  obtain ⟨hl, h1, h2, h3, h4, h5, h6, h7, h8⟩ := h
  have hle := hl.le
  cases e with
  | acquire =>
    obtain ⟨g1, g2, g3⟩ := hl.acquire
    simp only [St.step] at hs
    by_cases hm : m < s.lock.made
    · rw [if_pos hm] at g3
      rw [show s.lock.acquire = (s.lock.acquire.1, some (s.lock.made - 1)) from Prod.ext rfl g3] at hs
      simp only [Option.some.injEq, Prod.mk.injEq] at hs
      obtain ⟨rfl, rfl⟩ := hs
      refine ⟨m, k, g1, h1, h2, by simp only [g2]; omega, fun _ => h4 (by omega), ?_, by simpa using h6, by simpa using h7, by simpa using h8⟩
      simp only [g2, List.range_succ, List.map_append, h5, List.map_cons, List.map_nil]
      have : taskAt m k s.lock.made = .waiting (s.lock.made - 1) := by
        simp only [taskAt]
        rw [if_neg (by omega), if_neg (by omega)]
      rw [this]
    · rw [if_neg hm] at g3
      rw [show s.lock.acquire = (s.lock.acquire.1, none) from Prod.ext rfl g3] at hs
      simp only [Option.some.injEq, Prod.mk.injEq] at hs
      obtain ⟨rfl, rfl⟩ := hs
      have hk : k = s.lock.made := by omega
      refine ⟨m, k + 1, g1, by omega, by omega, by simp only [g2]; omega, fun _ => by omega, ?_, ?_, ?_, ?_⟩
      · simp only [g2, List.range_succ, List.map_append, h5, List.map_cons, List.map_nil]
        congr 1
        · apply List.map_congr_left
          intro j hj
          simp only [List.mem_range] at hj
          simp only [taskAt]
          split
          · rfl
          · simp [show j < k by omega, show j < k + 1 by omega]
        · have : taskAt m (k + 1) s.lock.made = .inside := by
            simp only [taskAt]
            rw [if_neg (by omega), if_pos (by omega)]
          rw [this]
      · rw [gapp, h6, List.range_succ]; simp [Spec.Tornado.granted, hk]
      · rw [rapp, h7]; simp [Spec.Tornado.released]
      · intro i hi
        simp only [List.mem_append, List.mem_singleton, reduceCtorEq, or_false] at hi
        exact h8 i hi
  | resume i =>
    simp only [St.step, h5] at hs
    split at hs
    · rename_i b hb
      obtain ⟨hi, hb⟩ := getElem?_taskAt hb
      split at hs
      · rename_i hset
        simp only [Option.some.injEq, Prod.mk.injEq] at hs
        obtain ⟨rfl, rfl⟩ := hs
        rw [hl.set] at hset
        have hw : ¬ i < m ∧ ¬ i < k ∧ b = i - 1 := by
          simp only [taskAt] at hb
          split at hb
          · simp at hb
          · split at hb
            · simp at hb
            · exact ⟨by assumption, by assumption, by simpa using hb⟩
        have h0 : 0 < k := h4 (by omega)
        have hik : i = k ∧ k = m := by omega
        obtain ⟨rfl, hkm⟩ := hik
        refine ⟨m, i + 1, hl, by omega, by omega, Nat.succ_le_of_lt hi, fun _ => by omega, ?_, ?_, ?_, ?_⟩
        · refine set_taskAt ?_ ?_
          · simp [taskAt]; omega
          · intro j hj; simp only [taskAt]; grind
        · rw [gapp, h6, List.range_succ]; simp [Spec.Tornado.granted]
        · rw [rapp, h7]; simp [Spec.Tornado.released]
        · intro i hi
          simp only [List.mem_append, List.mem_singleton, reduceCtorEq, or_false] at hi
          exact h8 i hi
      · simp at hs
    · simp at hs
  | leave i =>
    simp only [St.step, h5] at hs
    split at hs
    · rename_i hb
      obtain ⟨hi, hb⟩ := getElem?_taskAt hb
      have hw : ¬ i < m ∧ i < k := by
        simp only [taskAt] at hb
        split at hb
        · simp at hb
        · split at hb
          · exact ⟨by assumption, by assumption⟩
          · simp at hb
      have him : i = m := by omega
      subst him
      obtain ⟨l', g1, g2, g3⟩ := hl.release hi
      rw [g1] at hs
      simp only [Option.some.injEq, Prod.mk.injEq] at hs
      obtain ⟨rfl, rfl⟩ := hs
      refine ⟨i + 1, k, g2, by omega, by omega, by simp only [g3]; omega, fun _ => by omega, ?_, ?_, ?_, ?_⟩
      · simp only [g3]
        refine set_taskAt ?_ ?_
        · simp [taskAt]
        · intro j hj; simp only [taskAt]; grind
      · rw [gapp, h6]; simp [Spec.Tornado.granted]
      · rw [rapp, h7, List.range_succ]; simp [Spec.Tornado.released]
      · intro i hi
        simp only [List.mem_append, List.mem_singleton, reduceCtorEq, or_false] at hi
        exact h8 i hi
    · simp at hs

theorem inv_run : ∀ {es : List Event} {s s' : St} {os os' : List Obs} {m k : Nat}, Inv s os m k → s.run es = some (s', os') →
    ∃ m' k', Inv s' (os ++ os') m' k'
  | [], s, s', os, os', m, k, h, hr => by
    simp only [St.run, Option.some.injEq, Prod.mk.injEq] at hr
    obtain ⟨rfl, rfl⟩ := hr
    exact ⟨m, k, by simpa using h⟩
  | e :: es, s, s', os, os', m, k, h, hr => by
    simp only [St.run] at hr
    split at hr
    · simp at hr
    · rename_i s1 o hs
      split at hr
      · simp at hr
      · rename_i s2 os2 hr2
        simp only [Option.some.injEq, Prod.mk.injEq] at hr
        obtain ⟨rfl, rfl⟩ := hr
        obtain ⟨m1, k1, h1⟩ := inv_step h hs
        obtain ⟨m2, k2, h2⟩ := inv_run h1 hr2
        exact ⟨m2, k2, by rw [← List.append_assoc]; exact h2⟩

theorem inv_init : Inv {} [] 0 0 :=
  ⟨⟨by simp, by simp, by simp⟩, by simp, by simp, by simp, by simp, by simp, by simp [granted], by simp [released], by simp⟩

/-- C43: in every history coroutines are let in in the order in which they called `acquire`, they leave in that order, and a coroutine
is let in only after all before it have left: at most one is inside. The assertion in `release` never fails. -/
theorem lock_exclusive_fifo {es : List Event} {s : St} {os : List Obs} (hr : ({} : St).run es = some (s, os)) :
    ∃ m k, granted os = List.range k ∧ released os = List.range m ∧ m ≤ k ∧ k ≤ m + 1 ∧ ∀ i, .failed i ∉ os := by
  obtain ⟨m, k, h⟩ := inv_run inv_init hr
  rw [List.nil_append] at h
  exact ⟨m, k, h.granted, h.released, h.left_le, h.km, h.failed⟩

/-- C43: the coroutine is inside exactly between being let in and leaving. -/
theorem lock_inside {es : List Event} {s : St} {os : List Obs} (hr : ({} : St).run es = some (s, os)) (i : Nat) :
    s.tasks[i]? = some .inside ↔ i ∈ granted os ∧ i ∉ released os := by
  obtain ⟨m, k, h⟩ := inv_run inv_init hr
  rw [List.nil_append] at h
  rw [h.granted, h.released, h.tasks]
  simp only [List.mem_range]
  have := h.kn
  constructor
  · intro hi
    obtain ⟨h1, h2⟩ := getElem?_taskAt hi
    simp only [taskAt] at h2
    split at h2
    · simp at h2
    · split at h2
      · omega
      · simp at h2
  · rintro ⟨h1, h2⟩
    rw [List.getElem?_map, List.getElem?_range (by omega)]
    simp [taskAt, h1, h2]

/-- C43, no lost wake-up: a coroutine that has called `acquire` and was not let in although all before it have left can be
resumed by the event loop, and is then inside. -/
theorem lock_no_lost_wakeup {es : List Event} {s : St} {os : List Obs} (hr : ({} : St).run es = some (s, os)) {i : Nat}
    (hi : i < s.tasks.length) (hbefore : ∀ j, j < i → j ∈ released os) (hnot : i ∉ granted os) :
    ∃ s', s.step (.resume i) = some (s', [.granted i]) ∧ s'.tasks[i]? = some .inside := by
  obtain ⟨m, k, h⟩ := inv_run inv_init hr
  rw [List.nil_append] at h
  rw [h.granted, List.mem_range] at hnot
  have hb : ∀ j, j < i → j < m := fun j hj => by simpa [h.released] using hbefore j hj
  have hlen : i < s.lock.made := by simpa [h.tasks] using hi
  have h0 : 0 < k := h.first (by omega)
  have hi0 : 0 < i := by omega
  have h1 := hb (i - 1) (by omega)
  have h2 := h.left_le
  have ht : s.tasks[i]? = some (.waiting (i - 1)) := by
    rw [h.tasks, List.getElem?_map, List.getElem?_range hlen]
    simp [taskAt, hnot, show ¬ i < m by omega]
  refine ⟨{ s with tasks := s.tasks.set i .inside }, ?_, by simp [hi]⟩
  simp [St.step, ht, h.lock.set, h1]

/-- C43: a coroutine that is inside can always leave; and when all have left, the next `acquire` succeeds at once. -/
theorem lock_leave_and_free {es : List Event} {s : St} {os : List Obs} (hr : ({} : St).run es = some (s, os)) :
    (∀ i, s.tasks[i]? = some .inside → ∃ s', s.step (.leave i) = some (s', [.released i])) ∧
    ((∀ j, j < s.tasks.length → j ∈ released os) → ∃ s', s.step .acquire = some (s', [.granted s.tasks.length])) := by
  obtain ⟨m, k, h⟩ := inv_run inv_init hr
  rw [List.nil_append] at h
  constructor
  · intro i hi
    have h1 := (lock_inside hr i).1 hi
    rw [h.granted, h.released] at h1
    simp only [List.mem_range] at h1
    have h2 := h.km
    have h3 := h.kn
    obtain ⟨l', g1, -⟩ := h.lock.release (by omega : m < s.lock.made)
    simp [St.step, hi, g1]
  · intro hall
    have hlen : s.tasks.length = s.lock.made := by simp [h.tasks]
    have hm : ¬ m < s.lock.made := by
      intro hm
      have := hall m (by omega)
      rw [h.released] at this
      simp at this
    obtain ⟨g1, g2, g3⟩ := h.lock.acquire
    rw [if_neg hm] at g3
    simp only [St.step]
    rw [show s.lock.acquire = (s.lock.acquire.1, none) from Prod.ext rfl g3, hlen]
    exact ⟨_, rfl⟩

/-- Three coroutines; the third calls `acquire` after the first has left and before the second is resumed. -/
example : ∃ s, ({} : St).run [.acquire, .acquire, .leave 0, .acquire, .resume 1, .leave 1, .acquire] =
    some (s, [.granted 0, .released 0, .granted 1, .released 1]) ∧ s.tasks.length = 4 ∧
    (∀ j, j < 2 → j ∈ released [.granted 0, .released 0, .granted 1, .released 1]) ∧ 2 ∉ granted [.granted 0, .released 0, .granted 1, .released 1] :=
  ⟨_, rfl, by decide +kernel, by decide +kernel, by decide +kernel⟩

end Thrift.Tornado
