import Verif.Spec.Decorator
/-
Property C98: decorated protocol objects.
-/

namespace Thrift.Decorator
open Spec.Decorator

theorem merge_step {n : Nat} {ls : List (List Cls)} {c : Cls} (h : ls.all (·.isEmpty) = false) (hc : candidate ls ls = some c) :
    merge (n + 1) ls = (merge n (ls.map fun l => if l.head? = some c then l.tail else l)).map (c :: ·) := by
  rw [merge.eq_def, if_neg (by rw [h]; simp)]
  dsimp only
  rw [hc]

/-- `object` stays at the end. -/
theorem merge_object {l t : List Cls} (hn : l.Nodup) (hl : l.getLast? = some .object) (ht : t = [] ∨ ∃ l', ∃ x, l = x :: l' ∧ t = [x]) {n : Nat} (h : l.length ≤ n) :
    merge n [[.object], l, t] = some l := by
  induction l generalizing t n with
  | nil => cases hl
  | cons x l ih =>
    obtain ⟨n, rfl⟩ : ∃ m, n = m + 1 := ⟨n - 1, by simp only [List.length_cons] at h; omega⟩
    have hn' := List.nodup_cons.1 hn
    have ht' : t = [] ∨ t = [x] := by
      rcases ht with h | ⟨l', y, e, h⟩
      · exact .inl h
      · injection e with e _
        subst e
        exact .inr h
    have hc : candidate [[.object], x :: l, t] [[.object], x :: l, t] = some x := by
      by_cases hx : x = .object
      · subst hx
        rw [candidate, if_neg]
        simp only [List.any_cons, List.tail_cons, List.any_nil, Bool.or_false, Bool.or_eq_true, List.contains_iff_mem, not_or]
        exact ⟨by simp, hn'.1, by rcases ht' with h | h <;> simp [h]⟩
      · have hm : Cls.object ∈ l := by
          have := List.mem_of_getLast? hl
          rcases List.mem_cons.1 this with h | h
          · exact absurd h.symm hx
          · exact h
        rw [candidate, if_pos (by simp [hm]), candidate, if_neg]
        simp only [List.any_cons, List.tail_cons, List.any_nil, Bool.or_false, Bool.or_eq_true, List.contains_iff_mem, not_or]
        exact ⟨by simp, hn'.1, by rcases ht' with h | h <;> simp [h]⟩
    rw [merge_step (by simp) hc]
    have et : (if t.head? = some x then t.tail else t) = [] := by rcases ht' with h | h <;> simp [h]
    simp only [List.map_cons, List.map_nil, et, List.head?_cons, if_pos, List.tail_cons, Option.some.injEq]
    by_cases hx : x = .object
    · subst hx
      have : l = [] := by
        cases l with
        | nil => rfl
        | cons y l =>
          have : Cls.object ∈ y :: l := List.mem_of_getLast? (by rw [← hl]; simp [List.getLast?_cons_cons])
          exact absurd this hn'.1
      subst this
      rw [if_pos rfl, merge.eq_def]
      rfl
    · have hl' : l.getLast? = some .object := by
        cases l with
        | nil =>
          rw [List.getLast?_singleton] at hl
          injection hl with hl
          exact absurd hl hx
        | cons y l => rw [← hl]; simp [List.getLast?_cons_cons]
      rw [if_neg (Ne.symm hx), ih hn'.2 hl' (.inl rfl) (by simp only [List.length_cons] at h; omega)]
      rfl

/-- A `TProtocolDecorator` that is already there stays where it is. -/
theorem merge_decorator {l t : List Cls} (hn : l.Nodup) (hl : l.getLast? = some .object) (hd : Cls.decorator ∈ l) (ht : t = [] ∨ ∃ l', ∃ x, l = x :: l' ∧ t = [x]) {n : Nat} (h : l.length ≤ n) :
    merge n [[.decorator, .object], l, t] = some l := by
  induction l generalizing t n with
  | nil => cases hl
  | cons x l ih =>
    obtain ⟨n, rfl⟩ : ∃ m, n = m + 1 := ⟨n - 1, by simp only [List.length_cons] at h; omega⟩
    have hn' := List.nodup_cons.1 hn
    have ht' : t = [] ∨ t = [x] := by
      rcases ht with h | ⟨l', y, e, h⟩
      · exact .inl h
      · injection e with e _
        subst e
        exact .inr h
    have hl' : l ≠ [] → l.getLast? = some .object := by
      intro hne
      cases l with
      | nil => exact absurd rfl hne
      | cons y l => rw [← hl]; simp [List.getLast?_cons_cons]
    have hne : l ≠ [] := by
      rintro rfl
      rw [List.getLast?_singleton] at hl
      injection hl with hl
      subst hl
      simp at hd
    have hxo : x ≠ .object := by
      rintro rfl
      exact hn'.1 (List.mem_of_getLast? (hl' hne))
    have hc : candidate [[.decorator, .object], x :: l, t] [[.decorator, .object], x :: l, t] = some x := by
      by_cases hx : x = .decorator
      · subst hx
        rw [candidate, if_neg]
        simp only [List.any_cons, List.tail_cons, List.any_nil, Bool.or_false, Bool.or_eq_true, List.contains_iff_mem, not_or]
        exact ⟨by simp, hn'.1, by rcases ht' with h | h <;> simp [h]⟩
      · have hm : Cls.decorator ∈ l := by
          rcases List.mem_cons.1 hd with h | h
          · exact absurd h.symm hx
          · exact h
        rw [candidate, if_pos (by simp [hm]), candidate, if_neg]
        simp only [List.any_cons, List.tail_cons, List.any_nil, Bool.or_false, Bool.or_eq_true, List.contains_iff_mem, not_or]
        exact ⟨by simp [hxo], hn'.1, by rcases ht' with h | h <;> simp [h]⟩
    rw [merge_step (by simp) hc]
    have et : (if t.head? = some x then t.tail else t) = [] := by rcases ht' with h | h <;> simp [h]
    simp only [List.map_cons, List.map_nil, et, List.head?_cons, if_pos, List.tail_cons, Option.some.injEq]
    by_cases hx : x = .decorator
    · subst hx
      rw [if_pos rfl, merge_object hn'.2 (hl' hne) (.inl rfl) (by simp only [List.length_cons] at h; omega)]
      rfl
    · have hm : Cls.decorator ∈ l := by
        rcases List.mem_cons.1 hd with h | h
        · exact absurd h.symm hx
        · exact h
      rw [if_neg (Ne.symm hx), ih hn'.2 (hl' hne) hm (.inl rfl) (by simp only [List.length_cons] at h; omega)]
      rfl

/-- An object can be decorated unless it is decorated by the same class; the methods of the decorator then come first, and after them those of the object as before. -/
theorem decorate_some {d p : Cls} (hd : IsDecorator d) {mro : List Cls} (hm : Linear (p :: mro)) (h : d ∉ p :: mro) :
    decorate d (p :: mro) = some (.decorated d p :: d :: ((if .decorator ∈ p :: mro then [] else [.decorator]) ++ p :: mro)) := by
  obtain ⟨hn, hl, hmore⟩ := hm
  have hdd : d ≠ .decorator ∧ d ≠ .object := by rcases hd with h | h <;> simp [h]
  have hne : mro ≠ [] := by
    rintro rfl
    rw [List.getLast?_singleton] at hl
    injection hl with hl
    subst hl
    exact hmore rfl
  have hdp : d ≠ p := fun e => h (by simp [e])
  have hdm : d ∉ mro := fun e => h (by simp [e])
  have hpm := (List.nodup_cons.1 hn).1
  have len : [ownMro d, p :: mro, [d, p]].flatten.length = (mro.length + 5) + 1 := by simp [ownMro]
  rw [decorate, len]
  have hc : candidate [ownMro d, p :: mro, [d, p]] [ownMro d, p :: mro, [d, p]] = some d := by
    rw [ownMro, candidate, if_neg]
    simp [hdd.1, hdd.2, hdm, hdp]
  rw [merge_step (by simp [ownMro]) hc]
  have e1 : [ownMro d, p :: mro, [d, p]].map (fun l => if l.head? = some d then l.tail else l) = [[.decorator, .object], p :: mro, [p]] := by
    simp [ownMro, Ne.symm hdp]
  rw [e1]
  by_cases hdec : Cls.decorator ∈ p :: mro
  · rw [merge_decorator hn hl hdec (.inr ⟨mro, p, rfl, rfl⟩) (by simp), if_pos hdec]
    rfl
  · have hdec' : Cls.decorator ∉ mro := fun e => hdec (by simp [e])
    have hc2 : candidate [[.decorator, .object], p :: mro, [p]] [[.decorator, .object], p :: mro, [p]] = some .decorator := by
      rw [candidate, if_neg]
      simp [hdec']
    rw [if_neg hdec, merge_step (by simp) hc2]
    have hpd : p ≠ .decorator := fun e => hdec (by simp [e])
    have e2 : [[Cls.decorator, .object], p :: mro, [p]].map (fun l => if l.head? = some .decorator then l.tail else l) = [[.object], p :: mro, [p]] := by
      simp [hpd]
    rw [e2, merge_object hn hl (.inr ⟨mro, p, rfl, rfl⟩) (by simp)]
    rfl

/-- Otherwise Python cannot make the class. -/
theorem decorate_none {d : Cls} {mro : List Cls} (h : d ∈ mro) : decorate d mro = none := by
  obtain ⟨p, mro, rfl⟩ : ∃ p m, mro = p :: m := by
    cases mro with
    | nil => cases h
    | cons p m => exact ⟨p, m, rfl⟩
  rw [decorate]
  have hc : candidate [ownMro d, p :: mro, [d, p]] [ownMro d, p :: mro, [d, p]] = none := by
    rcases List.mem_cons.1 h with rfl | h
    · rw [ownMro, candidate, if_pos (by simp), candidate, if_pos (by simp), candidate, if_pos (by simp), candidate]
    · rw [ownMro, candidate, if_pos (by simp [h]), candidate, if_pos (by simp), candidate, if_pos (by simp [h]), candidate]
  have : merge ([ownMro d, p :: mro, [d, p]].flatten.length) [ownMro d, p :: mro, [d, p]] = none := by
    rw [merge.eq_def, if_neg (by simp [ownMro])]
    split
    · rfl
    · rw [hc]
  rw [this]
  rfl

theorem linear_decorate {d : Cls} (hd : IsDecorator d) {mro mro' : List Cls} (hm : Linear mro) (hfresh : ∀ p, Cls.decorated d p ∉ mro) (h : decorate d mro = some mro') : Linear mro' := by
  obtain ⟨p, mro, rfl⟩ : ∃ p m, mro = p :: m := by
    cases mro with
    | nil => cases hm.last
    | cons p m => exact ⟨p, m, rfl⟩
  by_cases hin : d ∈ p :: mro
  · rw [decorate_none hin] at h
    cases h
  · rw [decorate_some hd hm hin] at h
    injection h with h
    subst h
    have hdd : d ≠ .decorator ∧ d ≠ .object := by rcases hd with h | h <;> simp [h]
    have hself : Cls.decorated d p ≠ d := by rcases hd with h | h <;> simp [h]
    refine ⟨?_, ?_, by simp⟩
    · have h1 := hfresh p
      have h2 := hm.nodup
      split
      · rw [List.nil_append, List.nodup_cons, List.nodup_cons]
        exact ⟨by simp only [List.mem_cons, not_or] at h1 ⊢; exact ⟨hself, h1⟩, hin, h2⟩
      · rename_i h3
        rw [List.nodup_cons, List.nodup_cons, List.singleton_append, List.nodup_cons]
        refine ⟨?_, ?_, h3, h2⟩
        · rw [List.mem_cons, List.mem_cons]
          rintro (h | h | h)
          · exact hself h
          · cases h
          · exact h1 h
        · rw [List.mem_cons]
          rintro (h | h)
          · exact hdd.1 h
          · exact hin h
    · have := hm.last
      split
      · simpa [List.getLast?_cons_cons] using this
      · simpa [List.getLast?_cons_cons] using this

theorem decorate_iff {d : Cls} (hd : IsDecorator d) {mro : List Cls} (hm : Linear mro) : decorate d mro = none ↔ d ∈ mro := by
  refine ⟨fun h => ?_, decorate_none⟩
  obtain ⟨p, mro, rfl⟩ : ∃ p m, mro = p :: m := by
    cases mro with
    | nil => cases hm.last
    | cons p m => exact ⟨p, m, rfl⟩
  apply Classical.byContradiction
  intro hn
  rw [decorate_some hd hm hn] at h
  cases h

/-- The methods of a decorated object: its own attributes are those that the object had when it was decorated (`own`); then come the methods of the decorator, and then everything is as in the object. And in a
method of the decorator, `super` is the object. -/
theorem methods {d : Cls} (hd : IsDecorator d) {mro mro' : List Cls} (hm : Linear mro) (h : d ∉ mro) (he : decorate d mro = some mro') {α : Type} (has : Cls → Option α)
    (hdec : has .decorator = none) :
    (∃ p, find has mro' = (has (.decorated d p)).or ((has d).or (find has mro))) ∧ find has (after d mro') = find has mro := by
  obtain ⟨p, mro, rfl⟩ : ∃ p m, mro = p :: m := by
    cases mro with
    | nil => cases hm.last
    | cons p m => exact ⟨p, m, rfl⟩
  rw [decorate_some hd hm h] at he
  injection he with he
  subst he
  have hself : Cls.decorated d p ≠ d := by rcases hd with h | h <;> simp [h]
  have key : find has ((if Cls.decorator ∈ p :: mro then [] else [.decorator]) ++ p :: mro) = find has (p :: mro) := by
    split
    · rfl
    · rw [find, List.singleton_append, List.findSome?_cons, hdec]
      rfl
  constructor
  · refine ⟨p, ?_⟩
    rw [← key, find, List.findSome?_cons, List.findSome?_cons]
    cases has (.decorated d p) with
    | some a => rfl
    | none =>
      cases has d with
      | some a => rfl
      | none => rfl
  · rw [← key, after, List.dropWhile_cons_of_pos (by simpa using hself), List.dropWhile_cons_of_neg (by simp)]
    rfl

-- `TMultiplexedProtocol(TBinaryProtocolAccelerated(…), …)`, and again
example : decorate .multiplexed [.protocol 2, .protocol 1, .protocol 0, .object] =
    some [.decorated .multiplexed (.protocol 2), .multiplexed, .decorator, .protocol 2, .protocol 1, .protocol 0, .object] :=
  decorate_some (.inl rfl) ⟨by decide, rfl, by decide⟩ (by decide)
example : decorate .multiplexed [.decorated .multiplexed (.protocol 2), .multiplexed, .decorator, .protocol 2, .protocol 1, .protocol 0, .object] = none :=
  decorate_none (by decide)
example : decorate .stored [.decorated .multiplexed (.protocol 0), .multiplexed, .decorator, .protocol 0, .object] =
    some [.decorated .stored (.decorated .multiplexed (.protocol 0)), .stored, .decorated .multiplexed (.protocol 0), .multiplexed, .decorator, .protocol 0, .object] :=
  decorate_some (.inr rfl) ⟨by decide, rfl, by decide⟩ (by decide)

end Thrift.Decorator
