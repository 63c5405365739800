import Verif.Spec.WellTyped
/-
Python sets and dicts: what repeated elements and keys do.
-/

namespace Thrift
open Spec

theorem isNaN_iff (x : UInt64) : isNaN x = true ↔ exponent x = 2047 ∧ fraction x ≠ 0 := by
  have := x.toNat_lt
  unfold isNaN exponent fraction
  simp only [decide_eq_true_eq]
  omega

theorem isZero_iff (x : UInt64) : isZero x = true ↔ exponent x = 0 ∧ fraction x = 0 := by
  have := x.toNat_lt
  unfold isZero exponent fraction
  simp only [beq_iff_eq]
  omega

/-- The equality the model uses is the one of the specification. -/
theorem keyEq_eq (a b : Val) : keyEq a b = pyEq a b := by
  cases a <;> cases b <;> try (unfold keyEq pyEq; first | rfl | (rw [Bool.eq_iff_iff]; simp))
  rename_i x y
  unfold doubleEq
  have hx := isNaN_iff x
  have hy := isNaN_iff y
  have zx := isZero_iff x
  have zy := isZero_iff y
  cases n1 : isNaN x <;> cases n2 : isNaN y <;> cases z1 : isZero x <;> cases z2 : isZero y <;>
    by_cases e : x = y <;> simp_all <;> omega

theorem pyEq_symm {a b : Val} (h : pyEq a b = true) : pyEq b a = true := by
  rw [← keyEq_eq] at *
  cases a <;> cases b <;> simp_all [keyEq]
  rcases h with ⟨rfl, h⟩ | h
  · exact .inl ⟨rfl, h⟩
  · exact .inr ⟨h.2, h.1⟩

theorem pyEq_comm (a b : Val) : pyEq a b = pyEq b a := by
  rw [Bool.eq_iff_iff]
  exact ⟨pyEq_symm, pyEq_symm⟩

theorem zero_not_nan {x : UInt64} (h : isZero x = true) : isNaN x = false := by
  cases hn : isNaN x with
  | false => rfl
  | true =>
    have := (isNaN_iff x).1 hn
    have := (isZero_iff x).1 h
    omega

theorem pyEq_trans {a b c : Val} (h : pyEq a b = true) (h' : pyEq b c = true) : pyEq a c = true := by
  rw [← keyEq_eq] at *
  cases a <;> cases b <;> cases c <;> simp_all [keyEq]
  rcases h with ⟨rfl, h⟩ | h
  · exact h'
  · rcases h' with ⟨rfl, h'⟩ | h'
    · exact .inr h
    · exact .inr ⟨h.1, h'.2⟩

theorem any_keyEq (s : List Val) (v : Val) : s.any (keyEq v) = s.any (pyEq v) := by
  have : keyEq v = pyEq v := funext (keyEq_eq v)
  rw [this]

theorem foldl_setAdd (vs : List Val) : ∀ acc, vs.foldl setAdd acc = acc ++ firsts acc vs := by
  induction vs with
  | nil => intro acc; simp [firsts]
  | cons v vs ih =>
    intro acc
    rw [List.foldl_cons, ih, firsts]
    unfold setAdd
    rw [any_keyEq]
    by_cases h : acc.any (pyEq v) = true
    · rw [if_pos h, if_pos h]
    · rw [if_neg h, if_neg h]; simp

theorem pySet_firsts (vs : List Val) : pySet vs = firsts [] vs := by
  unfold pySet
  rw [foldl_setAdd]; rfl

theorem firsts_seen {vs seen : List Val} (h : Distinct (seen ++ vs)) : firsts seen vs = vs := by
  induction vs generalizing seen with
  | nil => rfl
  | cons v vs ih =>
    rw [firsts, if_neg, ih (by simpa using h)]
    unfold Distinct at h
    rw [List.pairwise_append] at h
    simp only [List.any_eq_true, not_exists, not_and]
    intro x hx
    rw [h.2.2 x hx v (by simp)]
    simp

theorem firsts_distinct {vs : List Val} (h : Distinct vs) : firsts [] vs = vs :=
  firsts_seen (by simpa using h)

/-- Keys are pairwise different. -/
theorem dictPut_eq (k v : Val) : ∀ d : List (Val × Val), Distinct (d.map (·.1)) →
    dictPut d k v = if (d.map (·.1)).any (pyEq k) then
      d.map (fun x => (x.1, if pyEq x.1 k then v else x.2)) else d ++ [(k, v)] := by
  intro d
  induction d with
  | nil => intro _; rfl
  | cons x d ih =>
    obtain ⟨k', v'⟩ := x
    intro hd
    unfold Distinct at hd
    rw [List.map_cons, List.pairwise_cons] at hd
    rw [dictPut, keyEq_eq]
    by_cases h : pyEq k k' = true
    · rw [if_pos h]
      have h2 : pyEq k' k = true := pyEq_symm h
      simp only [List.map_cons, List.any_cons, h, Bool.true_or, if_true, h2]
      congr 1
      have : ∀ y ∈ d, (y.1, if pyEq y.1 k = true then v else y.2) = y := by
        intro y hy
        have e := hd.1 y.1 (List.mem_map_of_mem hy)
        rw [if_neg]
        intro hyk
        rw [pyEq_trans hyk h] at e
        cases e
      conv => lhs; rw [← List.map_id d]
      apply List.map_congr_left
      intro y hy
      exact (this y hy).symm
    · rw [if_neg h, ih hd.2]
      have h2 : ¬ pyEq k' k = true := fun e => h (pyEq_symm e)
      simp only [List.map_cons, List.any_cons, h, Bool.false_or, if_neg h2]
      split <;> rfl

theorem merged_fold (kvs : List (Val × Val)) : ∀ acc : List (Val × Val), Distinct (acc.map (·.1)) →
    kvs.foldl (fun d kv => dictPut d kv.1 kv.2) acc =
      acc.map (fun x => (x.1, latest x.1 x.2 kvs)) ++ merged (acc.map (·.1)) kvs := by
  induction kvs with
  | nil => intro acc _; simp [merged, latest]
  | cons x kvs ih =>
    obtain ⟨k, v⟩ := x
    intro acc hd
    rw [List.foldl_cons]
    simp only
    rw [dictPut_eq k v acc hd, merged]
    by_cases h : (acc.map (·.1)).any (pyEq k) = true
    · rw [if_pos h, if_pos h]
      have hk : (acc.map (fun x => (x.1, if pyEq x.1 k then v else x.2))).map (·.1) = acc.map (·.1) := by
        rw [List.map_map]; rfl
      rw [ih _ (by rw [hk]; exact hd), hk, List.map_map]
      rfl
    · rw [if_neg h, if_neg h]
      have hd2 : Distinct ((acc ++ [(k, v)]).map (·.1)) := by
        unfold Distinct
        rw [List.map_append, List.pairwise_append]
        refine ⟨hd, by simp, ?_⟩
        intro a ha b hb
        simp only [List.map_cons, List.map_nil, List.mem_singleton] at hb
        subst hb
        cases e : pyEq b a with
        | false => rfl
        | true => exact absurd (List.any_eq_true.mpr ⟨a, ha, e⟩) h
      rw [ih _ hd2]
      simp only [List.map_append, List.map_cons, List.map_nil, List.append_assoc, List.cons_append, List.nil_append]
      congr 1
      apply List.map_congr_left
      intro y hy
      rw [latest]
      have : ¬ pyEq y.1 k = true := fun e =>
        h (List.any_eq_true.mpr ⟨y.1, List.mem_map_of_mem hy, pyEq_symm e⟩)
      rw [if_neg this]

theorem pyDict_merged (kvs : List (Val × Val)) : pyDict kvs = merged [] kvs := by
  unfold pyDict
  rw [merged_fold kvs [] List.Pairwise.nil]
  rfl

theorem latest_other {k v : Val} {kvs : List (Val × Val)} (h : ∀ x ∈ kvs, pyEq k x.1 = false) :
    latest k v kvs = v := by
  induction kvs with
  | nil => rfl
  | cons x kvs ih =>
    rw [latest, if_neg (by rw [h x (by simp)]; simp)]
    exact ih fun y hy => h y (by simp [hy])

theorem merged_seen {kvs : List (Val × Val)} {seen : List Val} (h : Distinct (seen ++ kvs.map (·.1))) :
    merged seen kvs = kvs := by
  induction kvs generalizing seen with
  | nil => rfl
  | cons x kvs ih =>
    obtain ⟨k, v⟩ := x
    have h0 := h
    unfold Distinct at h
    rw [List.map_cons, List.pairwise_append, List.pairwise_cons] at h
    rw [merged, if_neg, ih (by simpa using h0), latest_other]
    · intro x hx
      have := h.2.1.1 x.1 (List.mem_map_of_mem hx)
      rwa [pyEq_comm] at this
    · simp only [List.any_eq_true, not_exists, not_and]
      intro y hy
      rw [h.2.2 y hy k (by simp)]
      simp

theorem merged_distinct {kvs : List (Val × Val)} (h : Distinct (kvs.map (·.1))) : merged [] kvs = kvs :=
  merged_seen (by simpa using h)

end Thrift
