import Verif.Proofs.ReprRead
import Verif.Proofs.Attrs
/-
The value of the expression that is read from a text, for C94.
-/

namespace Thrift.Repr
open Rpc Spec.Repr
open Attrs (Cls)

/-! ### Characters -/

/-- Characters that a program can have -/
def Fine (s : PyStr) : Prop := ∀ c ∈ s, c ≠ 0 ∧ (c < 0xD800 ∨ 0xDFFF < c)

theorem Fine.append {s t : PyStr} (h1 : Fine s) (h2 : Fine t) : Fine (s ++ t) := by
  intro c hc
  rcases List.mem_append.1 hc with h | h
  · exact h1 c h
  · exact h2 c h

theorem Fine.commas {ts : List PyStr} (h : ∀ t ∈ ts, Fine t) : Fine (commas ts) := by
  induction ts with
  | nil => intro c hc; cases hc
  | cons t ts ih =>
    rw [commas_cons]
    split
    · exact h t List.mem_cons_self
    · exact ((h t List.mem_cons_self).append (by unfold Fine; decide)).append (ih fun u hu => h u (List.mem_cons_of_mem _ hu))

theorem fine_ident {s : PyStr} (h : ∀ c ∈ s, isIdent c = true) : Fine s := by
  intro c hc
  have := h c hc
  simp only [isIdent, isStart, isDigit, Bool.or_eq_true, Bool.and_eq_true, decide_eq_true_eq, beq_iff_eq] at this
  omega

theorem fine_digits {s : PyStr} (h : ∀ c ∈ s, isDigit c = true) : Fine s := fine_ident fun c hc => by simp [isIdent, h c hc]

theorem fine_hex (w v : Nat) : Fine (hexN w v) := by
  intro c hc
  have := hexN_mem c hc
  omega

theorem fine_cons {c : Nat} {s : PyStr} (h : c ≠ 0 ∧ (c < 0xD800 ∨ 0xDFFF < c)) (hs : Fine s) : Fine (c :: s) := by
  intro d hd
  rcases List.mem_cons.1 hd with rfl | hd
  · exact h
  · exact hs d hd

theorem fine_nil : Fine [] := fun _ h => nomatch h

theorem fine_strChar {P : Py} (hP : Lawful P) {q : Nat} (hq : q = 39 ∨ q = 34) (c : Nat) : Fine (strChar P q c) := by
  unfold strChar
  split
  · exact fine_cons (by omega) (fine_cons (by omega) fine_nil)
  · split
    · unfold Fine; decide
    · split
      · unfold Fine; decide
      · split
        · unfold Fine; decide
        · split
          · exact fine_cons (by omega) (fine_cons (by omega) (fine_hex _ _))
          · split
            · exact fine_cons (by omega) fine_nil
            · split
              · rename_i h
                have := hP.printable c h
                exact fine_cons (by omega) fine_nil
              · split
                · exact fine_cons (by omega) (fine_cons (by omega) (fine_hex _ _))
                · split
                  · exact fine_cons (by omega) (fine_cons (by omega) (fine_hex _ _))
                  · exact fine_cons (by omega) (fine_cons (by omega) (fine_hex _ _))

theorem fine_byteChar {q : Nat} (hq : q = 39 ∨ q = 34) (c : Nat) : Fine (byteChar q c) := by
  unfold byteChar
  split
  · exact fine_cons (by omega) (fine_cons (by omega) fine_nil)
  · split
    · unfold Fine; decide
    · split
      · unfold Fine; decide
      · split
        · unfold Fine; decide
        · split
          · exact fine_cons (by omega) (fine_cons (by omega) (fine_hex _ _))
          · exact fine_cons (by omega) fine_nil

theorem fine_flatMap {f : Nat → PyStr} {s : List Nat} (h : ∀ c, Fine (f c)) : Fine (s.flatMap f) := by
  intro c hc
  obtain ⟨d, _, hc⟩ := List.mem_flatMap.1 hc
  exact h d c hc

theorem fine_str {P : Py} (hP : Lawful P) (s : PyStr) : Fine (reprStr P s) := by
  have hq := quoteFor_eq s
  unfold reprStr
  exact ((fine_cons (by omega) fine_nil).append (fine_flatMap (fine_strChar hP hq))).append (fine_cons (by omega) fine_nil)

theorem fine_bytes (b : Bytes) : Fine (reprBytes b) := by
  have hq := quoteFor_eq (b.map UInt8.toNat)
  unfold reprBytes
  exact ((fine_cons (by omega) (fine_cons (by omega) fine_nil)).append (fine_flatMap (fine_byteChar hq))).append (fine_cons (by omega) fine_nil)

theorem fine_float {s : PyStr} (h : FloatText s) : Fine s := by
  obtain ⟨i, f, x, hi, hf, hx, _, rfl⟩ := h
  refine ((fine_digits (digits_is hi)).append ?_).append ?_
  · rcases hf with rfl | ⟨d, rfl, hd⟩
    · exact fine_nil
    · exact fine_cons (by omega) (fine_digits (digits_is hd))
  · rcases hx with rfl | ⟨g, d, rfl, hg, hd⟩
    · exact fine_nil
    · exact fine_cons (by omega) (fine_cons (by omega) (fine_digits (digits_is hd)))

theorem fine_int (i : Int) : Fine (reprInt i) := by
  unfold reprInt
  split
  · exact fine_cons (by omega) (fine_digits (dec_digits _))
  · exact fine_digits (dec_digits _)

theorem fine_all {P : Py} {xs : List V} (h : ∀ y ∈ xs, Fine (text P y)) : Fine (commas (textAll P xs)) := by
  refine .commas ?_
  induction xs with
  | nil => intro t ht; cases ht
  | cons x xs ih =>
    intro t ht
    rcases List.mem_cons.1 (by rw [textAll] at ht; exact ht) with rfl | ht
    · exact h x List.mem_cons_self
    · exact ih (fun y hy => h y (List.mem_cons_of_mem _ hy)) t ht

theorem fine_pairs {P : Py} {kvs : List (V × V)} (h : ∀ y ∈ kvs.flatMap fun kv => [kv.1, kv.2], Fine (text P y)) : Fine (commas (textPairs P kvs)) := by
  refine .commas ?_
  induction kvs with
  | nil => intro t ht; cases ht
  | cons x xs ih =>
    intro t ht
    rw [List.flatMap_cons] at h
    rcases List.mem_cons.1 (by rw [textPairs] at ht; exact ht) with rfl | ht
    · exact ((h x.1 (by simp)).append (by unfold Fine; decide)).append (h x.2 (by simp))
    · exact ih (fun y hy => h y (List.mem_append_right _ hy)) t ht

theorem fine_text {P : Py} (hP : Lawful P) (x : V) (hp : Each Proper x) : Fine (text P x) := by
  induction x using V.ind with
  | h x ih =>
    rw [each_iff] at hp
    have ih : ∀ y ∈ parts x, Fine (text P y) := fun y hy => ih y hy (hp.2 y hy)
    have hp := hp.1
    cases x with
    | none => show Fine (pyStr "None"); unfold Fine; decide
    | bool b =>
      cases b
      · show Fine (pyStr "False"); unfold Fine; decide
      · show Fine (pyStr "True"); unfold Fine; decide
    | int i => exact fine_int i
    | float x =>
      rw [text, reprFloat]
      dsimp only
      split
      · unfold Fine; decide
      · have h : Fine (if x.toNat % 2 ^ 63 = 0x7FF0000000000000 then pyStr "inf" else P.show_ (UInt64.ofNat (x.toNat % 2 ^ 63))) := by
          split
          · unfold Fine; decide
          · exact fine_float (float_text hP (a := x.toNat % 2 ^ 63) (by omega)).1
        split
        · exact fine_cons (by omega) h
        · exact h
    | str s => exact fine_str hP s
    | bytes b => exact fine_bytes b
    | uuid n => exact (Fine.append (by unfold Fine; decide) (fine_str hP _)).append (by unfold Fine; decide)
    | list xs => rw [text]; exact (Fine.append (by unfold Fine; decide) (fine_all ih)).append (by unfold Fine; decide)
    | tuple xs =>
      rcases xs with _ | ⟨x, _ | ⟨y, xs⟩⟩ <;> rw [text]
      · unfold Fine; decide
      · exact (Fine.append (by unfold Fine; decide) (ih x List.mem_cons_self)).append (by unfold Fine; decide)
      · exact (Fine.append (by unfold Fine; decide) (fine_all ih)).append (by unfold Fine; decide)
      all_goals simp
    | set xs =>
      cases xs <;> rw [text]
      · unfold Fine; decide
      · exact (Fine.append (by unfold Fine; decide) (fine_all ih)).append (by unfold Fine; decide)
      all_goals simp
    | frozenset xs =>
      cases xs <;> rw [text]
      · unfold Fine; decide
      · exact (Fine.append (by unfold Fine; decide) (fine_all ih)).append (by unfold Fine; decide)
      all_goals simp
    | dict kvs => rw [text]; exact (Fine.append (by unfold Fine; decide) (fine_pairs ih)).append (by unfold Fine; decide)
    | frozenDict kvs => rw [text]; exact (Fine.append (by unfold Fine; decide) (fine_pairs ih)).append (by unfold Fine; decide)
    | enum c m i =>
      rw [text]
      exact (((((Fine.append (by unfold Fine; decide) (fine_ident (name_ident hp.1))).append (by unfold Fine; decide)).append (fine_ident (name_ident hp.2))).append (by unfold Fine; decide)).append (fine_int i)).append
        (by unfold Fine; decide)
    | inst c as =>
      rw [text]
      refine (((fine_ident (name_ident hp.1.1)).append (by unfold Fine; decide)).append (.commas ?_)).append (by unfold Fine; decide)
      rw [textAttrs_eq]
      intro t ht
      obtain ⟨a, ha, rfl⟩ := List.mem_map.1 ht
      exact ((fine_ident (name_ident (hp.2.1 a ha))).append (by unfold Fine; decide)).append (ih a.2 (List.mem_map_of_mem ha))

theorem eval_text {P : Py} (hP : Lawful P) (lim : Nat) (env : Env) (x : V) (hp : Each Proper x) :
    eval P lim env (text P x) = if readable lim x then value P env (toExpr x) else .error .syntax := by
  unfold eval
  rw [if_neg]
  · have h := parses hP x hp ((text P x).length + 1) lim [] .nil (Nat.lt_succ_self _)
    rw [List.append_nil] at h
    rw [h]
    cases readable lim x <;> rfl
  · rw [Bool.not_eq_true, List.any_eq_false]
    intro c hc
    have := fine_text hP x hp c hc
    simp only [badChar, Bool.or_eq_true, Bool.and_eq_true, beq_iff_eq, decide_eq_true_eq]
    omega

/-! ### Which texts are expressions -/

theorem depths_le (xs : List V) (l : Nat) : depths xs ≤ l ↔ ∀ y ∈ xs, depth y ≤ l := by
  induction xs with
  | nil => simp [depths]
  | cons x xs ih => rw [depths, Nat.max_le, ih]; simp

theorem depthPairs_le (kvs : List (V × V)) (l : Nat) : depthPairs kvs ≤ l ↔ ∀ y ∈ kvs.flatMap fun kv => [kv.1, kv.2], depth y ≤ l := by
  induction kvs with
  | nil => simp [depthPairs]
  | cons x xs ih =>
    rw [depthPairs, Nat.max_le, Nat.max_le, ih, List.flatMap_cons]
    simp only [List.cons_append, List.nil_append, List.mem_cons, forall_eq_or_imp, and_assoc]

theorem depthAttrs_le (as : List (PyStr × V)) (l : Nat) : depthAttrs as ≤ l ↔ ∀ y ∈ as.map (·.2), depth y ≤ l := by
  induction as with
  | nil => simp [depthAttrs]
  | cons x xs ih => rw [depthAttrs, Nat.max_le, ih, List.map_cons]; simp only [List.mem_cons, forall_eq_or_imp]

theorem readables_iff (xs : List V) (l : Nat) : readables l xs = true ↔ ∀ y ∈ xs, readable l y = true := by
  induction xs with
  | nil => simp [readables]
  | cons x xs ih => rw [readables, Bool.and_eq_true, ih]; simp

theorem readablePairs_iff (kvs : List (V × V)) (l : Nat) : readablePairs l kvs = true ↔ ∀ y ∈ kvs.flatMap fun kv => [kv.1, kv.2], readable l y = true := by
  induction kvs with
  | nil => simp [readablePairs]
  | cons x xs ih =>
    rw [readablePairs, Bool.and_eq_true, Bool.and_eq_true, ih, List.flatMap_cons]
    simp only [List.cons_append, List.nil_append, List.mem_cons, forall_eq_or_imp]

theorem readableAttrs_iff (as : List (PyStr × V)) (l : Nat) : readableAttrs l as = true ↔ (∀ a ∈ as, a.1 ∉ Spec.Names.reserved) ∧ ∀ y ∈ as.map (·.2), readable l y = true := by
  induction as with
  | nil => simp [readableAttrs]
  | cons x xs ih =>
    rw [readableAttrs, Bool.and_eq_true, Bool.and_eq_true, ih, List.map_cons]
    simp only [List.mem_cons, forall_eq_or_imp, decide_eq_true_eq]
    constructor
    · rintro ⟨h1, h2, h3, h4⟩; exact ⟨⟨h1, h3⟩, h2, h4⟩
    · rintro ⟨⟨h1, h3⟩, h2, h4⟩; exact ⟨h1, h2, h3, h4⟩

theorem all_split {p q : V → Prop} {l : List V} : (∀ y ∈ l, p y ∧ ¬ q y) ↔ (∀ y ∈ l, p y) ∧ ¬ ∃ y ∈ l, q y := by
  constructor
  · intro h
    exact ⟨fun y hy => (h y hy).1, fun ⟨y, hy, hq⟩ => (h y hy).2 hq⟩
  · rintro ⟨h1, h2⟩ y hy
    exact ⟨h1 y hy, fun hq => h2 ⟨y, hy, hq⟩⟩

theorem readable_iff (x : V) (l : Nat) : readable l x = true ↔ depth x ≤ l ∧ ¬ Has NoExpression x := by
  induction x using V.ind generalizing l with
  | h x ih =>
    have ih : ∀ l, (∀ y ∈ parts x, readable l y = true) ↔ (∀ y ∈ parts x, depth y ≤ l) ∧ ¬ ∃ y ∈ parts x, Has NoExpression y := by
      intro l
      rw [← all_split]
      exact forall_congr' fun y => forall_congr' fun hy => ih y hy l
    rw [has_iff, not_or]
    have key : ∀ (d : Nat), (l ≠ 0 ∧ d ≤ l - 1) ↔ d + 1 ≤ l := by omega
    cases x with
    | none => simp [readable, depth, NoExpression, parts]
    | bool b => simp [readable, depth, NoExpression, parts]
    | int i => simp [readable, depth, NoExpression, parts]
    | float x => simp [readable, depth, NoExpression, parts]
    | str s => simp [readable, depth, NoExpression, parts]
    | bytes b => simp [readable, depth, NoExpression, parts]
    | enum c m i => simp [readable, depth, NoExpression, parts]
    | uuid n =>
      simp only [readable, depth, NoExpression, parts, decide_eq_true_eq, List.not_mem_nil, false_and, exists_false, not_false_eq_true, and_true]
      omega
    | list xs =>
      dsimp only [parts] at ih ⊢
      rw [readable, Bool.and_eq_true, decide_eq_true_eq, readables_iff, ih, depth, ← key, depths_le]
      simp only [NoExpression, not_false_eq_true, true_and, and_assoc]
    | tuple xs =>
      dsimp only [parts] at ih ⊢
      rw [readable, Bool.and_eq_true, decide_eq_true_eq, readables_iff, ih, depth, ← key, depths_le]
      simp only [NoExpression, not_false_eq_true, true_and, and_assoc]
    | set xs =>
      dsimp only [parts] at ih ⊢
      rw [readable, Bool.and_eq_true, decide_eq_true_eq, readables_iff, ih, depth, ← key, depths_le]
      simp only [NoExpression, not_false_eq_true, true_and, and_assoc]
    | frozenset xs =>
      cases xs with
      | nil =>
        simp only [readable, depth, NoExpression, parts, decide_eq_true_eq, List.not_mem_nil, false_and, exists_false, not_false_eq_true, and_true]
        omega
      | cons x xs =>
        have key2 : (l ≠ 0 ∧ l - 1 ≠ 0 ∧ depths (x :: xs) ≤ l - 1 - 1) ↔ depths (x :: xs) + 2 ≤ l := by omega
        dsimp only [parts] at ih ⊢
        rw [readable, Bool.and_eq_true, Bool.and_eq_true, decide_eq_true_eq, decide_eq_true_eq, readables_iff, ih, depth, ← key2, depths_le]
        · simp only [NoExpression, not_false_eq_true, true_and, and_assoc]
        all_goals simp
    | dict kvs =>
      dsimp only [parts] at ih ⊢
      rw [readable, Bool.and_eq_true, decide_eq_true_eq, readablePairs_iff, ih, depth, ← key, depthPairs_le]
      simp only [NoExpression, not_false_eq_true, true_and, and_assoc]
    | frozenDict kvs =>
      dsimp only [parts] at ih ⊢
      rw [readable, Bool.and_eq_true, decide_eq_true_eq, readablePairs_iff, ih, depth, ← key, depthPairs_le]
      simp only [NoExpression, not_false_eq_true, true_and, and_assoc]
    | inst c as =>
      dsimp only [parts] at ih ⊢
      rw [readable, Bool.and_eq_true, decide_eq_true_eq, readableAttrs_iff, ih, depth, ← key, depthAttrs_le]
      have : (¬ NoExpression (.inst c as)) ↔ ∀ a ∈ as, a.1 ∉ Spec.Names.reserved := by
        unfold NoExpression
        constructor
        · intro h a ha hr; exact h ⟨a, ha, hr⟩
        · rintro h ⟨a, ha, hr⟩; exact h a ha hr
      rw [this]
      constructor
      · rintro ⟨h1, h2, h3, h4⟩; exact ⟨⟨h1, h3⟩, h2, h4⟩
      · rintro ⟨⟨h1, h3⟩, h2, h4⟩; exact ⟨h1, h2, h3, h4⟩

/-! ### Values -/

section
variable {P : Py} {env : Env}

theorem values_ok {xs : List V} (h : ∀ y ∈ xs, value P env (toExpr y) = .ok (thaw y)) : values P env (toExprs xs) = .ok (thaws xs) := by
  induction xs with
  | nil => rfl
  | cons x xs ih => rw [toExprs, values, h x List.mem_cons_self, ih fun y hy => h y (List.mem_cons_of_mem _ hy), thaws]

theorem valuePairs_ok {kvs : List (V × V)} (h : ∀ y ∈ kvs.flatMap fun kv => [kv.1, kv.2], value P env (toExpr y) = .ok (thaw y)) : valuePairs P env (toPairs kvs) = .ok (thawPairs kvs) := by
  induction kvs with
  | nil => rfl
  | cons x xs ih =>
    rw [List.flatMap_cons] at h
    rw [toPairs, valuePairs, h x.1 (by simp), h x.2 (by simp), ih fun y hy => h y (List.mem_append_right _ hy), thawPairs]

theorem thawAttrs_eq (as : List (PyStr × V)) : thawAttrs as = as.map fun a => (a.1, thaw a.2) := by
  induction as with
  | nil => rfl
  | cons x xs ih => rw [thawAttrs, ih]; rfl

theorem valueArgs_ok {as : List (PyStr × V)} (h : ∀ y ∈ as.map (·.2), value P env (toExpr y) = .ok (thaw y)) : valueArgs P env (toArgs as) = .ok (as.map fun a => (some a.1, thaw a.2)) := by
  induction as with
  | nil => rfl
  | cons x xs ih =>
    rw [List.map_cons] at h
    rw [toArgs, valueArgs, h x.2 List.mem_cons_self, ih fun y hy => h y (List.mem_cons_of_mem _ hy)]
    rfl

theorem mkSet_ok (xs acc : List V) (h : Elements P xs) (ha : ∀ y ∈ acc, ∀ x ∈ xs, P.eq y x = false) : mkSet P acc xs = .ok (acc ++ xs) := by
  induction xs generalizing acc with
  | nil => rw [mkSet, List.append_nil]
  | cons x xs ih =>
    obtain ⟨h1, h2⟩ := h
    rw [List.pairwise_cons] at h2
    have : (acc.any fun y => P.eq y x) = false := by
      rw [List.any_eq_false]
      intro y hy
      rw [ha y hy x List.mem_cons_self]
      exact Bool.false_ne_true
    rw [mkSet, h1 x List.mem_cons_self, this, if_neg (by decide), if_neg (by decide), ih _ ⟨fun y hy => h1 y (List.mem_cons_of_mem _ hy), h2.2⟩, List.append_assoc]
    · rfl
    · intro y hy z hz
      rcases List.mem_append.1 hy with hy | hy
      · exact ha y hy z (List.mem_cons_of_mem _ hz)
      · rw [List.mem_singleton.1 hy]
        exact h2.1 z hz

theorem dictSet_new (k v : V) (l : List (V × V)) (h : ∀ e ∈ l, P.eq e.1 k = false) : dictSet P k v l = l ++ [(k, v)] := by
  induction l with
  | nil => rfl
  | cons e l ih =>
    rw [dictSet, h e List.mem_cons_self, if_neg Bool.false_ne_true, ih fun d hd => h d (List.mem_cons_of_mem _ hd)]
    rfl

theorem mkDict_ok (kvs acc : List (V × V)) (h : Elements P (kvs.map (·.1))) (ha : ∀ y ∈ acc, ∀ x ∈ kvs, P.eq y.1 x.1 = false) : mkDict P acc kvs = .ok (acc ++ kvs) := by
  induction kvs generalizing acc with
  | nil => rw [mkDict, List.append_nil]
  | cons x xs ih =>
    obtain ⟨h1, h2⟩ := h
    rw [List.map_cons] at h1 h2
    rw [List.pairwise_cons] at h2
    rw [mkDict, h1 x.1 List.mem_cons_self, if_neg (by decide), dictSet_new _ _ _ fun e he => ha e he x List.mem_cons_self, ih _ ⟨fun y hy => h1 y (List.mem_cons_of_mem _ hy), h2.2⟩, List.append_assoc]
    · rfl
    · intro y hy z hz
      rcases List.mem_append.1 hy with hy | hy
      · exact ha y hy z (List.mem_cons_of_mem _ hz)
      · rw [List.mem_singleton.1 hy]
        exact h2.1 z.1 (List.mem_map_of_mem hz)

theorem mkUuid_text {n : Nat} (h : n < 2 ^ 128) : mkUuid (uuidText n) = .ok (.uuid n) := by
  have hf : ∀ t : PyStr, (∀ c ∈ t, c ∈ hexN 32 n) → t.filter (· ≠ 45) = t := by
    intro t ht
    rw [List.filter_eq_self]
    intro c hc
    have := hexN_mem c (ht c hc)
    rw [decide_eq_true_eq]
    omega
  have e : (uuidText n).filter (· ≠ 45) = hexN 32 n := by
    unfold uuidText
    simp only [List.filter_append]
    rw [hf _ fun c hc => List.mem_of_mem_take hc, hf ((hexN 32 n).drop 8 |>.take 4) fun c hc => List.mem_of_mem_drop (List.mem_of_mem_take hc),
      hf ((hexN 32 n).drop 12 |>.take 4) fun c hc => List.mem_of_mem_drop (List.mem_of_mem_take hc),
      hf ((hexN 32 n).drop 16 |>.take 4) fun c hc => List.mem_of_mem_drop (List.mem_of_mem_take hc), hf ((hexN 32 n).drop 20) fun c hc => List.mem_of_mem_drop hc]
    rw [show ([45] : PyStr).filter (· ≠ 45) = [] from rfl]
    simp only [List.append_nil, List.append_assoc]
    generalize hexN 32 n = t
    have d : ∀ i, (t.drop i).take 4 ++ t.drop (i + 4) = t.drop i := by
      intro i
      rw [← List.drop_drop]
      exact List.take_append_drop 4 (t.drop i)
    rw [d 16, d 12, d 8, List.take_append_drop]
  unfold mkUuid
  dsimp only
  rw [e]
  have hx := hexDigits_append 32 0 n []
  rw [List.append_nil] at hx
  rw [hx, show (16 : Nat) ^ 32 = 2 ^ 128 from rfl, Nat.mod_eq_of_lt h, Nat.zero_mul, Nat.zero_add]

theorem ofArg_toArg (v : V) : ofArg (toArg v) = v := by cases v <;> rfl

theorem kwOnly_ok (as : List (PyStr × V)) : kwOnly (as.map fun a => (some a.1, a.2)) = .ok (as.map fun a => (a.1, toArg a.2)) := by
  induction as with
  | nil => rfl
  | cons a as ih => rw [List.map_cons, kwOnly, ih]; rfl

theorem key_attr {c : Cls} (hc : Regular c) {m : PyStr} (hm : m ∈ c.members) : key c m = c.attr m := by
  unfold key
  split
  · rename_i hi
    obtain ⟨h1, h2⟩ := hc.plain (.inl hi) m hm
    unfold Attrs.Cls.attr
    rw [Attrs.escape_noKeyword h1, Attrs.mangle_plain h2]
  · rfl

theorem attr_slots {c : Cls} (hc : Regular c) (hs : c.slots = true) {m : PyStr} (hm : m ∈ c.members) : c.attr m = m ∧ Attrs.mangle c.name m = m := by
  obtain ⟨h1, h2⟩ := hc.plain (.inr hs) m hm
  unfold Attrs.Cls.attr
  rw [Attrs.escape_noKeyword h1, Attrs.mangle_plain h2]
  exact ⟨rfl, rfl⟩

theorem apply_cls {c : Cls} (hc : Regular c) {as : List (PyStr × V)} (hk : as.map (·.1) = c.members.map (key c)) : apply (.cls c) (as.map fun a => (some a.1, a.2)) = .ok (.inst c as) := by
  have hkey : c.members.map (key c) = c.members.map c.attr := List.map_congr_left fun m hm => key_attr hc hm
  have hnd : (as.map (·.1)).Nodup := by rw [hk, hkey]; exact hc.distinct
  have hcon : Attrs.construct c (as.map fun a => (a.1, toArg a.2)) = .ok ⟨c, (as.map fun a => (a.1, toArg a.2)).reverse⟩ := by
    unfold Attrs.construct
    rw [hc.created]
    show (if _ then _ else _) = _
    rw [if_pos, Attrs.initBody_ok]
    · congr 1
      rw [List.append_nil, List.map_map]
      congr 2
      have e1 : c.members.map ((fun a : PyStr × Option V => (Attrs.target c a.1, a.2)) ∘ fun m => (m, ((as.map fun a => (a.1, toArg a.2)).lookup (c.attr m)).getD none)) =
          (c.members.map (key c)).map fun k => (k, ((as.map fun a => (a.1, toArg a.2)).lookup k).getD none) := by
        rw [List.map_map]
        refine List.map_congr_left fun m hm => ?_
        dsimp only [Function.comp_apply]
        rw [key_attr hc hm, show Attrs.target c m = key c m from rfl, key_attr hc hm]
      rw [e1, ← hk, List.map_map]
      refine List.map_congr_left fun a ha => ?_
      dsimp only [Function.comp_apply]
      have := lookup_nodup (l := as.map fun a => (a.1, toArg a.2)) (by rw [List.map_map]; exact hnd) (List.mem_map_of_mem (f := fun a => (a.1, toArg a.2)) ha)
      dsimp only at this
      rw [this]
      rfl
    · rfl
    · intro a ha
      obtain ⟨m, hm, rfl⟩ := List.mem_map.1 ha
      unfold Attrs.Allowed
      cases hs : c.slots with
      | false => exact .inl rfl
      | true =>
        refine .inr (.inr ?_)
        show key c m ∈ _
        rw [key_attr hc hm, (attr_slots hc hs hm).1]
        unfold Attrs.Cls.slotNames
        rw [if_pos hs]
        exact List.mem_map.2 ⟨m, hm, (attr_slots hc hs hm).2⟩
    · rw [List.map_map]
      show (c.members.map (key c)).Nodup
      rw [hkey]
      exact hc.distinct
    · intro a ha h
      cases h
    · intro a ha
      obtain ⟨b, hb, rfl⟩ := List.mem_map.1 ha
      rw [← hkey, ← hk]
      exact List.mem_map_of_mem hb
  unfold apply
  dsimp only
  rw [kwOnly_ok]
  dsimp only
  rw [hcon]
  dsimp only
  rw [List.reverse_reverse, List.map_map]
  congr 2
  rw [show ((fun a : PyStr × Option V => (a.1, ofArg a.2)) ∘ fun a : PyStr × V => (a.1, toArg a.2)) = id from funext fun a => by simp [ofArg_toArg], List.map_id]

theorem value_ok (x : V) (hp : Each Proper x) (hg : Each (Good P env) x) : value P env (toExpr x) = .ok (thaw x) := by
  induction x using V.ind with
  | h x ih =>
    rw [each_iff] at hp hg
    have ih : ∀ y ∈ parts x, value P env (toExpr y) = .ok (thaw y) := fun y hy => ih y hy (hp.2 y hy) (hg.2 y hy)
    have hp := hp.1
    have hg := hg.1
    cases x with
    | none => rfl
    | bool b => rfl
    | int i =>
      rw [toExpr]
      split
      · rw [value, value]
        show Except.ok (V.int _) = .ok (V.int i)
        congr 2
        omega
      · rw [value, thaw]
        · congr 2
          omega
        all_goals simp
    | float x =>
      have hg : x.toNat % 2 ^ 63 < 0x7FF0000000000000 := hg
      rw [toExpr]
      dsimp only
      rw [if_neg (by omega), if_neg (show ¬ x.toNat % 2 ^ 63 = 0x7FF0000000000000 by omega)]
      have hx := x.toNat_lt
      split
      · rw [value, value]
        have e : UInt64.ofNat (x.toNat % 2 ^ 63) + 0x8000000000000000 = x := by
          rw [← UInt64.toNat_inj, UInt64.toNat_add, UInt64.toNat_ofNat', show (0x8000000000000000 : UInt64).toNat = 2 ^ 63 from rfl]
          omega
        exact congrArg (fun y => (Except.ok (V.float y) : Except Err V)) e
      · rw [value]
        show Except.ok (V.float _) = .ok (V.float x)
        congr 2
        rw [← UInt64.toNat_inj, UInt64.toNat_ofNat']
        omega
    | str s => rfl
    | bytes b => rfl
    | uuid n =>
      rw [toExpr, value, show env (pyStr "UUID") = some .uuid from hg]
      show mkUuid (uuidText n) = _
      rw [mkUuid_text hp]
      rfl
    | list xs => rw [toExpr, value, values_ok (xs := xs) ih, thaw]
    | tuple xs => rw [toExpr, value, values_ok (xs := xs) ih, thaw]
    | set xs =>
      obtain ⟨h1, h2⟩ := hg
      cases xs with
      | nil =>
        rw [toExpr, value, h1 rfl]
        rfl
      | cons x xs =>
        rw [toExpr, value, values_ok (xs := x :: xs) ih, thaw]
        · dsimp only
          rw [mkSet_ok _ [] h2 (fun _ h => nomatch h)]
          rfl
        all_goals simp
    | frozenset xs =>
      obtain ⟨h1, h2⟩ := hg
      cases xs with
      | nil =>
        rw [toExpr, value, h1]
        rfl
      | cons x xs =>
        rw [toExpr, value, h1, valueArgs, value, values_ok (xs := x :: xs) ih, thaw]
        · dsimp only
          rw [mkSet_ok _ [] h2 (fun _ h => nomatch h)]
          rfl
        all_goals simp
    | dict kvs =>
      rw [toExpr, value, valuePairs_ok (kvs := kvs) ih, thaw]
      dsimp only
      rw [mkDict_ok _ [] hg (fun _ h => nomatch h)]
      rfl
    | frozenDict kvs =>
      rw [toExpr, value, valuePairs_ok (kvs := kvs) ih, thaw]
      dsimp only
      rw [mkDict_ok _ [] hg (fun _ h => nomatch h)]
      rfl
    | enum c m i => exact absurd hg id
    | inst c as =>
      obtain ⟨h1, h2, h3⟩ := hg
      rw [toExpr, value, h1, valueArgs_ok (as := as) ih, thaw, thawAttrs_eq]
      dsimp only
      have := apply_cls h2 (as := as.map fun a => (a.1, thaw a.2)) (by rw [List.map_map]; exact h3)
      rw [List.map_map] at this
      exact this

end

theorem thaw_id (x : V) (h : ¬ Has (fun y => ∃ kvs, y = .frozenDict kvs) x) : thaw x = x := by
  induction x using V.ind with
  | h x ih =>
    rw [has_iff, not_or] at h
    have ih : ∀ y ∈ parts x, thaw y = y := fun y hy => ih y hy fun hh => h.2 ⟨y, hy, hh⟩
    have h := h.1
    have all : ∀ xs : List V, (∀ y ∈ xs, thaw y = y) → thaws xs = xs := by
      intro xs hx
      induction xs with
      | nil => rfl
      | cons x xs ih => rw [thaws, hx x List.mem_cons_self, ih fun y hy => hx y (List.mem_cons_of_mem _ hy)]
    have allPairs : ∀ kvs : List (V × V), (∀ y ∈ kvs.flatMap fun kv => [kv.1, kv.2], thaw y = y) → thawPairs kvs = kvs := by
      intro kvs hx
      induction kvs with
      | nil => rfl
      | cons x xs ih =>
        rw [List.flatMap_cons] at hx
        rw [thawPairs, hx x.1 (by simp), hx x.2 (by simp), ih fun y hy => hx y (List.mem_append_right _ hy)]
    cases x with
    | list xs => rw [thaw, all xs ih]
    | tuple xs => rw [thaw, all xs ih]
    | set xs => rw [thaw, all xs ih]
    | frozenset xs => rw [thaw, all xs ih]
    | dict kvs => rw [thaw, allPairs kvs ih]
    | frozenDict kvs => exact absurd ⟨kvs, rfl⟩ h
    | inst c as =>
      rw [thaw, thawAttrs_eq]
      congr 1
      conv => rhs; rw [← List.map_id as]
      refine List.map_congr_left fun a ha => ?_
      rw [ih a.2 (List.mem_map_of_mem ha)]
      rfl
    | _ => rfl

end Thrift.Repr
