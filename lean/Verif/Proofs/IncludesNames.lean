import Verif.Proofs.Includes
/-
What the names of types and services are found to be.
-/

namespace Thrift.Includes
open Rpc Spec.Includes
open Audit (Written Base)

variable {fs : Files} {all : List TProgram}

theorem simple_dot {n : PyStr} (h : Structs.simple n = true) : 46 ∉ n := by
  simpa [Structs.simple] using h

/-- The part behind the last dot -/
theorem dotted_inj {a b m n : PyStr} (hm : 46 ∉ m) (hn : 46 ∉ n) (e : a ++ 46 :: m = b ++ 46 :: n) : a = b ∧ m = n := by
  have key : ∀ (a m : PyStr), 46 ∉ m → (a ++ 46 :: m).reverse.takeWhile (· != 46) = m.reverse := by
    intro a m hm
    rw [List.reverse_append, List.reverse_cons, List.append_assoc, List.takeWhile_append_of_pos]
    · simp
    · intro x hx
      have : x ≠ 46 := fun e => hm (e ▸ List.mem_reverse.1 hx)
      simpa using this
  have h1 := key a m hm
  rw [e, key b n hn] at h1
  have h2 : n = m := List.reverse_inj.1 h1
  subst h2
  exact ⟨List.append_cancel_right e, rfl⟩

theorem pyDot (a n : PyStr) : a ++ pyStr "." ++ n = a ++ 46 :: n := by
  rw [List.append_assoc]; rfl

/-- The declaration of the type, and what was made of it -/
def Rep (all : List TProgram) (id : Id) (t : Typ) : Prop := ∃ q ∈ all, q.file = id.file ∧ (id.name, t) ∈ q.own.types

theorem Linked.decl_once (h : Linked fs all) {q : TProgram} (hq : q ∈ all) {d d' : Decl} (hd : d ∈ q.src.decls) (hd' : d' ∈ q.src.decls) (e : d.name = d'.name) : d = d' := by
  obtain ⟨incs, hp⟩ := h.parsed hq
  have hn := hp.inv.nodup
  revert hd hd' hn
  generalize q.src.decls = l
  intro hd hd' hn
  induction l with
  | nil => cases hd
  | cons x xs ih =>
    rw [List.map_cons, List.nodup_cons] at hn
    rcases List.mem_cons.1 hd with h1 | h1 <;> rcases List.mem_cons.1 hd' with h2 | h2
    · rw [h1, h2]
    · exact (hn.1 (List.mem_map.2 ⟨d', h2, by rw [← e, h1]⟩)).elim
    · exact (hn.1 (List.mem_map.2 ⟨d, h1, by rw [e, h2]⟩)).elim
    · exact ih h1 h2 hn.2

theorem Linked.declares (h : Linked fs all) {q : TProgram} (hq : q ∈ all) {n : PyStr} {b : Body} : Declares fs ⟨q.file, n⟩ b ↔ .type n b ∈ q.src.decls := by
  obtain ⟨incs, hp⟩ := h.parsed hq
  constructor
  · rintro ⟨F, h1, h2⟩
    rw [hp.src] at h1
    cases h1
    exact h2
  · intro h2; exact ⟨q.src, hp.src, h2⟩

theorem Linked.declaresService (h : Linked fs all) {q : TProgram} (hq : q ∈ all) {n : PyStr} {e : Option PyStr} {fns : List FnDecl} :
    DeclaresService fs ⟨q.file, n⟩ e fns ↔ .service n e fns ∈ q.src.decls := by
  obtain ⟨incs, hp⟩ := h.parsed hq
  constructor
  · rintro ⟨F, h1, h2⟩
    rw [hp.src] at h1
    cases h1
    exact h2
  · intro h2; exact ⟨q.src, hp.src, h2⟩

/-- The included programs -/
theorem Linked.inc (h : Linked fs all) {q : TProgram} (hq : q ∈ all) {i : Path} (hi : Includes fs q.file i) : ∃ qi ∈ all, qi.file = i := by
  obtain ⟨incs, hp⟩ := h.parsed hq
  obtain ⟨F, h1, h2⟩ := hi
  rw [hp.src] at h1
  cases h1
  rw [← hp.files] at h2
  obtain ⟨x, hx, rfl⟩ := List.mem_map.1 h2
  exact ⟨x, hp.mem x hx, rfl⟩

theorem Linked.lookup (h : Linked fs all) {q : TProgram} (hq : q ∈ all) {n : PyStr} {t : Typ} (e : q.types.lookup n = some t) : ∃ id, Names fs q.file n id ∧ Rep all id t := by
  obtain ⟨incs, hp⟩ := h.parsed hq
  unfold TProgram.types at e
  have hm := mem_of_lookup e
  rcases List.mem_append.1 hm with hm | hm
  · obtain ⟨b, h1, _⟩ := hp.inv.types n t hm
    exact ⟨⟨q.file, n⟩, .own _ _ b ((h.declares hq).2 h1), q, hq, rfl, hm⟩
  · rw [hp.types] at hm
    obtain ⟨i, hi, hm⟩ := List.mem_flatMap.1 hm
    obtain ⟨x, hx, e'⟩ := List.mem_map.1 hm
    cases e'
    have hi := List.mem_reverse.1 hi
    obtain ⟨incs', hp'⟩ := h.parsed (hp.mem i hi)
    obtain ⟨b, h1, _⟩ := hp'.inv.types x.1 x.2 hx
    refine ⟨⟨i.file, x.1⟩, ?_, i, hp.mem i hi, rfl, hx⟩
    rw [← pyDot]
    exact .included _ _ _ b ⟨q.src, hp.src, hp.files ▸ List.mem_map.2 ⟨i, hi, rfl⟩⟩ ((h.declares (hp.mem i hi)).2 h1)

theorem Linked.names_found (h : Linked fs all) {q : TProgram} (hq : q ∈ all) {n : PyStr} {id : Id} (hn : Names fs q.file n id) : ∃ t, q.types.lookup n = some t := by
  obtain ⟨incs, hp⟩ := h.parsed hq
  refine lookup_isSome ?_
  unfold TProgram.types
  rw [List.map_append]
  cases hn with
  | own _ b hd =>
    obtain ⟨t, h1, _⟩ := hp.inv.types' n b ((h.declares hq).1 hd)
    exact List.mem_append_left _ (List.mem_map.2 ⟨_, h1, rfl⟩)
  | included i m b hi hd =>
    obtain ⟨F, h1, h2⟩ := hi
    rw [hp.src] at h1
    cases h1
    rw [← hp.files] at h2
    obtain ⟨x, hx, rfl⟩ := List.mem_map.1 h2
    have hxa := hp.mem x hx
    obtain ⟨incs', hp'⟩ := h.parsed hxa
    obtain ⟨t, h3, _⟩ := hp'.inv.types' m b ((h.declares hxa).1 hd)
    refine List.mem_append_right _ (List.mem_map.2 ⟨(programName x.file ++ 46 :: m, t), ?_, (pyDot _ _).symm⟩)
    rw [hp.types]
    exact List.mem_flatMap.2 ⟨x, List.mem_reverse.2 hx, List.mem_map.2 ⟨_, h3, rfl⟩⟩

theorem Linked.simple (h : Linked fs all) {q : TProgram} (hq : q ∈ all) {d : Decl} (hd : d ∈ q.src.decls) : 46 ∉ d.name := by
  obtain ⟨incs, hp⟩ := h.parsed hq
  exact simple_dot (hp.inv.simple d hd)

theorem not_dotted {n a m : PyStr} (h : 46 ∉ n) : n ≠ a ++ 46 :: m := by
  rintro rfl
  simp at h

/-- If no two included files have the same base name, a name means one declaration. -/
theorem Linked.names_one (h : Linked fs all) (hc : Clear fs) {q : TProgram} (hq : q ∈ all) {n : PyStr} {id id' : Id} (h1 : Names fs q.file n id) (h2 : Names fs q.file n id') : id = id' := by
  revert h1 h2
  generalize hf : q.file = f
  intro h1 h2
  cases h1 with
  | own _ b hd =>
    subst hf
    have hs := h.simple hq ((h.declares hq).1 hd)
    revert h2
    generalize hn : n = n'
    intro h2
    cases h2 with
    | own _ b' hd' => rfl
    | included i m b' hi hd' =>
      rw [pyDot] at hn
      exact absurd hn (not_dotted hs)
  | included i m b hi hd =>
    subst hf
    revert h2
    generalize hn : programName i ++ pyStr "." ++ m = n'
    intro h2
    obtain ⟨qi, hqi, rfl⟩ := h.inc hq hi
    have hs : 46 ∉ m := h.simple hqi ((h.declares hqi).1 hd)
    cases h2 with
    | own _ b' hd' =>
      have hs' : 46 ∉ n' := h.simple hq ((h.declares hq).1 hd')
      rw [pyDot] at hn
      exact absurd hn.symm (not_dotted hs')
    | included j m' b' hj hd' =>
      obtain ⟨qj, hqj, rfl⟩ := h.inc hq hj
      have hs' : 46 ∉ m' := h.simple hqj ((h.declares hqj).1 hd')
      rw [pyDot, pyDot] at hn
      obtain ⟨e1, e2⟩ := dotted_inj hs hs' hn
      rw [hc _ _ _ hi hj e1, e2]

/-! ### What a type is -/

theorem meaning_mono {ps : List TProgram} {k : Nat} {t : Typ} {m : Mean} (h : meaning ps k t = some m) : meaning ps (k + 1) t = some m := by
  induction k generalizing t m with
  | zero => cases h
  | succ k ih =>
    cases t with
    | base b => exact h
    | enum i => exact h
    | struct i => exact h
    | list e =>
      rw [meaning] at h ⊢
      cases e1 : meaning ps k e with
      | none => rw [e1] at h; cases h
      | some x => rw [e1] at h; rw [ih e1]; exact h
    | set e =>
      rw [meaning] at h ⊢
      cases e1 : meaning ps k e with
      | none => rw [e1] at h; cases h
      | some x => rw [e1] at h; rw [ih e1]; exact h
    | map a b =>
      rw [meaning] at h ⊢
      cases e1 : meaning ps k a with
      | none => rw [e1] at h; cases h
      | some x =>
        cases e2 : meaning ps k b with
        | none => rw [e1, e2] at h; cases h
        | some y => rw [e1, e2] at h; rw [ih e1, ih e2]; exact h
    | typedef i t => rw [meaning] at h ⊢; exact ih h
    | forward f n =>
      rw [meaning] at h ⊢
      split at h
      · rename_i t ht
        exact ih h
      · cases h

theorem meaning_le {ps : List TProgram} {k k' : Nat} {t : Typ} {m : Mean} (h : meaning ps k t = some m) (hk : k ≤ k') : meaning ps k' t = some m := by
  induction hk with
  | refl => exact h
  | step _ ih => exact meaning_mono ih

theorem Rep.body (h : Linked fs all) {id : Id} {t : Typ} (hr : Rep all id t) :
    ∃ q ∈ all, q.file = id.file ∧ ∃ b, Declares fs id b ∧ TypFor q.file q.types id.name b t := by
  obtain ⟨q, hq, e, hm⟩ := hr
  obtain ⟨incs, hp⟩ := h.parsed hq
  obtain ⟨b, h1, h2⟩ := hp.inv.types _ _ hm
  refine ⟨q, hq, e, b, ?_, h2⟩
  have := (h.declares hq).2 h1
  rw [e] at this
  exact this

theorem id_eta {id : Id} {f : Path} (e : f = id.file) : (⟨f, id.name⟩ : Id) = id := by subst e; rfl

theorem denotes_step (h : Linked fs all) (k : Nat) :
    (∀ {q : TProgram}, q ∈ all → ∀ {n : PyStr} {id : Id}, Names fs q.file n id → ∀ {t : Typ}, Rep all id t → ∀ {m : Mean}, meaning all k t = some m → Denotes fs q.file (.named n) m) ∧
    ∀ {q : TProgram}, q ∈ all → ∀ {sc : List (PyStr × Typ)}, Sub sc q.types → ∀ (w : Written) {m : Mean}, meaning all k (fieldType sc q.file w) = some m → Denotes fs q.file w m := by
  induction k with
  | zero => refine ⟨?_, ?_⟩ <;> intros <;> contradiction
  | succ k ih =>
    have hA : ∀ {q : TProgram}, q ∈ all → ∀ {n : PyStr} {id : Id}, Names fs q.file n id → ∀ {t : Typ}, Rep all id t → ∀ {m : Mean}, meaning all (k + 1) t = some m →
        Denotes fs q.file (.named n) m := by
      intro q hq n id hn t hr m e
      obtain ⟨q', hq', e', b, hd, ht⟩ := hr.body h
      cases b with
      | enum =>
        have ht : t = .enum ⟨q'.file, id.name⟩ := ht
        rw [ht, id_eta e', meaning] at e
        cases e
        exact .enum _ _ _ hn hd
      | struct ws =>
        have ht : t = .struct ⟨q'.file, id.name⟩ := ht
        rw [ht, id_eta e', meaning] at e
        cases e
        exact .struct _ _ _ ws hn hd
      | typedef w =>
        obtain ⟨sc, hs, ht⟩ := ht
        rw [ht, meaning] at e
        exact .typedef _ _ _ w m hn hd (e' ▸ ih.2 hq' hs w e)
    refine ⟨hA, fun {q} hq {sc} hs w {m} e => ?_⟩
    cases w with
    | base b => rw [fieldType, meaning] at e; cases e; exact .base _ _
    | list x =>
      rw [fieldType, meaning] at e
      cases e1 : meaning all k (fieldType sc q.file x) with
      | none => rw [e1] at e; cases e
      | some y => rw [e1] at e; cases e; exact .list _ _ _ (ih.2 hq hs x e1)
    | set x =>
      rw [fieldType, meaning] at e
      cases e1 : meaning all k (fieldType sc q.file x) with
      | none => rw [e1] at e; cases e
      | some y => rw [e1] at e; cases e; exact .set _ _ _ (ih.2 hq hs x e1)
    | map a b =>
      rw [fieldType, meaning] at e
      cases e1 : meaning all k (fieldType sc q.file a) with
      | none => rw [e1] at e; cases e
      | some y =>
        cases e2 : meaning all k (fieldType sc q.file b) with
        | none => rw [e1, e2] at e; cases e
        | some z => rw [e1, e2] at e; cases e; exact .map _ _ _ _ _ (ih.2 hq hs a e1) (ih.2 hq hs b e2)
    | named n =>
      rw [fieldType] at e
      split at e
      · rename_i t ht
        obtain ⟨id, hn, hr⟩ := h.lookup hq (hs _ _ ht)
        exact hA hq hn hr e
      · rw [meaning, h.progOf hq] at e
        split at e
        · rename_i t ht
          obtain ⟨id, hn, hr⟩ := h.lookup hq ht
          exact ih.1 hq hn hr e
        · cases e

theorem field_denotes (h : Linked fs all) {q : TProgram} (hq : q ∈ all) {sc : List (PyStr × Typ)} (hs : Sub sc q.types) (w : Written) (k : Nat) {m : Mean}
    (e : meaning all k (fieldType sc q.file w) = some m) : Denotes fs q.file w m := (denotes_step h k).2 hq hs w e

theorem Linked.body_one (h : Linked fs all) {q : TProgram} (hq : q ∈ all) {id : Id} (e : q.file = id.file) {b b' : Body} (h1 : Declares fs id b) (h2 : Declares fs id b') : b = b' := by
  rw [← id_eta e] at h1 h2
  have := h.decl_once hq ((h.declares hq).1 h1) ((h.declares hq).1 h2) rfl
  cases this
  rfl

theorem denotes_field (h : Linked fs all) (hc : Clear fs) {f : Path} {w : Written} {m : Mean} (hd : Denotes fs f w m) :
    ∀ {q : TProgram}, q ∈ all → q.file = f → ∀ {sc : List (PyStr × Typ)}, Sub sc q.types → ∃ k, meaning all k (fieldType sc q.file w) = some m := by
  have named : ∀ {q : TProgram}, q ∈ all → ∀ {sc : List (PyStr × Typ)}, Sub sc q.types → ∀ {n : PyStr} {id : Id}, Names fs q.file n id →
      ∃ t, Rep all id t ∧ ∀ k m, meaning all k t = some m → ∃ k', meaning all k' (fieldType sc q.file (.named n)) = some m := by
    intro q hq sc hs n id hn
    obtain ⟨t, ht⟩ := h.names_found hq hn
    obtain ⟨id', hn', hr⟩ := h.lookup hq ht
    cases h.names_one hc hq hn hn'
    refine ⟨t, hr, fun k m e => ?_⟩
    rw [fieldType]
    cases hl : sc.lookup n with
    | some t' =>
      have := hs _ _ hl
      rw [ht] at this
      cases this
      exact ⟨k, e⟩
    | none =>
      refine ⟨k + 1, ?_⟩
      dsimp only
      rw [meaning, h.progOf hq]
      have : ((some q).bind fun p => p.types.lookup n) = some t := ht
      rw [this]
      exact e
  induction hd with
  | base f b => intro q hq _ sc hs; exact ⟨1, rfl⟩
  | list f w m _ ih =>
    intro q hq e sc hs
    obtain ⟨k, hk⟩ := ih hq e hs
    exact ⟨k + 1, by rw [fieldType, meaning, hk]; rfl⟩
  | set f w m _ ih =>
    intro q hq e sc hs
    obtain ⟨k, hk⟩ := ih hq e hs
    exact ⟨k + 1, by rw [fieldType, meaning, hk]; rfl⟩
  | map f a b m n _ _ iha ihb =>
    intro q hq e sc hs
    obtain ⟨k, hk⟩ := iha hq e hs
    obtain ⟨k', hk'⟩ := ihb hq e hs
    exact ⟨max k k' + 1, by rw [fieldType, meaning, meaning_le hk (Nat.le_max_left _ _), meaning_le hk' (Nat.le_max_right _ _)]⟩
  | enum f n id hn hd =>
    intro q hq e sc hs
    subst e
    obtain ⟨t, hr, ht⟩ := named hq hs hn
    obtain ⟨q', hq', e', b, hd', htf⟩ := hr.body h
    cases h.body_one hq' e' hd hd'
    have htf : t = .enum ⟨q'.file, id.name⟩ := htf
    exact ht 1 _ (by rw [htf, id_eta e', meaning])
  | struct f n id ws hn hd =>
    intro q hq e sc hs
    subst e
    obtain ⟨t, hr, ht⟩ := named hq hs hn
    obtain ⟨q', hq', e', b, hd', htf⟩ := hr.body h
    cases h.body_one hq' e' hd hd'
    have htf : t = .struct ⟨q'.file, id.name⟩ := htf
    exact ht 1 _ (by rw [htf, id_eta e', meaning])
  | typedef f n id w m hn hd _ ih =>
    intro q hq e sc hs
    subst e
    obtain ⟨t, hr, ht⟩ := named hq hs hn
    obtain ⟨q', hq', e', b, hd', htf⟩ := hr.body h
    cases h.body_one hq' e' hd hd'
    obtain ⟨sc', hs', htf⟩ := htf
    obtain ⟨k, hk⟩ := ih hq' e' hs'
    exact ht (k + 1) _ (by rw [htf, meaning]; exact hk)

end Thrift.Includes
