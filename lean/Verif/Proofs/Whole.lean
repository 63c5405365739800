import Verif.Proofs.Exec
/-
Whether a call that returned was ever given less than it asked for.
-/

namespace Thrift

/-- A memory buffer that remembers whether it ever had to return less than was asked for. -/
def hitStep (n : Nat) (t : Bytes × Bool) : Option (Except Exc Bytes × (Bytes × Bool)) :=
  some (.ok (t.1.take n), (t.1.drop n, t.2 || decide (t.1.length < n)))

theorem hit_of_mem {α : Type} {p : Prog α} {b b' : Bytes} {r : α} (e : p.run memStep b = some (r, b')) (h : Bool) :
    ∃ h', p.run hitStep (b, h) = some (r, (b', h')) := by
  induction p generalizing b h with
  | ret a =>
    simp only [Prog.run, Option.some.injEq, Prod.mk.injEq] at e
    exact ⟨h, by simp [Prog.run, e]⟩
  | read n k ih => exact ih _ e _
  | diverge => cases e

theorem hit_true {α : Type} {p : Prog α} {b b' : Bytes} {r : α} {h' : Bool}
    (e : p.run hitStep (b, true) = some (r, (b', h'))) : h' = true := by
  induction p generalizing b with
  | ret a =>
    simp only [Prog.run, Option.some.injEq, Prod.mk.injEq] at e
    exact e.2.2.symm
  | read n k ih =>
    refine ih (.ok (b.take n)) (b := b.drop n) ?_
    simpa [Prog.run, hitStep] using e
  | diverge => cases e

/-- A call that was always given what it asked for does the same when more follows. -/
theorem mem_of_hit {α : Type} {p : Prog α} {b b' : Bytes} {r : α} (e : p.run hitStep (b, false) = some (r, (b', false)))
    (q : Bytes) : p.run memStep (b ++ q) = some (r, b' ++ q) := by
  induction p generalizing b with
  | ret a =>
    simp only [Prog.run, Option.some.injEq, Prod.mk.injEq] at e
    simp [Prog.run, e]
  | read n k ih =>
    by_cases hn : b.length < n
    · have e' : (k (.ok (b.take n))).run hitStep (b.drop n, true) = some (r, (b', false)) := by
        simpa [Prog.run, hitStep, hn] using e
      cases hit_true e'
    · have e' : (k (.ok (b.take n))).run hitStep (b.drop n, false) = some (r, (b', false)) := by
        simpa [Prog.run, hitStep, hn] using e
      have := ih _ e'
      rw [Prog.run]
      simp only [memStep]
      rw [List.take_append_of_le_length (by omega), List.drop_append_of_le_length (by omega)]
      exact this
  | diverge => cases e

section
variable {σ α β : Type}

/-- From a situation that satisfies `A`, a call that returns a value ends in one that satisfies `Q`. The
last argument tells whether the buffer ever returned less than was asked for. -/
def HT (A : σ → Bytes → Bool → Prop) (m : P σ α) (Q : α → σ → Bytes → Bool → Prop) : Prop :=
  ∀ s b h, A s b h → ∀ a s' b' h', (m s).run hitStep (b, h) = some ((.ok a, s'), (b', h')) → Q a s' b' h'

variable {A : σ → Bytes → Bool → Prop}

theorem HT.mono {m : P σ α} {Q R : α → σ → Bytes → Bool → Prop} (h : HT A m Q)
    (hqr : ∀ a s b h, Q a s b h → R a s b h) : HT A m R :=
  fun s b x ha a s' b' h' e => hqr _ _ _ _ (h s b x ha a s' b' h' e)

theorem HT.pre {A' : σ → Bytes → Bool → Prop} {m : P σ α} {Q : α → σ → Bytes → Bool → Prop} (h : HT A m Q)
    (ha : ∀ s b h, A' s b h → A s b h) : HT A' m Q :=
  fun s b hh h' => h s b hh (ha _ _ _ h')

theorem HT.pure {a : α} {Q : α → σ → Bytes → Bool → Prop} (h : ∀ s b x, A s b x → Q a s b x) :
    HT A (Pure.pure a) Q := by
  intro s b x ha a' s' b' h' e
  simp only [Pure.pure, P.pure, Prog.run, Option.some.injEq, Prod.mk.injEq, Except.ok.injEq] at e
  obtain ⟨⟨rfl, rfl⟩, rfl, rfl⟩ := e
  exact h _ _ _ ha

theorem HT.Ppure {a : α} {Q : α → σ → Bytes → Bool → Prop} (h : ∀ s b x, A s b x → Q a s b x) :
    HT A (P.pure a) Q := HT.pure h

theorem HT.raise {e : Exc} {Q : α → σ → Bytes → Bool → Prop} : HT A (P.raise e) Q := by
  intro s b x ha a' s' b' h' e
  simp [P.raise, Prog.run] at e

theorem HT.diverge {Q : α → σ → Bytes → Bool → Prop} : HT A P.diverge Q := by
  intro s b x ha a' s' b' h' e
  cases e

theorem HT.lift {r : Except Exc α} {Q : α → σ → Bytes → Bool → Prop} (h : ∀ a, r = .ok a → ∀ s b x, A s b x → Q a s b x) :
    HT A (P.lift r) Q := by
  intro s b x ha a' s' b' h' e
  simp only [P.lift, Prog.run, Option.some.injEq, Prod.mk.injEq] at e
  obtain ⟨⟨e1, rfl⟩, rfl, rfl⟩ := e
  exact h _ e1 _ _ _ ha

theorem HT.get {Q : σ → σ → Bytes → Bool → Prop} (h : ∀ s b x, A s b x → Q s s b x) : HT A P.get Q := by
  intro s b x ha a' s' b' h' e
  simp only [P.get, Prog.run, Option.some.injEq, Prod.mk.injEq, Except.ok.injEq] at e
  obtain ⟨⟨rfl, rfl⟩, rfl, rfl⟩ := e
  exact h _ _ _ ha

theorem HT.set {s1 : σ} {Q : Unit → σ → Bytes → Bool → Prop} (h : ∀ s b x, A s b x → Q () s1 b x) : HT A (P.set s1) Q := by
  intro s b x ha a' s' b' h' e
  simp only [P.set, Prog.run, Option.some.injEq, Prod.mk.injEq] at e
  obtain ⟨⟨-, rfl⟩, rfl, rfl⟩ := e
  exact h _ _ _ ha

theorem HT.modify {f : σ → σ} {Q : Unit → σ → Bytes → Bool → Prop} (h : ∀ s b x, A s b x → Q () (f s) b x) :
    HT A (P.modify f) Q := by
  intro s b x ha a' s' b' h' e
  simp only [P.modify, Prog.run, Option.some.injEq, Prod.mk.injEq] at e
  obtain ⟨⟨-, rfl⟩, rfl, rfl⟩ := e
  exact h _ _ _ ha

theorem HT.transRead {n : Nat} {Q : Bytes → σ → Bytes → Bool → Prop}
    (h : ∀ s b x, A s b x → Q (b.take n) s (b.drop n) (x || decide (b.length < n))) : HT A (P.transRead n) Q := by
  intro s b x ha a' s' b' h' e
  simp only [P.transRead, Prog.run, hitStep, Option.some.injEq, Prod.mk.injEq, Except.ok.injEq] at e
  obtain ⟨⟨rfl, rfl⟩, rfl, rfl⟩ := e
  exact h _ _ _ ha

theorem HT.Pbind {m : P σ α} {k : α → P σ β} {Q : α → σ → Bytes → Bool → Prop} {R : β → σ → Bytes → Bool → Prop}
    (hm : HT A m Q) (hk : ∀ a, HT (Q a) (k a) R) : HT A (P.bind m k) R := by
  intro s b x ha c s' b' h' e
  unfold P.bind at e
  rw [Prog.run_bind] at e
  split at e
  · cases e
  · rename_i r t' er
    obtain ⟨r, s1⟩ := r
    obtain ⟨b1, h1⟩ := t'
    cases r with
    | error e' => simp [Prog.run] at e
    | ok a => exact hk a s1 b1 h1 (hm s b x ha a s1 b1 h1 er) c s' b' h' e

theorem HT.bind {m : P σ α} {k : α → P σ β} {Q : α → σ → Bytes → Bool → Prop} {R : β → σ → Bytes → Bool → Prop}
    (hm : HT A m Q) (hk : ∀ a, HT (Q a) (k a) R) : HT A (m >>= k) R := HT.Pbind hm hk

theorem HT.ite {c : Prop} [Decidable c] {m n : P σ α} {Q : α → σ → Bytes → Bool → Prop}
    (hm : c → HT A m Q) (hn : ¬ c → HT A n Q) : HT A (if c then m else n) Q := by
  split
  · exact hm ‹_›
  · exact hn ‹_›

theorem HT.whileTrue {body : α → P σ (α ⊕ β)} {I : α → σ → Bytes → Bool → Prop} {Q : β → σ → Bytes → Bool → Prop}
    (hb : ∀ a, HT (I a) (body a) fun r => match r with | .inl a' => I a' | .inr b => Q b)
    (f : Nat) (a : α) : HT (I a) (P.whileTrue f body a) Q := by
  induction f generalizing a with
  | zero => exact HT.diverge
  | succ f ih =>
    refine HT.Pbind (hb a) fun r => ?_
    cases r with
    | inl a' => exact ih a'
    | inr b => exact HT.Ppure fun _ _ _ h => h

/-- A call that returned was given everything it asked for. -/
def Keeps (m : P σ α) : Prop := HT (fun _ _ h => h = false) m (fun _ _ _ h => h = false)

theorem Keeps.pure {a : α} : Keeps (Pure.pure a : P σ α) := HT.pure fun _ _ _ h => h
theorem Keeps.raise {e : Exc} : Keeps (P.raise e : P σ α) := HT.raise
theorem Keeps.diverge : Keeps (P.diverge : P σ α) := HT.diverge
theorem Keeps.bind {m : P σ α} {k : α → P σ β} (hm : Keeps m) (hk : ∀ a, Keeps (k a)) : Keeps (m >>= k) :=
  HT.bind hm hk
theorem Keeps.ite {c : Prop} [Decidable c] {m n : P σ α} (hm : Keeps m) (hn : Keeps n) : Keeps (if c then m else n) :=
  HT.ite (fun _ => hm) fun _ => hn

theorem Keeps.repeatN {m : P σ α} (hm : Keeps m) (n : Nat) : Keeps (P.repeatN n m) := by
  induction n with
  | zero => exact HT.Ppure fun _ _ _ h => h
  | succ n ih => exact HT.Pbind hm fun _ => HT.Pbind ih fun _ => HT.Ppure fun _ _ _ h => h

theorem Keeps.repeatN_ {m : P σ Unit} (hm : Keeps m) (n : Nat) : Keeps (P.repeatN_ n m) := by
  induction n with
  | zero => exact HT.Ppure fun _ _ _ h => h
  | succ n ih => exact HT.Pbind hm fun _ => ih

theorem Keeps.whileTrue {body : α → P σ (α ⊕ β)} (hb : ∀ a, Keeps (body a)) (f : Nat) (a : α) :
    Keeps (P.whileTrue f body a) :=
  HT.whileTrue (I := fun _ _ _ h => h = false) (Q := fun _ _ _ h => h = false)
    (fun a => (hb a).mono fun r _ _ _ h => by cases r <;> exact h) f a

theorem Keeps.tryFinally {m : P σ α} (hm : Keeps m) (f : σ → σ) : Keeps (P.tryFinally m f) := by
  intro s b x ha a s' b' h' e
  unfold P.tryFinally at e
  rw [Prog.run_bind] at e
  split at e
  · cases e
  · rename_i r t' er
    obtain ⟨r, s1⟩ := r
    obtain ⟨b1, h1⟩ := t'
    simp only [Prog.run, Option.some.injEq, Prod.mk.injEq] at e
    obtain ⟨⟨rfl, rfl⟩, rfl, rfl⟩ := e
    exact hm s b x ha a s1 b1 h1 er

variable [HasDepth σ]

theorem Keeps.incDepth : Keeps (incDepth : P σ Unit) := by
  unfold Thrift.incDepth
  refine HT.bind (Q := fun _ _ _ h => h = false) (HT.modify fun _ _ _ h => h) fun _ =>
    HT.bind (Q := fun _ _ _ h => h = false) (HT.get fun _ _ _ h => h) fun _ => HT.ite (fun _ => ?_) fun _ => ?_
  · exact HT.bind (Q := fun _ _ _ h => h = false) (HT.modify fun _ _ _ h => h) fun _ => HT.raise
  · exact HT.pure fun _ _ _ h => h

/-- Every reading method of a protocol returns only if it was given everything it asked for. -/
structure KeepsOps (ops : RdOps σ) : Prop where
  structBegin : Keeps ops.readStructBegin
  structEnd : Keeps ops.readStructEnd
  fieldBegin : Keeps ops.readFieldBegin
  fieldEnd : Keeps ops.readFieldEnd
  mapBegin : Keeps ops.readMapBegin
  mapEnd : Keeps ops.readMapEnd
  listBegin : Keeps ops.readListBegin
  listEnd : Keeps ops.readListEnd
  setBegin : Keeps ops.readSetBegin
  setEnd : Keeps ops.readSetEnd
  bool : Keeps ops.readBool
  byte : Keeps ops.readByte
  i16 : Keeps ops.readI16
  i32 : Keeps ops.readI32
  i64 : Keeps ops.readI64
  double : Keeps ops.readDouble
  string : Keeps ops.readString
  binary : Keeps ops.readBinary
  uuid : Keeps ops.readUuid

omit [HasDepth σ] in
theorem skip_keeps {ops : RdOps σ} (H : KeepsOps ops) (fuel d : Nat) (tt : Int) : Keeps (skip ops fuel d tt) := by
  induction d generalizing tt with
  | zero => exact Keeps.raise
  | succ d ih =>
    unfold skip
    refine Keeps.ite (H.bool.bind fun _ => Keeps.pure) ?_
    refine Keeps.ite (H.byte.bind fun _ => Keeps.pure) ?_
    refine Keeps.ite (H.i16.bind fun _ => Keeps.pure) ?_
    refine Keeps.ite (H.i32.bind fun _ => Keeps.pure) ?_
    refine Keeps.ite (H.i64.bind fun _ => Keeps.pure) ?_
    refine Keeps.ite (H.double.bind fun _ => Keeps.pure) ?_
    refine Keeps.ite (H.string.bind fun _ => Keeps.pure) ?_
    refine Keeps.ite (H.structBegin.bind fun _ => (Keeps.whileTrue (fun _ => ?_) fuel ()).bind fun _ => H.structEnd) ?_
    · refine H.fieldBegin.bind fun x => Keeps.ite Keeps.pure ?_
      exact (ih _).bind fun _ => H.fieldEnd.bind fun _ => Keeps.pure
    refine Keeps.ite (H.mapBegin.bind fun x => (Keeps.repeatN_ ((ih _).bind fun _ => ih _) _).bind fun _ => H.mapEnd) ?_
    refine Keeps.ite (H.setBegin.bind fun x => (Keeps.repeatN_ (ih _) _).bind fun _ => H.setEnd) ?_
    refine Keeps.ite (H.listBegin.bind fun x => (Keeps.repeatN_ (ih _) _).bind fun _ => H.listEnd) ?_
    exact Keeps.ite (H.uuid.bind fun _ => Keeps.pure) Keeps.raise

theorem readVal_keeps {ops : RdOps σ} (H : KeepsOps ops) (sch : Schema) (mode : Mode) (fuel : Nat) (t : Ty) :
    Keeps (readVal ops sch mode fuel t) := by
  induction fuel generalizing t with
  | zero =>
    cases t <;> unfold readVal
    · exact H.bool.bind fun _ => Keeps.pure
    · exact H.byte.bind fun _ => Keeps.pure
    · exact H.i16.bind fun _ => Keeps.pure
    · exact H.i32.bind fun _ => Keeps.pure
    · exact H.i64.bind fun _ => Keeps.pure
    · exact H.double.bind fun _ => Keeps.pure
    · exact H.string.bind fun _ => Keeps.pure
    · exact H.binary.bind fun _ => Keeps.pure
    · exact H.uuid.bind fun _ => Keeps.pure
    all_goals exact Keeps.diverge
  | succ f ih =>
    cases t <;> try unfold readVal
    · exact H.bool.bind fun _ => Keeps.pure
    · exact H.byte.bind fun _ => Keeps.pure
    · exact H.i16.bind fun _ => Keeps.pure
    · exact H.i32.bind fun _ => Keeps.pure
    · exact H.i64.bind fun _ => Keeps.pure
    · exact H.double.bind fun _ => Keeps.pure
    · exact H.string.bind fun _ => Keeps.pure
    · exact H.binary.bind fun _ => Keeps.pure
    · exact H.uuid.bind fun _ => Keeps.pure
    · exact H.listBegin.bind fun _ => (Keeps.repeatN (ih _) _).bind fun _ => H.listEnd.bind fun _ => Keeps.pure
    · exact H.setBegin.bind fun _ => (Keeps.repeatN ((ih _).bind fun _ => Keeps.ite Keeps.pure Keeps.raise) _).bind
        fun _ => H.setEnd.bind fun _ => Keeps.pure
    · exact H.mapBegin.bind fun _ => (Keeps.repeatN ((ih _).bind fun _ => (ih _).bind fun _ =>
        Keeps.ite Keeps.pure Keeps.raise) _).bind fun _ => H.mapEnd.bind fun _ => Keeps.pure
    · rename_i sid
      have hc : Keeps (readStructCore ops mode f (sch sid) (readVal ops sch mode f) (skip ops f skipDepth)) := by
        refine H.structBegin.bind fun _ => (Keeps.whileTrue (fun as => ?_) f _).bind fun _ =>
          H.structEnd.bind fun _ => Keeps.pure
        refine H.fieldBegin.bind fun x => Keeps.ite Keeps.pure ?_
        split
        · exact (skip_keeps H _ _ _).bind fun _ => H.fieldEnd.bind fun _ => Keeps.pure
        · split
          · exact Keeps.raise
          · refine Keeps.ite ?_ ?_
            · exact (ih _).bind fun _ => H.fieldEnd.bind fun _ => Keeps.pure
            · exact (skip_keeps H _ _ _).bind fun _ => H.fieldEnd.bind fun _ => Keeps.pure
      cases mode
      · exact Keeps.incDepth.bind fun _ => hc.tryFinally _
      · exact hc
end

/-- If a call that returns only if it was given everything it asked for succeeds on the beginning of an input,
it does the same on the whole input. -/
theorem Keeps.extend {σ α : Type} {m : P σ α} (hm : Keeps m) {s s' : σ} {b b' : Bytes} {a : α}
    (e : exec m s b = some ((.ok a, s'), b')) (q : Bytes) : exec m s (b ++ q) = some ((.ok a, s'), b' ++ q) := by
  obtain ⟨h', e'⟩ := hit_of_mem e false
  have := hm s b false rfl a s' b' h' e'
  subst this
  exact mem_of_hit e' q

end Thrift
