import Verif.Proofs.Exec
/-
More fuel does not change a result.
-/

namespace Thrift

/-- `q` does what `p` does as long as `p` does not run out of fuel. -/
def Prog.Le {α : Type} : Prog α → Prog α → Prop
  | .diverge, _ => True
  | .ret a, q => q = .ret a
  | .read n k, q => ∃ k', q = .read n k' ∧ ∀ r, (k r).Le (k' r)

theorem Prog.Le.refl {α : Type} (p : Prog α) : p.Le p := by
  induction p with
  | ret a => rfl
  | diverge => trivial
  | read n k ih => exact ⟨k, rfl, ih⟩

theorem Prog.Le.bind {α β : Type} {p q : Prog α} {f g : α → Prog β} (h : p.Le q)
    (hf : ∀ a, (f a).Le (g a)) : (p.bind f).Le (q.bind g) := by
  induction p generalizing q with
  | ret a => cases h; exact hf a
  | diverge => trivial
  | read n k ih =>
    obtain ⟨k', rfl, hk⟩ := h
    exact ⟨_, rfl, fun r => ih r (hk r)⟩

theorem Prog.Le.run {α τ : Type} {p q : Prog α} (h : p.Le q)
    (step : Nat → τ → Option (Except Exc Bytes × τ)) {t : τ} {r : α × τ}
    (e : p.run step t = some r) : q.run step t = some r := by
  induction p generalizing q t with
  | ret a => cases h; exact e
  | diverge => cases e
  | read n k ih =>
    obtain ⟨k', rfl, hk⟩ := h
    simp only [Prog.run] at e ⊢
    split at e
    · cases e
    · exact ih _ (hk _) e

section
variable {σ α β : Type}

/-- The same for methods. -/
def PLe (m n : P σ α) : Prop := ∀ s, (m s).Le (n s)

theorem PLe.refl (m : P σ α) : PLe m m := fun s => Prog.Le.refl (m s)

theorem PLe.Pbind {m n : P σ α} {f g : α → P σ β} (h : PLe m n) (hf : ∀ a, PLe (f a) (g a)) :
    PLe (P.bind m f) (P.bind n g) := by
  intro s
  refine Prog.Le.bind (h s) ?_
  rintro ⟨r, s'⟩
  cases r with
  | ok a => exact hf a s'
  | error e => exact Prog.Le.refl _

theorem PLe.bind {m n : P σ α} {f g : α → P σ β} (h : PLe m n) (hf : ∀ a, PLe (f a) (g a)) :
    PLe (m >>= f) (n >>= g) := PLe.Pbind h hf

theorem PLe.ite {c : Prop} [Decidable c] {m n m' n' : P σ α} (h1 : PLe m m') (h2 : PLe n n') :
    PLe (if c then m else n) (if c then m' else n') := by
  split
  · exact h1
  · exact h2

theorem PLe.tryFinally {m n : P σ α} (f : σ → σ) (h : PLe m n) :
    PLe (P.tryFinally m f) (P.tryFinally n f) :=
  fun s => Prog.Le.bind (h s) fun _ => Prog.Le.refl _

theorem PLe.repeatN {m n : P σ α} (h : PLe m n) (k : Nat) : PLe (P.repeatN k m) (P.repeatN k n) := by
  induction k with
  | zero => exact PLe.refl _
  | succ k ih => exact PLe.Pbind h fun a => PLe.Pbind ih fun as => PLe.refl _

theorem PLe.repeatN_ {m n : P σ Unit} (h : PLe m n) (k : Nat) : PLe (P.repeatN_ k m) (P.repeatN_ k n) := by
  induction k with
  | zero => exact PLe.refl _
  | succ k ih => exact PLe.Pbind h fun a => ih

theorem PLe.whileTrue {body body' : α → P σ (α ⊕ β)} (h : ∀ a, PLe (body a) (body' a)) {f f' : Nat}
    (hf : f ≤ f') (a : α) : PLe (P.whileTrue f body a) (P.whileTrue f' body' a) := by
  induction f generalizing f' a with
  | zero => intro s; trivial
  | succ f ih =>
    obtain ⟨g, rfl⟩ : ∃ g, f' = g + 1 := ⟨f' - 1, by omega⟩
    refine PLe.Pbind (h a) fun r => ?_
    cases r with
    | inl a' => exact ih (by omega) a'
    | inr b => exact PLe.refl _

theorem skip_fuel (ops : RdOps σ) {f f' : Nat} (hf : f ≤ f') (d : Nat) (tt : Int) :
    PLe (skip ops f d tt) (skip ops f' d tt) := by
  induction d generalizing tt with
  | zero => exact PLe.refl _
  | succ d ih =>
    unfold skip
    iterate 7 refine PLe.ite (PLe.refl _) ?_
    refine PLe.ite (PLe.bind (PLe.refl _) fun _ => PLe.bind (PLe.whileTrue (fun _ => ?_) hf ()) fun _ =>
      PLe.refl _) ?_
    · exact PLe.bind (PLe.refl _) fun x => PLe.ite (PLe.refl _) (PLe.bind (ih _) fun _ => PLe.refl _)
    refine PLe.ite (PLe.bind (PLe.refl _) fun x => PLe.bind (PLe.repeatN_ (PLe.bind (ih _) fun _ => ih _) _)
      fun _ => PLe.refl _) ?_
    refine PLe.ite (PLe.bind (PLe.refl _) fun x => PLe.bind (PLe.repeatN_ (ih _) _) fun _ => PLe.refl _) ?_
    refine PLe.ite (PLe.bind (PLe.refl _) fun x => PLe.bind (PLe.repeatN_ (ih _) _) fun _ => PLe.refl _) ?_
    exact PLe.refl _

variable [HasDepth σ]

theorem readVal_fuel (ops : RdOps σ) (sch : Schema) (mode : Mode) {f f' : Nat} (hf : f ≤ f') (t : Ty) :
    PLe (readVal ops sch mode f t) (readVal ops sch mode f' t) := by
  induction f generalizing f' t with
  | zero =>
    cases t <;> try unfold readVal
    any_goals exact PLe.refl _
    all_goals exact fun s => trivial
  | succ f ih =>
    obtain ⟨g, rfl⟩ : ∃ g, f' = g + 1 := ⟨f' - 1, by omega⟩
    have ih' := fun t => ih (f' := g) (by omega) t
    cases t <;> try unfold readVal
    any_goals exact PLe.refl _
    · exact PLe.bind (PLe.refl _) fun x => PLe.bind (PLe.repeatN (ih' _) _) fun _ => PLe.refl _
    · exact PLe.bind (PLe.refl _) fun x => PLe.bind (PLe.repeatN (PLe.bind (ih' _) fun _ => PLe.refl _) _)
        fun _ => PLe.refl _
    · exact PLe.bind (PLe.refl _) fun x => PLe.bind (PLe.repeatN (PLe.bind (ih' _) fun _ =>
        PLe.bind (ih' _) fun _ => PLe.refl _) _) fun _ => PLe.refl _
    · rename_i sid
      have hc : PLe (readStructCore ops mode f (sch sid) (readVal ops sch mode f) (skip ops f skipDepth))
          (readStructCore ops mode g (sch sid) (readVal ops sch mode g) (skip ops g skipDepth)) := by
        have hsk := fun tt => skip_fuel ops (show f ≤ g by omega) skipDepth tt
        refine PLe.bind (PLe.refl _) fun _ => PLe.bind (PLe.whileTrue (fun as => ?_) (by omega) _) fun _ =>
          PLe.refl _
        refine PLe.bind (PLe.refl _) fun x => PLe.ite (PLe.refl _) ?_
        split
        · exact PLe.bind (hsk _) fun _ => PLe.refl _
        · split
          · exact PLe.refl _
          · exact PLe.ite (PLe.bind (ih' _) fun _ => PLe.refl _) (PLe.bind (hsk _) fun _ => PLe.refl _)
      cases mode
      · exact PLe.bind (PLe.refl _) fun _ => PLe.tryFinally _ hc
      · exact hc

end
end Thrift
