import Verif.Spec.Strict
import Verif.Proofs.Exec
/-
The strict reader of `Spec.Strict` does what `TCompactProtocol` does, or raises `OverflowError`.
-/

namespace Thrift
open Spec

/-- `m` does what `m'` does, or raises `OverflowError`. -/
def Refines {σ α : Type} (m m' : P σ α) : Prop := ∀ s r, exec m s r = exec m' s r ∨ ∃ s' r', exec m s r = some ((.error .overflowError, s'), r')

section
variable {σ α β : Type}

theorem Refines.refl (m : P σ α) : Refines m m := fun _ _ => .inl rfl

theorem Refines.bind {m m' : P σ α} {f f' : α → P σ β} (h : Refines m m') (hf : ∀ a, Refines (f a) (f' a)) : Refines (m >>= f) (m' >>= f') := by
  intro s r
  rw [exec_bind, exec_bind]
  rcases h s r with h | ⟨s', r', h⟩
  · rw [h]
    rcases exec m' s r with _ | ⟨⟨e | a, s'⟩, r'⟩
    · exact .inl rfl
    · exact .inl rfl
    · exact hf a s' r'
  · rw [h]
    exact .inr ⟨s', r', rfl⟩

theorem Refines.ite {c : Prop} [Decidable c] {m m' n n' : P σ α} (h : Refines m m') (h' : Refines n n') : Refines (if c then m else n) (if c then m' else n') := by
  split
  · exact h
  · exact h'

theorem Refines.tryFinally {m m' : P σ α} (h : Refines m m') (f : σ → σ) : Refines (P.tryFinally m f) (P.tryFinally m' f) := by
  intro s r
  rw [exec_tryFinally, exec_tryFinally]
  rcases h s r with h | ⟨s', r', h⟩
  · rw [h]
    exact .inl rfl
  · rw [h]
    exact .inr ⟨_, _, rfl⟩

theorem Refines.repeatN {m m' : P σ α} (h : Refines m m') : (n : Nat) → Refines (P.repeatN n m) (P.repeatN n m')
  | 0 => .refl _
  | n + 1 => Refines.bind (f := fun a => P.bind (P.repeatN n m) fun as => P.pure (a :: as)) h fun _ => Refines.bind (f := fun as => P.pure (_ :: as)) (Refines.repeatN h n) fun _ => .refl _

theorem Refines.repeatN_ {m m' : P σ Unit} (h : Refines m m') : (n : Nat) → Refines (P.repeatN_ n m) (P.repeatN_ n m')
  | 0 => .refl _
  | n + 1 => Refines.bind (f := fun _ => P.repeatN_ n m) h fun _ => Refines.repeatN_ h n

theorem Refines.whileTrue {body body' : α → P σ (α ⊕ β)} (h : ∀ a, Refines (body a) (body' a)) : (n : Nat) → (a : α) → Refines (P.whileTrue n body a) (P.whileTrue n body' a)
  | 0, _ => .refl _
  | n + 1, a => by
    unfold P.whileTrue
    refine Refines.bind (h a) fun r => ?_
    cases r with
    | inl a => exact Refines.whileTrue h n a
    | inr b => exact .refl _

theorem Refines.checked {ok : Int → Bool} {m : P σ Int} : Refines (checked ok m) m := by
  intro s r
  unfold Spec.checked
  rw [exec_bind]
  rcases exec m s r with _ | ⟨⟨e | i, s'⟩, r'⟩
  · exact .inl rfl
  · exact .inl rfl
  · rw [Res.andThen_ok]
    split
    · exact .inl rfl
    · exact .inr ⟨_, _, rfl⟩
end

namespace Strict
open Compact Spec.Strict

theorem size_refines : Refines size readSize := .checked
theorem zigzag_refines (bits : Nat) : Refines (zigzag bits) readZigZag := .checked

theorem binary_refines (cfg : Cfg) : Refines (binary cfg) (readBinaryRaw cfg) := .bind size_refines fun _ => .refl _

theorem reader_refines {α : Type} {m m' : P St α} (h : Refines m m') : Refines (reader m) (reader m') := .bind (.refl _) fun _ => .bind (.refl _) fun _ => h

theorem fieldBegin_refines : Refines fieldBegin readFieldBegin := by
  intro s r
  unfold fieldBegin
  rw [exec_bind]
  rcases exec readFieldBegin s r with _ | ⟨⟨e | i, s'⟩, r'⟩
  · exact .inl rfl
  · exact .inl rfl
  · rw [Res.andThen_ok]
    split
    · exact .inl rfl
    · exact .inr ⟨_, _, rfl⟩

theorem collectionBegin_refines (cfg : Cfg) : Refines (collectionBegin cfg) (readCollectionBegin cfg) :=
  .bind (.refl _) fun _ => .bind (.refl _) fun _ => .bind (.refl _) fun _ => .bind (.refl _) fun _ => .ite (.bind size_refines fun _ => .refl _) (.refl _)

theorem mapBegin_refines (cfg : Cfg) : Refines (mapBegin cfg) (readMapBegin cfg) :=
  .bind (.refl _) fun _ => .bind (.refl _) fun _ => .bind size_refines fun _ => .refl _

theorem string_refines (cfg : Cfg) : Refines (Spec.Strict.rd cfg).readString (Compact.rd cfg).readString := .bind (reader_refines (binary_refines cfg)) fun _ => .refl _

theorem skip_refines (cfg : Cfg) (fuel : Nat) : (d : Nat) → (t : Int) → Refines (Thrift.skip (Spec.Strict.rd cfg) fuel d t) (Thrift.skip (Compact.rd cfg) fuel d t)
  | 0, _ => .refl _
  | d + 1, t => by
    have ih := skip_refines cfg fuel d
    have ic : Refines (do
          let (etype, n) ← collectionBegin cfg
          P.repeatN_ n.toNat (Thrift.skip (Spec.Strict.rd cfg) fuel d etype)
          readCollectionEnd) (do
          let (etype, n) ← readCollectionBegin cfg
          P.repeatN_ n.toNat (Thrift.skip (Compact.rd cfg) fuel d etype)
          readCollectionEnd) := .bind (collectionBegin_refines cfg) fun _ => .bind (.repeatN_ (ih _) _) fun _ => .refl _
    rw [Thrift.skip, Thrift.skip]
    refine .ite (.refl _) (.ite (.refl _) (.ite (.bind (reader_refines (zigzag_refines _)) fun _ => .refl _) (.ite (.bind (reader_refines (zigzag_refines _)) fun _ => .refl _)
      (.ite (.bind (reader_refines (zigzag_refines _)) fun _ => .refl _) (.ite (.refl _) (.ite (.bind (string_refines cfg) fun _ => .refl _) (.ite ?_ (.ite ?_ (.ite ic (.ite ic
        (.refl _)))))))))))
    · refine .bind (.refl _) fun _ => .bind (.whileTrue (fun _ => ?_) _ _) fun _ => .refl _
      exact .bind fieldBegin_refines fun _ => .ite (.refl _) (.bind (ih _) fun _ => .refl _)
    · exact .bind (mapBegin_refines cfg) fun _ => .bind (.repeatN_ (.bind (ih _) fun _ => ih _) _) fun _ => .refl _

theorem readVal_refines (cfg : Cfg) (sch : Schema) : (fuel : Nat) → (t : Ty) → Refines (readVal (Spec.Strict.rd cfg) sch .gen fuel t) (readVal (Compact.rd cfg) sch .gen fuel t)
  | fuel, .bool => by unfold readVal; exact .refl _
  | fuel, .byte => by unfold readVal; exact .refl _
  | fuel, .i16 => by unfold readVal; exact .bind (reader_refines (zigzag_refines _)) fun _ => .refl _
  | fuel, .i32 => by unfold readVal; exact .bind (reader_refines (zigzag_refines _)) fun _ => .refl _
  | fuel, .i64 => by unfold readVal; exact .bind (reader_refines (zigzag_refines _)) fun _ => .refl _
  | fuel, .double => by unfold readVal; exact .refl _
  | fuel, .string => by unfold readVal; exact .bind (string_refines cfg) fun _ => .refl _
  | fuel, .binary => by unfold readVal; exact .bind (reader_refines (binary_refines cfg)) fun _ => .refl _
  | fuel, .uuid => by unfold readVal; exact .refl _
  | 0, .list _ | 0, .set _ | 0, .map _ _ | 0, .struct _ => by unfold readVal; exact .refl _
  | f + 1, .list e => by
    rw [readVal, readVal]
    exact .bind (collectionBegin_refines cfg) fun _ => .bind (.repeatN (readVal_refines cfg sch f e) _) fun _ => .refl _
  | f + 1, .set e => by
    rw [readVal, readVal]
    exact .bind (collectionBegin_refines cfg) fun _ => .bind (.repeatN (.bind (readVal_refines cfg sch f e) fun _ => .refl _) _) fun _ => .refl _
  | f + 1, .map k v => by
    rw [readVal, readVal]
    exact .bind (mapBegin_refines cfg) fun _ => .bind (.repeatN (.bind (readVal_refines cfg sch f k) fun _ => .bind (readVal_refines cfg sch f v) fun _ => .refl _) _) fun _ => .refl _
  | f + 1, .struct sid => by
    rw [readVal, readVal]
    refine .bind (.refl _) fun _ => .tryFinally ?_ _
    refine .bind (.refl _) fun _ => .bind (.whileTrue (fun as => ?_) _ _) fun _ => .refl _
    refine .bind fieldBegin_refines fun p => .ite (.refl _) ?_
    split
    · exact .bind (skip_refines cfg f _ _) fun _ => .refl _
    · split
      · exact .refl _
      · exact .ite (.bind (readVal_refines cfg sch f _) fun _ => .refl _) (.bind (skip_refines cfg f _ _) fun _ => .refl _)

end Strict
end Thrift
