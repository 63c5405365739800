import Verif.Proofs.TokenRead
/-
Decoding over a memory buffer: exact consumption, and end-of-file on every proper prefix.
-/

namespace Thrift

/-- `m` consumes exactly `bs`, whatever follows, and returns `a`; on every proper prefix of `bs` it
raises end-of-file. -/
def Decodes {σ α : Type} (m : P σ α) (s : σ) (bs : Bytes) (a : α) (s' : σ) : Prop :=
  (∀ rest, exec m s (bs ++ rest) = some ((.ok a, s'), rest)) ∧
  (∀ p q, bs = p ++ q → q ≠ [] → ∃ s'', exec m s p = some ((.error .eof, s''), []))

section
variable {σ α β : Type}

theorem Decodes.nil {m : P σ α} {s s' : σ} {a : α}
    (h : ∀ rest, exec m s rest = some ((.ok a, s'), rest)) : Decodes m s [] a s' := by
  refine ⟨h, ?_⟩
  intro p q e hq
  simp at e
  exact absurd e.2 hq

theorem Decodes.seq {m : P σ α} {k : α → P σ β} {s s1 s2 : σ} {b1 b2 : Bytes} {a : α} {c : β}
    (h1 : Decodes m s b1 a s1) (h2 : Decodes (k a) s1 b2 c s2) :
    Decodes (m >>= k) s (b1 ++ b2) c s2 := by
  constructor
  · intro rest
    rw [exec_bind, List.append_assoc, h1.1, Res.andThen_ok, h2.1]
  · intro p q e hq
    rw [exec_bind]
    rcases List.append_eq_append_iff.mp e with ⟨x, e1, e2⟩ | ⟨x, e1, e2⟩
    · -- `p` reaches into `b2`
      obtain ⟨s'', h⟩ := h2.2 x q e2 hq
      refine ⟨s'', ?_⟩
      rw [e1, h1.1, Res.andThen_ok, h]
    · by_cases hx : x = []
      · subst hx
        simp only [List.append_nil] at e1
        subst e1
        simp only [List.nil_append] at e2
        subst e2
        have h0 := h1.1 []
        rw [List.append_nil] at h0
        by_cases hb : q = []
        · exact absurd hb hq
        · obtain ⟨s'', h⟩ := h2.2 [] q (by simp) hb
          exact ⟨s'', by rw [h0, Res.andThen_ok, h]⟩
      · obtain ⟨s'', h⟩ := h1.2 p x e1 hx
        exact ⟨s'', by rw [h, Res.andThen_error]⟩

theorem Decodes.pure (a : α) (s : σ) : Decodes (Pure.pure a : P σ α) s [] a s :=
  Decodes.nil fun _ => rfl

theorem Decodes.lift_ok (a : α) (s : σ) : Decodes (P.lift (.ok a) : P σ α) s [] a s :=
  Decodes.nil fun _ => rfl

theorem Decodes.map {m : P σ α} {k : α → P σ β} {s s1 : σ} {b : Bytes} {a : α} {c : β}
    (h1 : Decodes m s b a s1) (h2 : k a = Pure.pure c) : Decodes (m >>= k) s b c s1 := by
  rw [← List.append_nil b]
  exact Decodes.seq h1 (by rw [h2]; exact Decodes.pure c s1)

/-- Prepend something that consumes nothing. -/
theorem Decodes.pre {m : P σ α} {k : α → P σ β} {s s1 s2 : σ} {b : Bytes} {a : α} {c : β}
    (h1 : Decodes m s [] a s1) (h2 : Decodes (k a) s1 b c s2) : Decodes (m >>= k) s b c s2 := by
  rw [← List.nil_append b]
  exact Decodes.seq h1 h2

theorem Decodes.readAll {n : Int} {x : Bytes} (s : σ) (h : x.length = n.toNat) :
    Decodes (P.readAll n : P σ Bytes) s x x s := by
  constructor
  · intro rest
    rw [exec_readAll, if_pos (by simp; omega)]
    simp [← h]
  · intro p q e hq
    refine ⟨s, ?_⟩
    have : 0 < q.length := List.length_pos_iff.mpr hq
    have : x.length = p.length + q.length := by rw [e]; simp
    rw [exec_readAll, if_neg (by omega)]

theorem Decodes.tryFinally {m : P σ α} {f : σ → σ} {s s' : σ} {b : Bytes} {a : α}
    (h : Decodes m s b a s') : Decodes (P.tryFinally m f) s b a (f s') := by
  constructor
  · intro rest
    rw [exec_tryFinally, h.1]
    rfl
  · intro p q e hq
    obtain ⟨s'', h⟩ := h.2 p q e hq
    refine ⟨f s'', ?_⟩
    rw [exec_tryFinally, h]
    rfl

/-- The decoding relation of the binary and compact protocols. -/
def decRel (σ : Type) [HasDepth σ] : DecRel σ where
  holds := fun m s b a s' => Decodes m s b a s'
  pure := Decodes.pure
  bind := Decodes.seq
  incDepth := fun s h => by
    unfold incDepth
    refine Decodes.pre (a := ()) (s1 := HasDepth.setDepth (HasDepth.depth s + 1) s)
      (Decodes.nil fun _ => rfl) ?_
    refine Decodes.pre (a := HasDepth.setDepth (HasDepth.depth s + 1) s) (Decodes.nil fun _ => rfl) ?_
    rw [HasDepth.depth_set, if_neg (by unfold recursionLimit; omega)]
    exact Decodes.pure _ _
  tryDec := Decodes.tryFinally

end
end Thrift
