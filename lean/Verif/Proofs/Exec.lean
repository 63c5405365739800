import Verif.Model.Protocol
/-
Rewriting rules for running reading and writing methods.
-/

namespace Thrift

theorem Prog.run_bind {α β τ : Type} (step : Nat → τ → Option (Except Exc Bytes × τ))
    (p : Prog α) (f : α → Prog β) (t : τ) :
    (p.bind f).run step t =
      match p.run step t with
      | none => none
      | some (a, t') => (f a).run step t' := by
  induction p generalizing t with
  | ret a => rfl
  | diverge => rfl
  | read n k ih =>
    simp only [Prog.bind, Prog.run]
    cases h : step n t with
    | none => rfl
    | some r => obtain ⟨r, t'⟩ := r; simp only [ih]

section
variable {σ α β : Type}

/-- Result of running a reading method. -/
abbrev Res (σ α : Type) := Option ((Except Exc α × σ) × Bytes)

/-- Continue after a successful run. -/
def Res.andThen (r : Res σ α) (k : α → σ → Bytes → Res σ β) : Res σ β :=
  match r with
  | none => none
  | some ((.ok a, s), b) => k a s b
  | some ((.error e, s), b) => some ((.error e, s), b)

@[simp] theorem Res.andThen_none (k : α → σ → Bytes → Res σ β) :
    Res.andThen none k = none := rfl
@[simp] theorem Res.andThen_ok (a : α) (s : σ) (b : Bytes) (k : α → σ → Bytes → Res σ β) :
    Res.andThen (some ((.ok a, s), b)) k = k a s b := rfl
@[simp] theorem Res.andThen_error (e : Exc) (s : σ) (b : Bytes) (k : α → σ → Bytes → Res σ β) :
    Res.andThen (some ((.error e, s), b)) k = some ((.error e, s), b) := rfl

theorem exec_Pbind (m : P σ α) (k : α → P σ β) (s : σ) (b : Bytes) :
    exec (P.bind m k) s b = Res.andThen (exec m s b) fun a s' b' => exec (k a) s' b' := by
  unfold exec P.bind
  rw [Prog.run_bind]
  cases h : (m s).run memStep b with
  | none => rfl
  | some r =>
    obtain ⟨⟨r, s'⟩, b'⟩ := r
    cases r <;> rfl

@[simp] theorem exec_bind (m : P σ α) (k : α → P σ β) (s : σ) (b : Bytes) :
    exec (m >>= k) s b = Res.andThen (exec m s b) fun a s' b' => exec (k a) s' b' :=
  exec_Pbind m k s b

@[simp] theorem exec_pure (a : α) (s : σ) (b : Bytes) :
    exec (pure a : P σ α) s b = some ((.ok a, s), b) := rfl
@[simp] theorem exec_Ppure (a : α) (s : σ) (b : Bytes) :
    exec (P.pure a : P σ α) s b = some ((.ok a, s), b) := rfl
@[simp] theorem exec_raise (e : Exc) (s : σ) (b : Bytes) :
    exec (P.raise e : P σ α) s b = some ((.error e, s), b) := rfl
@[simp] theorem exec_get (s : σ) (b : Bytes) :
    exec (P.get : P σ σ) s b = some ((.ok s, s), b) := rfl
@[simp] theorem exec_set (s' s : σ) (b : Bytes) :
    exec (P.set s') s b = some ((.ok (), s'), b) := rfl
@[simp] theorem exec_modify (f : σ → σ) (s : σ) (b : Bytes) :
    exec (P.modify f) s b = some ((.ok (), f s), b) := rfl
@[simp] theorem exec_diverge (s : σ) (b : Bytes) :
    exec (P.diverge : P σ α) s b = none := rfl
@[simp] theorem exec_lift_ok (a : α) (s : σ) (b : Bytes) :
    exec (P.lift (.ok a) : P σ α) s b = some ((.ok a, s), b) := rfl
@[simp] theorem exec_lift_error (e : Exc) (s : σ) (b : Bytes) :
    exec (P.lift (.error e) : P σ α) s b = some ((.error e, s), b) := rfl
theorem exec_lift (r : Except Exc α) (s : σ) (b : Bytes) :
    exec (P.lift r : P σ α) s b = some ((r, s), b) := rfl
theorem exec_assert (c : Bool) (s : σ) (b : Bytes) :
    exec (P.assert c) s b = some ((if c then .ok () else .error .assertion, s), b) := by
  unfold P.assert; cases c <;> rfl
@[simp] theorem exec_assert_true (s : σ) (b : Bytes) :
    exec (P.assert true) s b = some ((.ok (), s), b) := rfl
@[simp] theorem exec_assert_false (s : σ) (b : Bytes) :
    exec (P.assert false) s b = some ((.error .assertion, s), b) := rfl

theorem exec_ite (c : Prop) [Decidable c] (m n : P σ α) (s : σ) (b : Bytes) :
    exec (if c then m else n) s b = if c then exec m s b else exec n s b := by
  split <;> rfl

theorem exec_tryFinally (m : P σ α) (f : σ → σ) (s : σ) (b : Bytes) :
    exec (P.tryFinally m f) s b =
      (exec m s b).map fun r => ((r.1.1, f r.1.2), r.2) := by
  unfold exec P.tryFinally
  rw [Prog.run_bind]
  cases h : (m s).run memStep b with
  | none => rfl
  | some r => obtain ⟨⟨r, s'⟩, b'⟩ := r; rfl

theorem exec_readAllLoop (f l : Nat) (h : l ≤ f) (buff : Bytes) (s : σ) (b : Bytes) :
    exec (P.readAllLoop f l buff : P σ Bytes) s b =
      if l ≤ b.length then some ((.ok (buff ++ b.take l), s), b.drop l)
      else some ((.error .eof, s), []) := by
  induction f generalizing l buff b with
  | zero =>
    obtain rfl : l = 0 := by omega
    simp [P.readAllLoop]
  | succ f ih =>
    cases l with
    | zero => simp [P.readAllLoop]
    | succ l =>
      simp only [P.readAllLoop, exec_Pbind]
      have : exec (P.transRead (l + 1) : P σ Bytes) s b =
          some ((.ok (b.take (l + 1)), s), b.drop (l + 1)) := rfl
      rw [this]
      simp only [Res.andThen_ok]
      by_cases hb : l + 1 ≤ b.length
      · have hl : (b.take (l + 1)).length = l + 1 := by simp; omega
        rw [if_neg (by rw [hl]; omega), hl, ih _ (by omega)]
        simp [hb]
      · by_cases h0 : b.length = 0
        · have : b = [] := List.length_eq_zero_iff.mp h0
          subst this
          simp
        · rw [if_neg (by simp; intro h; simp [h] at h0)]
          have hl : (b.take (l + 1)).length = b.length := by simp; omega
          have hd : b.drop (l + 1) = [] := by simp; omega
          rw [hl, ih _ (by omega), hd]
          simp [hb]
          omega

/-- `readAll` over a memory buffer: exactly the requested bytes, or `EOFError` with the buffer
exhausted. -/
theorem exec_readAll (n : Int) (s : σ) (b : Bytes) :
    exec (P.readAll n : P σ Bytes) s b =
      if n.toNat ≤ b.length then some ((.ok (b.take n.toNat), s), b.drop n.toNat)
      else some ((.error .eof, s), []) := by
  unfold P.readAll
  rw [exec_readAllLoop _ _ (Nat.le_refl _)]
  simp

theorem exec_readAll_append (n : Nat) (s : σ) (x rest : Bytes) (h : x.length = n) :
    exec (P.readAll n : P σ Bytes) s (x ++ rest) = some ((.ok x, s), rest) := by
  rw [exec_readAll]
  simp [← h]

/-! ### Writers -/

/-- Continue after a successful write. -/
def WRes (σ α : Type) := Except Exc α × σ × Bytes

@[simp] theorem W.bind_eq (m : W σ α) (k : α → W σ β) (s : σ) (out : Bytes) :
    (m >>= k) s out =
      match m s out with
      | (.ok a, s', out') => k a s' out'
      | (.error e, s', out') => (.error e, s', out') := rfl

theorem W.bind_ok {m : W σ α} {k : α → W σ β} {s s' : σ} {out out' : Bytes} {a : α}
    (h : m s out = (.ok a, s', out')) : (m >>= k) s out = k a s' out' := by
  rw [W.bind_eq, h]

theorem W.bind_error {m : W σ α} {k : α → W σ β} {s s' : σ} {out out' : Bytes} {e : Exc}
    (h : m s out = (.error e, s', out')) : (m >>= k) s out = (.error e, s', out') := by
  rw [W.bind_eq, h]

@[simp] theorem W.pure_eq (a : α) (s : σ) (out : Bytes) :
    (Pure.pure a : W σ α) s out = (.ok a, s, out) := rfl
@[simp] theorem W.pure_eq' (a : α) (s : σ) (out : Bytes) :
    (W.pure a : W σ α) s out = (.ok a, s, out) := rfl
@[simp] theorem W.raise_eq (e : Exc) (s : σ) (out : Bytes) :
    (W.raise e : W σ α) s out = (.error e, s, out) := rfl
@[simp] theorem W.get_eq (s : σ) (out : Bytes) :
    (W.get : W σ σ) s out = (.ok s, s, out) := rfl
@[simp] theorem W.set_eq (s' s : σ) (out : Bytes) :
    (W.set s') s out = (.ok (), s', out) := rfl
@[simp] theorem W.modify_eq (f : σ → σ) (s : σ) (out : Bytes) :
    (W.modify f) s out = (.ok (), f s, out) := rfl
@[simp] theorem W.lift_eq (r : Except Exc α) (s : σ) (out : Bytes) :
    (W.lift r : W σ α) s out = (r, s, out) := rfl
@[simp] theorem W.write_eq (b : Bytes) (s : σ) (out : Bytes) :
    (W.write b : W σ Unit) s out = (.ok (), s, out ++ b) := rfl
@[simp] theorem W.assert_true (s : σ) (out : Bytes) :
    (W.assert true : W σ Unit) s out = (.ok (), s, out) := rfl
@[simp] theorem W.assert_false (s : σ) (out : Bytes) :
    (W.assert false : W σ Unit) s out = (.error .assertion, s, out) := rfl

end
end Thrift
