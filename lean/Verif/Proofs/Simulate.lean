import Verif.Proofs.Exec
import Verif.Spec.Stream
/-
Reading methods do not see how a transport cuts the stream into pieces.
-/

namespace Thrift
open Spec

section
variable {σ α β : Type}

/-- Over every delivering transport the method does what it does over a memory buffer. If it succeeds
over a memory buffer, it does the same over a transport that delivers until the end of the stream. -/
structure Steady (m : P σ α) : Prop where
  any : ∀ (τ : Type) (step : Nat → τ → Option (Except Exc Bytes × τ)) (rest : τ → Bytes),
    Delivers step rest → ∀ s t,
    match exec m s (rest t) with
    | none => (m s).run step t = none
    | some (r, b') => ∃ t', (m s).run step t = some (r, t') ∧ rest t' = b'
  upTo : ∀ (τ : Type) (step : Nat → τ → Option (Except Exc Bytes × τ)) (rest : τ → Bytes),
    DeliversUntil step rest → ∀ s t a s' b', exec m s (rest t) = some ((.ok a, s'), b') →
    ∃ t', (m s).run step t = some ((.ok a, s'), t') ∧ rest t' = b'

/-- A method that does not read. -/
theorem Steady.ret {m : P σ α} (h : ∀ s, ∃ r, m s = .ret r) : Steady m := by
  constructor
  · intro τ step rest _ s t
    obtain ⟨r, e⟩ := h s
    unfold exec
    rw [e]
    exact ⟨t, rfl, rfl⟩
  · intro τ step rest _ s t a s' b' hx
    obtain ⟨r, e⟩ := h s
    unfold exec at hx
    rw [e] at hx ⊢
    cases hx
    exact ⟨t, rfl, rfl⟩

theorem Steady.pure (a : α) : Steady (Pure.pure a : P σ α) := Steady.ret fun _ => ⟨_, rfl⟩
theorem Steady.Ppure (a : α) : Steady (P.pure a : P σ α) := Steady.ret fun _ => ⟨_, rfl⟩
theorem Steady.raise (e : Exc) : Steady (P.raise e : P σ α) := Steady.ret fun _ => ⟨_, rfl⟩
theorem Steady.lift (r : Except Exc α) : Steady (P.lift r : P σ α) := Steady.ret fun _ => ⟨_, rfl⟩
theorem Steady.get : Steady (P.get : P σ σ) := Steady.ret fun _ => ⟨_, rfl⟩
theorem Steady.set (s : σ) : Steady (P.set s) := Steady.ret fun _ => ⟨_, rfl⟩
theorem Steady.modify (f : σ → σ) : Steady (P.modify f) := Steady.ret fun _ => ⟨_, rfl⟩
theorem Steady.diverge : Steady (P.diverge : P σ α) :=
  ⟨fun _ _ _ _ _ _ => rfl, fun _ _ _ _ _ _ _ _ _ h => by cases h⟩
theorem Steady.assert (c : Bool) : Steady (P.assert c : P σ Unit) := by
  unfold P.assert
  cases c
  · exact Steady.raise _
  · exact Steady.Ppure _

theorem Steady.Pbind {m : P σ α} {k : α → P σ β} (hm : Steady m) (hk : ∀ a, Steady (k a)) :
    Steady (P.bind m k) := by
  constructor
  · intro τ step rest hd s t
    have h1 := hm.any τ step rest hd s t
    rw [exec_Pbind]
    unfold P.bind
    rw [Prog.run_bind]
    cases h : exec m s (rest t) with
    | none => rw [h] at h1; simp only at h1; rw [h1]; simp [Res.andThen]
    | some r =>
      obtain ⟨⟨r, s1⟩, b1⟩ := r
      rw [h] at h1
      obtain ⟨t1, e1, hr⟩ := h1
      rw [e1]
      cases r with
      | error e => exact ⟨t1, rfl, hr⟩
      | ok a =>
        simp only [Res.andThen_ok]
        rw [← hr]
        exact (hk a).any τ step rest hd s1 t1
  · intro τ step rest hd s t c s' b' hx
    rw [exec_Pbind] at hx
    cases h : exec m s (rest t) with
    | none => rw [h] at hx; cases hx
    | some r =>
      obtain ⟨⟨r, s1⟩, b1⟩ := r
      rw [h] at hx
      cases r with
      | error e => cases hx
      | ok a =>
        obtain ⟨t1, e1, hr⟩ := hm.upTo τ step rest hd s t a s1 b1 h
        rw [Res.andThen_ok, ← hr] at hx
        obtain ⟨t2, e2, hr2⟩ := (hk a).upTo τ step rest hd s1 t1 c s' b' hx
        refine ⟨t2, ?_, hr2⟩
        unfold P.bind
        rw [Prog.run_bind, e1]
        exact e2

theorem Steady.bind {m : P σ α} {k : α → P σ β} (hm : Steady m) (hk : ∀ a, Steady (k a)) :
    Steady (m >>= k) := Steady.Pbind hm hk

theorem Steady.ite {c : Prop} [Decidable c] {m n : P σ α} (hm : Steady m) (hn : Steady n) :
    Steady (if c then m else n) := by
  split <;> assumption

theorem Steady.tryFinally {m : P σ α} {f : σ → σ} (hm : Steady m) : Steady (P.tryFinally m f) := by
  constructor
  · intro τ step rest hd s t
    have h1 := hm.any τ step rest hd s t
    rw [exec_tryFinally]
    unfold P.tryFinally
    rw [Prog.run_bind]
    cases h : exec m s (rest t) with
    | none => rw [h] at h1; simp only at h1; rw [h1]; rfl
    | some r =>
      rw [h] at h1
      obtain ⟨t1, e1, hr⟩ := h1
      rw [e1]
      exact ⟨t1, rfl, hr⟩
  · intro τ step rest hd s t a s' b' hx
    rw [exec_tryFinally] at hx
    cases h : exec m s (rest t) with
    | none => rw [h] at hx; cases hx
    | some r =>
      obtain ⟨⟨r, s1⟩, b1⟩ := r
      rw [h] at hx
      cases hx
      obtain ⟨t1, e1, hr⟩ := hm.upTo τ step rest hd s t a s1 b1 h
      refine ⟨t1, ?_, hr⟩
      unfold P.tryFinally
      rw [Prog.run_bind, e1]
      rfl

theorem run_readAllLoop {τ : Type} {step : Nat → τ → Option (Except Exc Bytes × τ)} {rest : τ → Bytes}
    (hd : Delivers step rest) (f l : Nat) (h : l ≤ f) (buff : Bytes) (s : σ) (t : τ) :
    ∃ t', ((P.readAllLoop f l buff : P σ Bytes) s).run step t =
      (if l ≤ (rest t).length then some ((.ok (buff ++ (rest t).take l), s), t')
      else some ((.error .eof, s), t')) ∧
      rest t' = if l ≤ (rest t).length then (rest t).drop l else [] := by
  induction f generalizing l buff t with
  | zero =>
    obtain rfl : l = 0 := by omega
    exact ⟨t, by simp [P.readAllLoop, P.pure, Prog.run], by simp⟩
  | succ f ih =>
    cases l with
    | zero => exact ⟨t, by simp [P.readAllLoop, P.pure, Prog.run], by simp⟩
    | succ l =>
      obtain ⟨c, t1, e1, hr, hl, hz⟩ := hd l t
      have hrun : ((P.readAllLoop (f + 1) (l + 1) buff : P σ Bytes) s).run step t =
          ((if c.length = 0 then P.raise .eof
            else P.readAllLoop f (l + 1 - c.length) (buff ++ c) : P σ Bytes) s).run step t1 := by
        simp only [P.readAllLoop, P.bind, P.transRead, Prog.bind, Prog.run, e1]
      rw [hrun]
      by_cases hc : c.length = 0
      · have hc' : c = [] := List.length_eq_zero_iff.mp hc
        have h0 := hz hc'
        rw [if_pos hc, h0]
        refine ⟨t1, by simp [P.raise, Prog.run], ?_⟩
        rw [h0, hc'] at hr
        simpa using hr.symm
      · rw [if_neg hc]
        obtain ⟨t', e, hr'⟩ := ih (l + 1 - c.length) (by omega) (buff ++ c) t1
        refine ⟨t', ?_, ?_⟩
        · rw [e, hr]
          by_cases hle : l + 1 - c.length ≤ (rest t1).length
          · rw [if_pos hle, if_pos (by simp; omega), List.take_append,
              List.take_of_length_le hl]
            simp
          · rw [if_neg hle, if_neg (by simp; omega)]
        · rw [hr', hr]
          by_cases hle : l + 1 - c.length ≤ (rest t1).length
          · rw [if_pos hle, if_pos (by simp; omega), List.drop_append, List.drop_of_length_le hl]
            simp
          · rw [if_neg hle, if_neg (by simp; omega)]

theorem run_readAllLoop_until {τ : Type} {step : Nat → τ → Option (Except Exc Bytes × τ)}
    {rest : τ → Bytes} (hd : DeliversUntil step rest) (f l : Nat) (h : l ≤ f) (buff : Bytes) (s : σ)
    (t : τ) (hl : l ≤ (rest t).length) :
    ∃ t', ((P.readAllLoop f l buff : P σ Bytes) s).run step t =
      some ((.ok (buff ++ (rest t).take l), s), t') ∧ rest t' = (rest t).drop l := by
  induction f generalizing l buff t with
  | zero =>
    obtain rfl : l = 0 := by omega
    exact ⟨t, by simp [P.readAllLoop, P.pure, Prog.run], by simp⟩
  | succ f ih =>
    cases l with
    | zero => exact ⟨t, by simp [P.readAllLoop, P.pure, Prog.run], by simp⟩
    | succ l =>
      obtain ⟨c, t1, e1, hr, hc, hz⟩ := hd l t (by intro h0; rw [h0] at hl; simp at hl)
      have hrun : ((P.readAllLoop (f + 1) (l + 1) buff : P σ Bytes) s).run step t =
          ((if c.length = 0 then P.raise .eof
            else P.readAllLoop f (l + 1 - c.length) (buff ++ c) : P σ Bytes) s).run step t1 := by
        simp only [P.readAllLoop, P.bind, P.transRead, Prog.bind, Prog.run, e1]
      have hpos : 0 < c.length := List.length_pos_iff.mpr hz
      rw [hrun, if_neg (by omega)]
      rw [hr, List.length_append] at hl
      obtain ⟨t', e, hr'⟩ := ih (l + 1 - c.length) (by omega) (buff ++ c) t1 (by omega)
      refine ⟨t', ?_, ?_⟩
      · rw [e, hr, List.take_append, List.take_of_length_le hc]
        simp
      · rw [hr', hr, List.drop_append, List.drop_of_length_le hc]
        simp

theorem Steady.readAll (n : Int) : Steady (P.readAll n : P σ Bytes) := by
  constructor
  · intro τ step rest hd s t
    obtain ⟨t', e, hr⟩ := run_readAllLoop hd n.toNat n.toNat (Nat.le_refl _) [] s t
    rw [exec_readAll]
    unfold P.readAll
    rw [e]
    by_cases h : n.toNat ≤ (rest t).length
    · rw [if_pos h] at hr ⊢
      rw [if_pos h]
      exact ⟨t', by simp, hr⟩
    · rw [if_neg h] at hr ⊢
      rw [if_neg h]
      exact ⟨t', rfl, hr⟩
  · intro τ step rest hd s t a s' b' hx
    rw [exec_readAll] at hx
    by_cases h : n.toNat ≤ (rest t).length
    · rw [if_pos h] at hx
      cases hx
      obtain ⟨t', e, hr⟩ := run_readAllLoop_until hd n.toNat n.toNat (Nat.le_refl _) [] s t h
      exact ⟨t', by unfold P.readAll; rw [e]; simp, hr⟩
    · rw [if_neg h] at hx
      cases hx

theorem Steady.repeatN {m : P σ α} (hm : Steady m) (n : Nat) : Steady (P.repeatN n m) := by
  induction n with
  | zero => exact Steady.Ppure _
  | succ n ih => exact Steady.Pbind hm fun _ => Steady.Pbind ih fun _ => Steady.Ppure _

theorem Steady.repeatN_ {m : P σ Unit} (hm : Steady m) (n : Nat) : Steady (P.repeatN_ n m) := by
  induction n with
  | zero => exact Steady.Ppure _
  | succ n ih => exact Steady.Pbind hm fun _ => ih

theorem Steady.whileTrue {body : α → P σ (α ⊕ β)} (hb : ∀ a, Steady (body a)) (f : Nat) (a : α) :
    Steady (P.whileTrue f body a) := by
  induction f generalizing a with
  | zero => exact Steady.diverge
  | succ f ih =>
    refine Steady.Pbind (hb a) fun r => ?_
    cases r with
    | inl a' => exact ih a'
    | inr b => exact Steady.Ppure _

/-- Every reading method of a protocol is steady. -/
structure SteadyOps (ops : RdOps σ) : Prop where
  structBegin : Steady ops.readStructBegin
  structEnd : Steady ops.readStructEnd
  fieldBegin : Steady ops.readFieldBegin
  fieldEnd : Steady ops.readFieldEnd
  mapBegin : Steady ops.readMapBegin
  mapEnd : Steady ops.readMapEnd
  listBegin : Steady ops.readListBegin
  listEnd : Steady ops.readListEnd
  setBegin : Steady ops.readSetBegin
  setEnd : Steady ops.readSetEnd
  bool : Steady ops.readBool
  byte : Steady ops.readByte
  i16 : Steady ops.readI16
  i32 : Steady ops.readI32
  i64 : Steady ops.readI64
  double : Steady ops.readDouble
  string : Steady ops.readString
  binary : Steady ops.readBinary
  uuid : Steady ops.readUuid

theorem skip_steady {ops : RdOps σ} (H : SteadyOps ops) (fuel d : Nat) (tt : Int) :
    Steady (skip ops fuel d tt) := by
  induction d generalizing tt with
  | zero => exact Steady.raise _
  | succ d ih =>
    unfold skip
    refine Steady.ite (Steady.bind H.bool fun _ => Steady.pure _) ?_
    refine Steady.ite (Steady.bind H.byte fun _ => Steady.pure _) ?_
    refine Steady.ite (Steady.bind H.i16 fun _ => Steady.pure _) ?_
    refine Steady.ite (Steady.bind H.i32 fun _ => Steady.pure _) ?_
    refine Steady.ite (Steady.bind H.i64 fun _ => Steady.pure _) ?_
    refine Steady.ite (Steady.bind H.double fun _ => Steady.pure _) ?_
    refine Steady.ite (Steady.bind H.string fun _ => Steady.pure _) ?_
    refine Steady.ite (Steady.bind H.structBegin fun _ => Steady.bind (Steady.whileTrue
      (fun _ => Steady.bind H.fieldBegin fun x => Steady.ite (Steady.pure _)
        (Steady.bind (ih _) fun _ => Steady.bind H.fieldEnd fun _ => Steady.pure _)) _ _)
      fun _ => H.structEnd) ?_
    refine Steady.ite (Steady.bind H.mapBegin fun x => Steady.bind (Steady.repeatN_
      (Steady.bind (ih _) fun _ => ih _) _) fun _ => H.mapEnd) ?_
    refine Steady.ite (Steady.bind H.setBegin fun x => Steady.bind (Steady.repeatN_ (ih _) _)
      fun _ => H.setEnd) ?_
    refine Steady.ite (Steady.bind H.listBegin fun x => Steady.bind (Steady.repeatN_ (ih _) _)
      fun _ => H.listEnd) ?_
    exact Steady.ite (Steady.bind H.uuid fun _ => Steady.pure _) (Steady.raise _)

theorem incDepth_steady [HasDepth σ] : Steady (incDepth : P σ Unit) :=
  Steady.bind (Steady.modify _) fun _ => Steady.bind Steady.get fun _ =>
    Steady.ite (Steady.bind (Steady.modify _) fun _ => Steady.raise _) (Steady.pure _)

theorem readStructCore_steady {ops : RdOps σ} (H : SteadyOps ops) (mode : Mode) (fuel : Nat)
    (fs : List Field) {readV : Ty → P σ Val} {skipF : Int → P σ Unit} (hv : ∀ t, Steady (readV t))
    (hs : ∀ tt, Steady (skipF tt)) : Steady (readStructCore ops mode fuel fs readV skipF) := by
  refine Steady.bind H.structBegin fun _ => Steady.bind (Steady.whileTrue (fun attrs => ?_) _ _)
    fun _ => Steady.bind H.structEnd fun _ => Steady.pure _
  refine Steady.bind H.fieldBegin fun x => Steady.ite (Steady.pure _) ?_
  split
  · exact Steady.bind (hs _) fun _ => Steady.bind H.fieldEnd fun _ => Steady.pure _
  · split
    · exact Steady.raise _
    · exact Steady.ite
        (Steady.bind (hv _) fun _ => Steady.bind H.fieldEnd fun _ => Steady.pure _)
        (Steady.bind (hs _) fun _ => Steady.bind H.fieldEnd fun _ => Steady.pure _)

theorem readVal_steady [HasDepth σ] {ops : RdOps σ} (H : SteadyOps ops) (sch : Schema) (mode : Mode)
    (fuel : Nat) (t : Ty) : Steady (readVal ops sch mode fuel t) := by
  induction fuel generalizing t with
  | zero =>
    cases t <;> unfold readVal
    · exact Steady.bind H.bool fun _ => Steady.pure _
    · exact Steady.bind H.byte fun _ => Steady.pure _
    · exact Steady.bind H.i16 fun _ => Steady.pure _
    · exact Steady.bind H.i32 fun _ => Steady.pure _
    · exact Steady.bind H.i64 fun _ => Steady.pure _
    · exact Steady.bind H.double fun _ => Steady.pure _
    · exact Steady.bind H.string fun _ => Steady.pure _
    · exact Steady.bind H.binary fun _ => Steady.pure _
    · exact Steady.bind H.uuid fun _ => Steady.pure _
    all_goals exact Steady.diverge
  | succ f ih =>
    cases t <;> try unfold readVal
    · exact Steady.bind H.bool fun _ => Steady.pure _
    · exact Steady.bind H.byte fun _ => Steady.pure _
    · exact Steady.bind H.i16 fun _ => Steady.pure _
    · exact Steady.bind H.i32 fun _ => Steady.pure _
    · exact Steady.bind H.i64 fun _ => Steady.pure _
    · exact Steady.bind H.double fun _ => Steady.pure _
    · exact Steady.bind H.string fun _ => Steady.pure _
    · exact Steady.bind H.binary fun _ => Steady.pure _
    · exact Steady.bind H.uuid fun _ => Steady.pure _
    · exact Steady.bind H.listBegin fun _ => Steady.bind (Steady.repeatN (ih _) _)
        fun _ => Steady.bind H.listEnd fun _ => Steady.pure _
    · exact Steady.bind H.setBegin fun _ => Steady.bind (Steady.repeatN
        (Steady.bind (ih _) fun _ => Steady.ite (Steady.pure _) (Steady.raise _)) _)
        fun _ => Steady.bind H.setEnd fun _ => Steady.pure _
    · exact Steady.bind H.mapBegin fun _ => Steady.bind (Steady.repeatN
        (Steady.bind (ih _) fun _ => Steady.bind (ih _) fun _ =>
          Steady.ite (Steady.pure _) (Steady.raise _)) _)
        fun _ => Steady.bind H.mapEnd fun _ => Steady.pure _
    · have hc := readStructCore_steady H mode f (sch ‹Nat›) (readV := readVal ops sch mode f)
        (skipF := skip ops f skipDepth) ih (skip_steady H f skipDepth)
      cases mode
      · exact Steady.bind incDepth_steady fun _ => Steady.tryFinally hc
      · exact hc

end
end Thrift
