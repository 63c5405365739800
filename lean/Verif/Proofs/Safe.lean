import Verif.Proofs.Always
import Verif.Proofs.Lookup
import Verif.Spec.Counted
import Verif.Proofs.Keys
/-
What a reader does with arbitrary bytes.
-/

namespace Thrift
open Spec

/-- Run over a memory buffer, counting reads. -/
def cexec {σ α : Type} (m : P σ α) (s : σ) (b : Bytes) (k : Nat) :
    Option ((Except Exc α × σ) × (Bytes × Nat)) := (m s).run countStep (b, k)

theorem run_count {α : Type} (p : Prog α) (b : Bytes) (k : Nat) :
    p.run memStep b = (p.run countStep (b, k)).map fun r => (r.1, r.2.1) := by
  induction p generalizing b k with
  | ret a => rfl
  | diverge => rfl
  | read n f ih => simp only [Prog.run, memStep, countStep]; exact ih _ _ _

theorem exec_count {σ α : Type} (m : P σ α) (s : σ) (b : Bytes) (k : Nat) :
    exec m s b = (cexec m s b k).map fun r => (r.1, r.2.1) := run_count _ _ _

section
variable {σ α β : Type}

/-- How much is claimed: `hang` if the call may not end, otherwise the number of calls of `read` that
a call that fails may make in addition to those for the bytes it consumed; `cap` if the claim is only about
inputs up to a length. -/
structure Lim where
  hang : Prop
  slack : Nat
  cap : Option Nat := none

def Lim.fits (L : Lim) (b : Bytes) : Prop := ∀ n, L.cap = some n → b.length ≤ n

theorem Lim.fits.suffix {L : Lim} {b b' : Bytes} (h : L.fits b) (hb : b' <:+ b) : L.fits b' :=
  fun n hn => Nat.le_trans hb.length_le (h n hn)

/-- Every call ends. -/
def Lim.two : Lim := { hang := False, slack := 2 }

/-- Over a memory buffer holding `b` the call ends, leaves a suffix of `b`, calls `read` at most once
per byte consumed (`slack` more calls are possible if it fails), raises only exceptions in `E`, and
returns only with `Q`. If `hang`, the call may also not end, and the calls of `read` are not counted. -/
def Out (L : Lim) (E : Exc → Prop) (m : P σ α) (s : σ) (b : Bytes) (Q : α → σ → Bytes → Prop) : Prop :=
  L.fits b → ∀ k, (L.hang ∧ cexec m s b k = none) ∨ ∃ r s' b' k', cexec m s b k = some ((r, s'), (b', k')) ∧ b' <:+ b ∧
    (match r with
      | .ok a => (L.hang ∨ k' + b'.length ≤ k + b.length) ∧ Q a s' b'
      | .error e => (L.hang ∨ k' + b'.length ≤ k + b.length + L.slack) ∧ E e)

variable {E : Exc → Prop} {L : Lim}

theorem Out.mono {m : P σ α} {s : σ} {b : Bytes} {Q R : α → σ → Bytes → Prop} (h : Out L E m s b Q)
    (hqr : ∀ a s' b', b' <:+ b → Q a s' b' → R a s' b') : Out L E m s b R := by
  intro hb k
  rcases h hb k with h | ⟨r, s', b', k', h1, h2, h3⟩
  · exact .inl h
  refine .inr ⟨r, s', b', k', h1, h2, ?_⟩
  cases r with
  | ok a => exact ⟨h3.1, hqr a s' b' h2 h3.2⟩
  | error e => exact h3

theorem Out.diverge {s : σ} {b : Bytes} {Q : α → σ → Bytes → Prop} (h : L.hang) :
    Out L E (P.diverge : P σ α) s b Q := fun _ _ => .inl ⟨h, rfl⟩

theorem Out.pure {a : α} {s : σ} {b : Bytes} {Q : α → σ → Bytes → Prop} (h : Q a s b) :
    Out L E (Pure.pure a) s b Q := fun _ _ => .inr ⟨_, _, _, _, rfl, List.suffix_refl _, .inr (Nat.le_refl _), h⟩
theorem Out.Ppure {a : α} {s : σ} {b : Bytes} {Q : α → σ → Bytes → Prop} (h : Q a s b) :
    Out L E (P.pure a) s b Q := Out.pure h
theorem Out.raise {e : Exc} {s : σ} {b : Bytes} {Q : α → σ → Bytes → Prop} (h : E e) :
    Out L E (P.raise e) s b Q := fun _ _ => .inr ⟨_, _, _, _, rfl, List.suffix_refl _, .inr (Nat.le_add_right _ _), h⟩
theorem Out.get {s : σ} {b : Bytes} {Q : σ → σ → Bytes → Prop} (h : Q s s b) :
    Out L E P.get s b Q := fun _ _ => .inr ⟨_, _, _, _, rfl, List.suffix_refl _, .inr (Nat.le_refl _), h⟩
theorem Out.set {s s' : σ} {b : Bytes} {Q : Unit → σ → Bytes → Prop} (h : Q () s' b) :
    Out L E (P.set s') s b Q := fun _ _ => .inr ⟨_, _, _, _, rfl, List.suffix_refl _, .inr (Nat.le_refl _), h⟩
theorem Out.modify {s : σ} {f : σ → σ} {b : Bytes} {Q : Unit → σ → Bytes → Prop} (h : Q () (f s) b) :
    Out L E (P.modify f) s b Q := fun _ _ => .inr ⟨_, _, _, _, rfl, List.suffix_refl _, .inr (Nat.le_refl _), h⟩
theorem Out.assert {c : Bool} {s : σ} {b : Bytes} {Q : Unit → σ → Bytes → Prop} (hc : c = true)
    (h : Q () s b) : Out L E (P.assert c) s b Q := by subst hc; exact Out.Ppure h
theorem Out.lift {x : Except Exc α} {s : σ} {b : Bytes} {Q : α → σ → Bytes → Prop}
    (h : ∀ a, x = .ok a → Q a s b) (he : ∀ e, x = .error e → E e) : Out L E (P.lift x) s b Q := by
  cases x with
  | ok a => exact Out.Ppure (h a rfl)
  | error e => exact Out.raise (he e rfl)

theorem Out.Pbind {m : P σ α} {k : α → P σ β} {s : σ} {b : Bytes} {Q : α → σ → Bytes → Prop}
    {R : β → σ → Bytes → Prop} (hm : Out L E m s b Q)
    (hk : ∀ a s' b', b' <:+ b → Q a s' b' → Out L E (k a) s' b' R) : Out L E (P.bind m k) s b R := by
  intro hb n
  have e : cexec (P.bind m k) s b n = (cexec m s b n).bind fun x =>
      Prog.run countStep (match x.1 with
        | (.ok a, s') => k a s'
        | (.error e, s') => .ret (.error e, s')) x.2 := by
    unfold cexec P.bind
    rw [Prog.run_bind]
    cases Prog.run countStep (m s) (b, n) <;> rfl
  rcases hm hb n with ⟨h0, h1⟩ | ⟨r, s', b', k', h1, h2, h3⟩
  · rw [h1] at e
    exact .inl ⟨h0, e⟩
  rw [h1] at e
  cases r with
  | error x => exact .inr ⟨_, _, _, _, e, h2, h3⟩
  | ok a =>
    rcases hk a s' b' h2 h3.2 (hb.suffix h2) k' with ⟨g0, g1⟩ | ⟨r2, s2, b2, k2, g1, g2, g3⟩
    · exact .inl ⟨g0, e.trans g1⟩
    refine .inr ⟨r2, s2, b2, k2, e.trans g1, g2.trans h2, ?_⟩
    rcases h3.1 with hh | h
    · cases r2 with
      | ok a => exact ⟨.inl hh, g3.2⟩
      | error x => exact ⟨.inl hh, g3.2⟩
    · cases r2 with
      | ok a => exact ⟨g3.1.imp_right fun _ => (by omega), g3.2⟩
      | error x => exact ⟨g3.1.imp_right fun _ => (by omega), g3.2⟩

theorem Out.bind {m : P σ α} {k : α → P σ β} {s : σ} {b : Bytes} {Q : α → σ → Bytes → Prop}
    {R : β → σ → Bytes → Prop} (hm : Out L E m s b Q)
    (hk : ∀ a s' b', b' <:+ b → Q a s' b' → Out L E (k a) s' b' R) : Out L E (m >>= k) s b R :=
  Out.Pbind hm hk

theorem Out.ite {c : Prop} [Decidable c] {m n : P σ α} {s : σ} {b : Bytes} {Q : α → σ → Bytes → Prop}
    (hm : c → Out L E m s b Q) (hn : ¬ c → Out L E n s b Q) : Out L E (if c then m else n) s b Q := by
  split
  · exact hm ‹_›
  · exact hn ‹_›

theorem cexec_readAllLoop (f l : Nat) (h : l ≤ f) (buff : Bytes) (s : σ) (b : Bytes) (k : Nat) :
    ∃ k', cexec (P.readAllLoop f l buff : P σ Bytes) s b k =
      (if l ≤ b.length then some ((.ok (buff ++ b.take l), s), (b.drop l, k'))
      else some ((.error .eof, s), ([], k'))) ∧
      (l ≤ b.length → k' ≤ k + min l 1) ∧ (¬ l ≤ b.length → k' ≤ k + 1 + min b.length 1) := by
  induction f generalizing l buff b k with
  | zero =>
    obtain rfl : l = 0 := by omega
    exact ⟨k, by simp [P.readAllLoop, cexec, P.pure, Prog.run], by simp, by simp⟩
  | succ f ih =>
    cases l with
    | zero => exact ⟨k, by simp [P.readAllLoop, cexec, P.pure, Prog.run], by simp, by simp⟩
    | succ l =>
      have e : cexec (P.readAllLoop (f + 1) (l + 1) buff : P σ Bytes) s b k =
          cexec (if (b.take (l + 1)).length = 0 then P.raise .eof
            else P.readAllLoop f (l + 1 - (b.take (l + 1)).length) (buff ++ b.take (l + 1)) : P σ Bytes)
            s (b.drop (l + 1)) (k + 1) := rfl
      rw [e]
      by_cases hb : l + 1 ≤ b.length
      · have hl : (b.take (l + 1)).length = l + 1 := by simp; omega
        rw [if_neg (by rw [hl]; omega), hl]
        obtain ⟨k', h1, h2, -⟩ := ih (l + 1 - (l + 1)) (by omega) (buff ++ b.take (l + 1)) (b.drop (l + 1)) (k + 1)
        refine ⟨k', ?_, fun _ => ?_, fun h => absurd hb h⟩
        · rw [h1]; simp [hb]
        · have := h2 (by omega); omega
      · by_cases h0 : b.length = 0
        · have : b = [] := List.length_eq_zero_iff.mp h0
          subst this
          exact ⟨k + 1, by simp [cexec, P.raise, Prog.run], by simp, by simp⟩
        · have hl : (b.take (l + 1)).length = b.length := by simp; omega
          have hd : b.drop (l + 1) = [] := by simp; omega
          rw [hl, if_neg h0, hd]
          obtain ⟨k', h1, -, h3⟩ := ih (l + 1 - b.length) (by omega) (buff ++ b.take (l + 1)) [] (k + 1)
          have hn : ¬ (l + 1 - b.length ≤ ([] : Bytes).length) := by simp; omega
          refine ⟨k', ?_, fun h => absurd h hb, fun _ => ?_⟩
          · rw [h1, if_neg hn, if_neg hb]
          · have := h3 hn; simp only [List.length_nil] at this; omega

/-- `readAll` on a memory buffer. -/
theorem Out.readAll {n : Int} {s : σ} {b : Bytes} {Q : Bytes → σ → Bytes → Prop} (he : E .eof)
    (h : n.toNat ≤ b.length → Q (b.take n.toNat) s (b.drop n.toNat)) : Out .two E (P.readAll n) s b Q := by
  intro _ k
  refine .inr ?_
  obtain ⟨k', h1, h2, h3⟩ := cexec_readAllLoop (σ := σ) n.toNat n.toNat (Nat.le_refl _) [] s b k
  by_cases hb : n.toNat ≤ b.length
  · rw [if_pos hb] at h1
    refine ⟨_, _, _, _, h1, List.drop_suffix _ _, .inr ?_, ?_⟩
    · have := h2 hb
      simp only [List.length_drop]
      omega
    · exact h hb
  · rw [if_neg hb] at h1
    refine ⟨_, _, _, _, h1, List.nil_suffix, .inr ?_, he⟩
    have := h3 hb
    simp only [List.length_nil, Lim.two]
    omega

theorem Out.repeatN {m : P σ α} {I : σ → Prop} {Q : α → Prop} {b0 : Bytes}
    (hm : ∀ s b, I s → b <:+ b0 → Out L E m s b fun a s' _ => I s' ∧ Q a)
    (n : Nat) (s : σ) (b : Bytes) (hs : I s) (hb : b <:+ b0) :
    Out L E (P.repeatN n m) s b fun as s' _ => I s' ∧ as.length = n ∧ ∀ a ∈ as, Q a := by
  induction n generalizing s b with
  | zero => exact Out.Ppure ⟨hs, rfl, by simp⟩
  | succ n ih =>
    refine Out.Pbind (hm s b hs hb) fun a s1 b1 hb1 ha => Out.Pbind (ih s1 b1 ha.1 (hb1.trans hb))
      fun as s2 b2 hb2 has => Out.Ppure ⟨has.1, by simp [has.2.1], ?_⟩
    intro x hx
    cases hx with
    | head => exact ha.2
    | tail _ hx => exact has.2.2 x hx

theorem Out.repeatN_ {m : P σ Unit} {I : σ → Prop} {b0 : Bytes}
    (hm : ∀ s b, I s → b <:+ b0 → Out L E m s b fun _ s' _ => I s')
    (n : Nat) (s : σ) (b : Bytes) (hs : I s) (hb : b <:+ b0) :
    Out L E (P.repeatN_ n m) s b fun _ s' _ => I s' := by
  induction n generalizing s b with
  | zero => exact Out.Ppure hs
  | succ n ih => exact Out.Pbind (hm s b hs hb) fun _ s1 b1 hb1 h1 => ih s1 b1 h1 (hb1.trans hb)

theorem Out.whileTrue {body : α → P σ (α ⊕ β)} {I : α → σ → Prop} {Q : β → σ → Prop} {b0 : Bytes}
    (hb : ∀ a s b, I a s → b <:+ b0 → Out L E (body a) s b fun r s' b' =>
      match r with | .inl a' => I a' s' ∧ b'.length + 1 ≤ b.length | .inr c => Q c s')
    (f : Nat) (a : α) (s : σ) (b : Bytes) (ha : I a s) (hb0 : b <:+ b0) (hf : L.hang ∨ b.length + 1 ≤ f) :
    Out L E (P.whileTrue f body a) s b fun c s' _ => Q c s' := by
  induction f generalizing a s b with
  | zero => exact Out.diverge (hf.resolve_right (by omega))
  | succ f ih =>
    refine Out.Pbind (hb a s b ha hb0) fun r s1 b1 hb1 hr => ?_
    cases r with
    | inl a' => exact ih a' s1 b1 hr.1 (hb1.trans hb0) (hf.imp_right fun _ => by have := hr.2; omega)
    | inr c => exact Out.Ppure hr

/-- The calling discipline of a protocol object and what its reading methods do with arbitrary bytes.
`Can tt s`: in state `s` a value of wire type `tt` may be read; `Same s s'`: `s'` behaves like `s`;
`Fld s0 s`: `s` is between two fields of a struct that was opened in `s0`; `Fval s0 tt s`: `s` is
before the value of a field of wire type `tt`; `Fin s0 s`: `s` is behind the last field of a struct that was
opened in `s0`; `Elt s0 s`: `s` is between two elements of a list or set that was opened in `s0`; `Pr s0 s`: `s`
is between two keys or values of a map that was opened in `s0`. -/
structure SafeOps [HasDepth σ] (ops : RdOps σ) (L : Lim) (E : Exc → Prop) (int : Nat → Int → Prop) (sl cl : Option Int) where
  Can : Int → σ → Prop
  Same : σ → σ → Prop
  Fld : σ → σ → Prop
  Fval : σ → Int → σ → Prop
  Fin : σ → σ → Prop
  Elt : σ → σ → Prop
  Pr : σ → σ → Prop
  same_refl : ∀ s, Same s s
  same_fval : ∀ s0 tt s s', Fval s0 tt s → Same s s' → Fval s0 tt s'
  same_elt : ∀ s0 s s', Elt s0 s → Same s s' → Elt s0 s'
  same_pr : ∀ s0 s s', Pr s0 s → Same s s' → Pr s0 s'
  fval_can : ∀ s0 tt s, Fval s0 tt s → Can tt s
  elt_can : ∀ s0 tt s, Elt s0 s → Can tt s
  pr_can : ∀ s0 tt s, Pr s0 s → Can tt s
  can_depth : ∀ tt s d, Can tt s → Can tt (HasDepth.setDepth d s)
  same_depth : ∀ s s', Same (HasDepth.setDepth (HasDepth.depth s + 1) s) s' → Same s (decDepth s')
  depthLimit : E TProtocolException.DEPTH_LIMIT
  invalidData : E TProtocolException.INVALID_DATA
  structBegin : ∀ s b, Can TType.STRUCT s → Out L E ops.readStructBegin s b fun _ s' _ => Fld s s'
  structEnd : ∀ s0 s b, Fin s0 s → Out L E ops.readStructEnd s b fun _ s' _ => Same s0 s'
  fieldBegin : ∀ s0 s b, Fld s0 s → Out L E ops.readFieldBegin s b fun a s' b' =>
    b'.length + 1 ≤ b.length ∧ ((a.1 = TType.STOP ∧ Fin s0 s') ∨ (a.1 ≠ TType.STOP ∧ Fval s0 a.1 s'))
  fieldEnd : ∀ s0 tt s b, Fval s0 tt s → Out L E ops.readFieldEnd s b fun _ s' _ => Fld s0 s'
  mapBegin : ∀ s b, Can TType.MAP s → Out L E ops.readMapBegin s b fun a s' b' =>
    b'.length + 1 ≤ b.length ∧ Within cl a.2.2.toNat ∧ Pr s s'
  mapEnd : ∀ s0 s b, Pr s0 s → Out L E ops.readMapEnd s b fun _ s' _ => Same s0 s'
  listBegin : ∀ s b, Can TType.LIST s → Out L E ops.readListBegin s b fun a s' b' =>
    b'.length + 1 ≤ b.length ∧ Within cl a.2.toNat ∧ Elt s s'
  listEnd : ∀ s0 s b, Elt s0 s → Out L E ops.readListEnd s b fun _ s' _ => Same s0 s'
  setBegin : ∀ s b, Can TType.SET s → Out L E ops.readSetBegin s b fun a s' b' =>
    b'.length + 1 ≤ b.length ∧ Within cl a.2.toNat ∧ Elt s s'
  setEnd : ∀ s0 s b, Elt s0 s → Out L E ops.readSetEnd s b fun _ s' _ => Same s0 s'
  bool : ∀ s b, Can TType.BOOL s → Out L E ops.readBool s b fun _ s' _ => Same s s'
  byte : ∀ s b, Can TType.BYTE s → Out L E ops.readByte s b fun i s' _ => Same s s' ∧ int 8 i
  i16 : ∀ s b, Can TType.I16 s → Out L E ops.readI16 s b fun i s' _ => Same s s' ∧ int 16 i
  i32 : ∀ s b, Can TType.I32 s → Out L E ops.readI32 s b fun i s' _ => Same s s' ∧ int 32 i
  i64 : ∀ s b, Can TType.I64 s → Out L E ops.readI64 s b fun i s' _ => Same s s' ∧ int 64 i
  double : ∀ s b, Can TType.DOUBLE s → Out L E ops.readDouble s b fun _ s' _ => Same s s'
  string : ∀ s b, Can TType.STRING s → Out L E ops.readString s b fun x s' _ =>
    Same s s' ∧ (∀ c ∈ x, Scalar c) ∧ Within sl (utf8Len x)
  binary : ∀ s b, Can TType.STRING s → Out L E ops.readBinary s b fun x s' _ =>
    Same s s' ∧ Within sl x.length
  uuid : ∀ s b, Can TType.UUID s → Out L E ops.readUuid s b fun x s' _ => Same s s' ∧ x.length = 16

section
variable [HasDepth σ] {ops : RdOps σ} {int : Nat → Int → Prop} {sl cl : Option Int}

theorem skip_out (H : SafeOps ops L E int sl cl) (fuel d : Nat) (tt : Int) (s : σ) (b : Bytes)
    (hc : H.Can tt s) (hf : L.hang ∨ b.length + 1 ≤ fuel) :
    Out L E (skip ops fuel d tt) s b fun _ s' _ => H.Same s s' := by
  induction d generalizing tt s b with
  | zero => exact Out.raise H.depthLimit
  | succ d ih =>
    unfold skip
    refine Out.ite (fun h => ?_) fun _ => ?_
    · subst h; exact Out.bind (H.bool s b hc) fun _ s' _ _ h => Out.pure h
    refine Out.ite (fun h => ?_) fun _ => ?_
    · subst h; exact Out.bind (H.byte s b hc) fun _ s' _ _ h => Out.pure h.1
    refine Out.ite (fun h => ?_) fun _ => ?_
    · subst h; exact Out.bind (H.i16 s b hc) fun _ s' _ _ h => Out.pure h.1
    refine Out.ite (fun h => ?_) fun _ => ?_
    · subst h; exact Out.bind (H.i32 s b hc) fun _ s' _ _ h => Out.pure h.1
    refine Out.ite (fun h => ?_) fun _ => ?_
    · subst h; exact Out.bind (H.i64 s b hc) fun _ s' _ _ h => Out.pure h.1
    refine Out.ite (fun h => ?_) fun _ => ?_
    · subst h; exact Out.bind (H.double s b hc) fun _ s' _ _ h => Out.pure h
    refine Out.ite (fun h => ?_) fun _ => ?_
    · subst h; exact Out.bind (H.string s b hc) fun _ s' _ _ h => Out.pure h.1
    refine Out.ite (fun h => ?_) fun _ => ?_
    · subst h
      refine Out.bind (H.structBegin s b hc) fun _ s1 b1 hb1 h1 =>
        Out.bind (Out.whileTrue (I := fun _ s' => H.Fld s s') (Q := fun _ s' => H.Fin s s') (b0 := b)
          (fun _ s2 b2 h2 hb2 => ?_) fuel () s1 b1 h1 hb1 (hf.imp_right fun _ => by have := hb1.length_le; omega))
          fun _ s2 b2 _ h2 => H.structEnd s s2 b2 h2
      refine Out.bind (H.fieldBegin s s2 b2 h2) fun x s3 b3 hb3 h3 => Out.ite (fun hx => ?_) fun hx => ?_
      · rcases h3.2 with h | h
        · exact Out.pure h.2
        · exact absurd hx h.1
      · rcases h3.2 with h | h
        · exact absurd h.1 hx
        · refine Out.bind (ih _ s3 b3 (H.fval_can _ _ _ h.2) ?_) fun _ s4 b4 hb4 h4 =>
            Out.bind (H.fieldEnd s _ s4 b4 (H.same_fval _ _ _ _ h.2 h4)) fun _ s5 b5 hb5 h5 =>
              Out.pure ⟨h5, ?_⟩
          · refine hf.imp_right fun _ => ?_
            have := hb3.length_le; have := hb2.length_le; omega
          · have := h3.1; have := hb4.length_le; have := hb5.length_le; omega
    refine Out.ite (fun h => ?_) fun _ => ?_
    · subst h
      refine Out.bind (H.mapBegin s b hc) fun x s1 b1 hb1 h1 =>
        Out.bind (Out.repeatN_ (I := fun s' => H.Pr s s') (b0 := b)
          (fun s2 b2 h2 hb2 => ?_) _ s1 b1 h1.2.2 hb1) fun _ s2 b2 _ h2 => H.mapEnd s s2 b2 h2
      have hl := hb2.length_le
      exact Out.bind (ih _ s2 b2 (H.pr_can _ _ _ h2) (hf.imp_right fun _ => by omega)) fun _ s3 b3 hb3 h3 =>
        (ih _ s3 b3 (H.pr_can _ _ _ (H.same_pr _ _ _ h2 h3))
          (hf.imp_right fun _ => by have := hb3.length_le; omega)).mono
          fun _ s4 _ _ h4 => H.same_pr _ _ _ (H.same_pr _ _ _ h2 h3) h4
    refine Out.ite (fun h => ?_) fun _ => ?_
    · subst h
      refine Out.bind (H.setBegin s b hc) fun x s1 b1 hb1 h1 =>
        Out.bind (Out.repeatN_ (I := fun s' => H.Elt s s') (b0 := b)
          (fun s2 b2 h2 hb2 => ?_) _ s1 b1 h1.2.2 hb1) fun _ s2 b2 _ h2 => H.setEnd s s2 b2 h2
      have hl := hb2.length_le
      exact (ih _ s2 b2 (H.elt_can _ _ _ h2) (hf.imp_right fun _ => by omega)).mono fun _ s4 _ _ h4 => H.same_elt _ _ _ h2 h4
    refine Out.ite (fun h => ?_) fun _ => ?_
    · subst h
      refine Out.bind (H.listBegin s b hc) fun x s1 b1 hb1 h1 =>
        Out.bind (Out.repeatN_ (I := fun s' => H.Elt s s') (b0 := b)
          (fun s2 b2 h2 hb2 => ?_) _ s1 b1 h1.2.2 hb1) fun _ s2 b2 _ h2 => H.listEnd s s2 b2 h2
      have hl := hb2.length_le
      exact (ih _ s2 b2 (H.elt_can _ _ _ h2) (hf.imp_right fun _ => by omega)).mono fun _ s4 _ _ h4 => H.same_elt _ _ _ h2 h4
    refine Out.ite (fun h => ?_) fun _ => Out.raise H.invalidData
    subst h; exact Out.bind (H.uuid s b hc) fun _ s' _ _ h => Out.pure h.1

theorem thriftSpecFrom_mem (fs : List Field) (pos : Int) (idx i : Nat)
    (h : some i ∈ thriftSpecFrom pos idx fs) : i < idx + fs.length := by
  induction fs generalizing pos idx with
  | nil => simp [thriftSpecFrom] at h
  | cons f fs ih =>
    simp only [thriftSpecFrom, List.mem_append, List.mem_replicate, List.mem_cons, Option.some.injEq] at h
    rcases h with ⟨-, h⟩ | h | h
    · cases h
    · simp; omega
    · have := ih _ _ h; simp; omega

theorem pyIndex_mem {α : Type} {l : List α} {i : Int} {a : α} (h : pyIndex l i = some a) : a ∈ l := by
  unfold pyIndex at h
  split at h
  · exact List.mem_of_getElem? h
  · split at h
    · exact List.mem_of_getElem? h
    · cases h

/-- `lookupField` returns a position in the list of fields. -/
theorem lookupField_get {mode : Mode} {fs : List Field} {fid : Int} {i : Nat}
    (h : lookupField mode fs fid = some i) : ∃ f, fs[i]? = some f := by
  have hi : i < fs.length := by
    cases mode with
    | gen =>
      simp only [lookupField] at h
      have := (List.findIdx?_eq_some_iff_getElem.mp h).1
      exact this
    | dyn =>
      simp only [lookupField] at h
      split at h
      · rename_i j hj
        cases h
        have hm := pyIndex_mem hj
        unfold thriftSpec at hm
        split at hm
        · cases hm
        · split at hm
          · have := thriftSpecFrom_mem _ _ _ _ hm; omega
          · cases hm
      · cases h
  exact ⟨fs[i], List.getElem?_eq_getElem hi⟩

theorem setAdd_distinct {s : List Val} {v : Val} (h : Distinct s) : Distinct (setAdd s v) := by
  unfold setAdd
  split
  · exact h
  · rename_i hn
    unfold Distinct
    rw [List.pairwise_append]
    refine ⟨h, List.pairwise_singleton _ _, fun a ha b hb => ?_⟩
    simp only [List.mem_singleton] at hb
    subst hb
    rw [← keyEq_eq]
    cases hk : keyEq b a with
    | false => rfl
    | true => exact absurd (List.any_eq_true.mpr ⟨a, ha, hk⟩) hn

theorem pySet_distinct (vs : List Val) : Distinct (pySet vs) := by
  have : ∀ acc, Distinct acc → Distinct (vs.foldl setAdd acc) := by
    induction vs with
    | nil => exact fun _ h => h
    | cons v vs ih => exact fun acc h => ih _ (setAdd_distinct h)
  exact this [] (List.Pairwise.nil)

theorem pySet_length (vs : List Val) : (pySet vs).length ≤ vs.length := by
  have : ∀ acc, (vs.foldl setAdd acc).length ≤ acc.length + vs.length := by
    induction vs with
    | nil => exact fun _ => Nat.le_refl _
    | cons v vs ih =>
      intro acc
      have := ih (setAdd acc v)
      have h2 : (setAdd acc v).length ≤ acc.length + 1 := by unfold setAdd; split <;> simp
      simp only [List.foldl_cons, List.length_cons]
      omega
  simpa [pySet] using this []

theorem dictPut_keys (d : List (Val × Val)) (k v : Val) :
    (dictPut d k v).map (·.1) = d.map (·.1) ∨
      (dictPut d k v).map (·.1) = d.map (·.1) ++ [k] ∧ ∀ a ∈ d.map (·.1), keyEq k a = false := by
  induction d with
  | nil => right; simp [dictPut]
  | cons y d ih =>
    obtain ⟨k', v'⟩ := y
    simp only [dictPut]
    split
    · left; rfl
    · rename_i hn
      rcases ih with h | ⟨h1, h2⟩
      · left; simp only [List.map_cons, h]
      · right
        refine ⟨by simp only [List.map_cons, h1, List.cons_append], fun a ha => ?_⟩
        rcases List.mem_cons.mp ha with h | h
        · subst h; simpa using hn
        · exact h2 a h

theorem pyDict_distinct (kvs : List (Val × Val)) :
    Distinct ((pyDict kvs).map (·.1)) ∧ (pyDict kvs).length ≤ kvs.length := by
  have : ∀ acc : List (Val × Val), Distinct (acc.map (·.1)) →
      Distinct ((kvs.foldl (fun d kv => dictPut d kv.1 kv.2) acc).map (·.1)) ∧
      (kvs.foldl (fun d kv => dictPut d kv.1 kv.2) acc).length ≤ acc.length + kvs.length := by
    induction kvs with
    | nil => exact fun _ h => ⟨h, Nat.le_refl _⟩
    | cons w ws ih =>
      intro acc h
      have hk := dictPut_keys acc w.1 w.2
      have hd : Distinct ((dictPut acc w.1 w.2).map (·.1)) := by
        rcases hk with hk | ⟨h1, h2⟩
        · rw [hk]; exact h
        · rw [h1]
          unfold Distinct
          rw [List.pairwise_append]
          refine ⟨h, List.pairwise_singleton _ _, fun a ha b hb => ?_⟩
          simp only [List.mem_singleton] at hb
          subst hb
          rw [← keyEq_eq]
          exact h2 a ha
      have hl : (dictPut acc w.1 w.2).length ≤ acc.length + 1 := by
        have e1 : (dictPut acc w.1 w.2).length = ((dictPut acc w.1 w.2).map (·.1)).length := by simp
        rw [e1]
        rcases hk with hk | ⟨h1, -⟩
        · rw [hk]; simp
        · rw [h1]; simp
      have := ih _ hd
      refine ⟨this.1, ?_⟩
      simp only [List.foldl_cons, List.length_cons]
      have := this.2
      omega
  simpa [pyDict] using this [] (List.Pairwise.nil)

theorem Within.le {l : Option Int} {m n : Nat} (h : Within l n) (hm : m ≤ n) : Within l m := by
  intro x hx
  have := h x hx
  omega

theorem incDepth_out {s : σ} {b : Bytes} (he : E TProtocolException.DEPTH_LIMIT) :
    Out L E incDepth s b fun _ s' b' => s' = HasDepth.setDepth (HasDepth.depth s + 1) s ∧ b' = b := by
  intro hb k
  unfold cexec
  rw [incDepth_eq]
  split
  · exact .inr ⟨_, _, _, _, rfl, List.suffix_refl _, .inr (Nat.le_add_right _ _), he⟩
  · exact .inr ⟨_, _, _, _, rfl, List.suffix_refl _, .inr (Nat.le_refl _), rfl, rfl⟩

omit [HasDepth σ] in
theorem Out.tryFinally {m : P σ α} {f : σ → σ} {s : σ} {b : Bytes} {Q : α → σ → Bytes → Prop}
    (h : Out L E m s b fun a s' b' => Q a (f s') b') : Out L E (P.tryFinally m f) s b Q := by
  intro hb k
  unfold cexec P.tryFinally
  rw [Prog.run_bind]
  rcases h hb k with ⟨h0, h1⟩ | ⟨r, s', b', k', h1, h2, h3⟩
  · unfold cexec at h1
    rw [h1]
    exact .inl ⟨h0, rfl⟩
  · unfold cexec at h1
    rw [h1]
    exact .inr ⟨r, f s', b', k', rfl, h2, h3⟩

/-- The attributes while a struct is being read: one per field, each the constructor's default or
decoded. -/
def AttrsOK (p : Ty → Val → Prop) (fs : List Field) (as : List (Option Val)) : Prop :=
  as.length = fs.length ∧
  (∀ (i : Nat) (f : Field) (v : Val), fs[i]? = some f → as[i]? = some (some v) → f.dflt ≠ some v → p f.ty v) ∧
  (∀ (i : Nat) (f : Field), fs[i]? = some f → as[i]? = some none → f.dflt = none)

theorem attrsOK_init (p : Ty → Val → Prop) (fs : List Field) : AttrsOK p fs (initAttrs fs) := by
  refine ⟨by simp [initAttrs], initAttrs_inv, fun i f hf h => ?_⟩
  unfold initAttrs at h
  rw [List.getElem?_map, hf] at h
  simpa using h

theorem attrsOK_set {p : Ty → Val → Prop} {fs : List Field} {as : List (Option Val)} {i : Nat} {f : Field}
    {v : Val} (hf : fs[i]? = some f) (hv : p f.ty v) (h : AttrsOK p fs as) :
    AttrsOK p fs (as.set i (some v)) := by
  refine ⟨by simp [h.1], attrs_set_inv hf hv h.2.1, fun j g hg hn => ?_⟩
  by_cases hij : i = j
  · subst hij
    rw [List.getElem?_set] at hn
    simp only [if_true] at hn
    split at hn <;> cases hn
  · rw [List.getElem?_set_ne hij] at hn
    exact h.2.2 j g hg hn

theorem Hashes_list {e : Ty} (h : Hashes (.list e) = true) : Hashes e = true := h
theorem Hashes_set {e : Ty} (h : Hashes (.set e) = true) : e.hashable = true ∧ Hashes e = true := by
  simpa [Hashes] using h
theorem Hashes_map {k v : Ty} (h : Hashes (.map k v) = true) :
    k.hashable = true ∧ Hashes k = true ∧ Hashes v = true := by
  simpa [Hashes, and_assoc] using h

/-- The types of a single item. -/
def Ty.scalar : Ty → Bool
  | .list _ | .set _ | .map _ _ | .struct _ => false
  | _ => true

theorem readVal_out_scalar (H : SafeOps ops L E int sl cl) (sch : Schema) (mode : Mode) (fuel : Nat) (t : Ty)
    (s : σ) (b : Bytes) (hc : H.Can t.ttype s) (ht : t.scalar = true) :
    Out L E (readVal ops sch mode fuel t) s b fun v s' _ => H.Same s s' ∧ Decoded int sl cl sch t v := by
  cases t <;> (first | cases ht | skip) <;> try unfold readVal
  · exact Out.bind (H.bool s b hc) fun _ _ _ _ h => Out.pure ⟨h, .bool _⟩
  · exact Out.bind (H.byte s b hc) fun _ _ _ _ h => Out.pure ⟨h.1, .byte _ h.2⟩
  · exact Out.bind (H.i16 s b hc) fun _ _ _ _ h => Out.pure ⟨h.1, .i16 _ h.2⟩
  · exact Out.bind (H.i32 s b hc) fun _ _ _ _ h => Out.pure ⟨h.1, .i32 _ h.2⟩
  · exact Out.bind (H.i64 s b hc) fun _ _ _ _ h => Out.pure ⟨h.1, .i64 _ h.2⟩
  · exact Out.bind (H.double s b hc) fun _ _ _ _ h => Out.pure ⟨h, .double _⟩
  · exact Out.bind (H.string s b hc) fun _ _ _ _ h => Out.pure ⟨h.1, .string _ h.2.1 h.2.2⟩
  · exact Out.bind (H.binary s b hc) fun _ _ _ _ h => Out.pure ⟨h.1, .binary _ h.2⟩
  · exact Out.bind (H.uuid s b hc) fun _ _ _ _ h => Out.pure ⟨h.1, .uuid _ h.2⟩

theorem readVal_out (H : SafeOps ops L E int sl cl) (sch : Schema) (mode : Mode) (fuel : Nat) (t : Ty)
    (s : σ) (b : Bytes) (hc : H.Can t.ttype s) (hf : L.hang ∨ b.length + 2 ≤ fuel)
    (hE : E .typeError ∨ SchemaHashes sch t) :
    Out L E (readVal ops sch mode fuel t) s b fun v s' _ => H.Same s s' ∧ Decoded int sl cl sch t v := by
  induction fuel generalizing t s b with
  | zero =>
    cases hs : t.scalar with
    | true => exact readVal_out_scalar H sch mode 0 t s b hc hs
    | false =>
      have h := hf.resolve_right (by omega)
      cases t <;> first | exact Out.diverge h | cases hs
  | succ f ih =>
    cases hs : t.scalar with
    | true => exact readVal_out_scalar H sch mode _ t s b hc hs
    | false =>
    cases t <;> (first | (cases hs; done) | skip) <;> try unfold readVal
    · rename_i e
      have hE' : E .typeError ∨ SchemaHashes sch e := hE.imp_right fun h => ⟨Hashes_list h.1, h.2⟩
      refine Out.bind (H.listBegin s b hc) fun x s1 b1 hb1 h1 =>
        Out.bind (Out.repeatN (I := fun s' => H.Elt s s') (b0 := b1)
          (Q := Decoded int sl cl sch e)
          (fun s2 b2 h2 hb2 => ?_) _ s1 b1 h1.2.2 (List.suffix_refl _)) fun vs s2 b2 _ h2 =>
          Out.bind (H.listEnd s s2 b2 h2.1) fun _ s3 _ _ h3 => Out.pure ⟨h3, .list _ _ ?_ h2.2.2⟩
      · have := hb2.length_le; have := h1.1
        exact (ih _ s2 b2 (H.elt_can _ _ _ h2) (hf.imp_right fun _ => by omega) hE').mono fun v s3 _ _ h3 =>
          ⟨H.same_elt _ _ _ h2 h3.1, h3.2⟩
      · rw [h2.2.1]; exact h1.2.1
    · rename_i e
      have hE' : E .typeError ∨ SchemaHashes sch e :=
        hE.imp_right fun h => ⟨(Hashes_set h.1).2, h.2⟩
      refine Out.bind (H.setBegin s b hc) fun x s1 b1 hb1 h1 =>
        Out.bind (Out.repeatN (I := fun s' => H.Elt s s') (b0 := b1)
          (Q := fun v => Decoded int sl cl sch e v ∧ e.hashable = true)
          (fun s2 b2 h2 hb2 => ?_) _ s1 b1 h1.2.2 (List.suffix_refl _)) fun vs s2 b2 _ h2 =>
          Out.bind (H.setEnd s s2 b2 h2.1) fun _ s3 _ _ h3 => Out.pure ⟨h3, .set _ _ ?_ ?_ (pySet_distinct _) ?_⟩
      · have := hb2.length_le; have := h1.1
        refine Out.bind (ih _ s2 b2 (H.elt_can _ _ _ h2) (hf.imp_right fun _ => by omega) hE') fun v s3 _ _ h3 =>
          Out.ite (fun hh => Out.pure ⟨H.same_elt _ _ _ h2 h3.1, h3.2, hh⟩) fun hh => Out.raise ?_
        rcases hE with h | h
        · exact h
        · exact absurd (Hashes_set h.1).1 hh
      · exact Within.le h1.2.1 (h2.2.1 ▸ pySet_length _)
      · intro hne
        cases hp : pySet vs with
        | nil => exact absurd hp hne
        | cons v _ => exact (h2.2.2 v (pySet_mem (by rw [hp]; simp))).2
      · exact fun v hv => (h2.2.2 v (pySet_mem hv)).1
    · rename_i k v
      have hEk : E .typeError ∨ SchemaHashes sch k :=
        hE.imp_right fun h => ⟨(Hashes_map h.1).2.1, h.2⟩
      have hEv : E .typeError ∨ SchemaHashes sch v :=
        hE.imp_right fun h => ⟨(Hashes_map h.1).2.2, h.2⟩
      refine Out.bind (H.mapBegin s b hc) fun x s1 b1 hb1 h1 =>
        Out.bind (Out.repeatN (I := fun s' => H.Pr s s') (b0 := b1)
          (Q := fun x => Decoded int sl cl sch k x.1 ∧ Decoded int sl cl sch v x.2 ∧ k.hashable = true)
          (fun s2 b2 h2 hb2 => ?_) _ s1 b1 h1.2.2 (List.suffix_refl _)) fun kvs s2 b2 _ h2 =>
          Out.bind (H.mapEnd s s2 b2 h2.1) fun _ s3 _ _ h3 =>
            Out.pure ⟨h3, .map _ _ _ ?_ ?_ (pyDict_distinct _).1 ?_ ?_⟩
      · have := hb2.length_le; have := h1.1
        refine Out.bind (ih _ s2 b2 (H.pr_can _ _ _ h2) (hf.imp_right fun _ => by omega) hEk) fun a s3 b3 hb3 h3 =>
          Out.bind (ih _ s3 b3 (H.pr_can _ _ _ (H.same_pr _ _ _ h2 h3.1))
            (hf.imp_right fun _ => by have := hb3.length_le; omega) hEv) fun c s4 _ _ h4 =>
          Out.ite (fun hh => Out.pure ⟨H.same_pr _ _ _ (H.same_pr _ _ _ h2 h3.1) h4.1, h3.2, h4.2, hh⟩)
            fun hh => Out.raise ?_
        rcases hE with h | h
        · exact h
        · exact absurd (Hashes_map h.1).1 hh
      · exact Within.le h1.2.1 (h2.2.1 ▸ (pyDict_distinct _).2)
      · intro hne
        cases hp : pyDict kvs with
        | nil => exact absurd hp hne
        | cons y _ =>
          obtain ⟨⟨z, hz, -⟩, -⟩ := pyDict_mem (x := y) (kvs := kvs) (by rw [hp]; simp)
          exact (h2.2.2 z hz).2.2
      · intro x hx
        obtain ⟨⟨y, hy, e⟩, -⟩ := pyDict_mem hx
        exact e ▸ (h2.2.2 y hy).1
      · intro x hx
        obtain ⟨-, ⟨y, hy, e⟩⟩ := pyDict_mem hx
        exact e ▸ (h2.2.2 y hy).2.1
    · rename_i sid
      have hEf : ∀ g ∈ sch sid, E .typeError ∨ SchemaHashes sch g.ty := fun g hg =>
        hE.imp_right fun h => ⟨h.2 sid g hg, h.2⟩
      have hcore : ∀ s', H.Can TType.STRUCT s' →
          Out L E (readStructCore ops mode f (sch sid) (readVal ops sch mode f) (skip ops f skipDepth)) s' b
            fun v s'' _ => H.Same s' s'' ∧ Decoded int sl cl sch (.struct sid) v := by
        intro s' hc'
        refine Out.bind (H.structBegin s' b hc') fun _ s1 b1 hb1 h1 =>
          Out.bind (Out.whileTrue
            (I := fun as s2 => H.Fld s' s2 ∧ AttrsOK (Decoded int sl cl sch) (sch sid) as)
            (Q := fun as s2 => H.Fin s' s2 ∧ AttrsOK (Decoded int sl cl sch) (sch sid) as) (b0 := b)
            (fun as s2 b2 h2 hb2 => ?_) f _ s1 b1 ⟨h1, attrsOK_init _ _⟩ hb1
            (hf.imp_right fun _ => by have := hb1.length_le; omega)) fun as s2 b2 _ h2 =>
            Out.bind (H.structEnd s' s2 b2 h2.1) fun _ s3 _ _ h3 =>
              Out.pure ⟨h3, .struct _ _ h2.2.1 h2.2.2.1 h2.2.2.2⟩
        have hl2 := hb2.length_le
        refine Out.bind (H.fieldBegin s' s2 b2 h2.1) fun x s3 b3 hb3 h3 =>
          Out.ite (fun hx => ?_) fun hx => ?_
        · rcases h3.2 with h | h
          · exact Out.pure ⟨h.2, h2.2⟩
          · exact absurd hx h.1
        · rcases h3.2 with h | h
          · exact absurd h.1 hx
          have hl3 := h3.1
          have hskip : Out L E (do
              skip ops f skipDepth x.1
              ops.readFieldEnd
              pure (.inl as) : P σ (List (Option Val) ⊕ List (Option Val))) s3 b3 fun r sr b' =>
              match r with
              | .inl a' => (H.Fld s' sr ∧ AttrsOK (Decoded int sl cl sch) (sch sid) a') ∧ b'.length + 1 ≤ b2.length
              | .inr c => H.Fin s' sr ∧ AttrsOK (Decoded int sl cl sch) (sch sid) c := by
            refine Out.bind (skip_out H f skipDepth _ s3 b3 (H.fval_can _ _ _ h.2) (hf.imp_right fun _ => by omega))
              fun _ s4 b4 hb4 h4 => Out.bind (H.fieldEnd s' _ s4 b4 (H.same_fval _ _ _ _ h.2 h4))
              fun _ s5 b5 hb5 h5 => Out.pure ⟨⟨h5, h2.2⟩, ?_⟩
            have := hb4.length_le; have := hb5.length_le; omega
          split
          · exact hskip.mono fun r _ _ _ h => by cases r <;> exact h
          · rename_i i hi
            obtain ⟨g, hg⟩ := lookupField_get hi
            split
            · rename_i hn; rw [hg] at hn; cases hn
            · rename_i g' hg'
              refine Out.ite (fun ht => ?_) fun _ => hskip.mono fun r _ _ _ h => by cases r <;> exact h
              have hmem : g' ∈ sch sid := List.mem_of_getElem? hg'
              refine Out.bind (ih g'.ty s3 b3 (H.fval_can _ _ _ (ht ▸ h.2)) (hf.imp_right fun _ => by omega) (hEf g' hmem))
                fun v s4 b4 hb4 h4 => Out.bind (H.fieldEnd s' _ s4 b4 (H.same_fval _ _ _ _ h.2 h4.1))
                fun _ s5 b5 hb5 h5 => Out.pure ⟨⟨h5, attrsOK_set hg' h4.2 h2.2⟩, ?_⟩
              have := hb4.length_le; have := hb5.length_le; omega
      cases mode
      · refine Out.bind (incDepth_out H.depthLimit) fun _ s1 b1 hb1 h1 => ?_
        obtain ⟨rfl, rfl⟩ := h1
        exact Out.tryFinally ((hcore _ (H.can_depth _ _ _ hc)).mono fun v s' _ _ h =>
          ⟨H.same_depth _ _ h.1, h.2⟩)
      · exact hcore s hc

end
end
end Thrift
