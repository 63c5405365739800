import Verif.Proofs.FastRead
import Verif.Spec.Agree
/-
The extension and the Python code over the binary protocol, side by side on arbitrary bytes.
-/

namespace Thrift.Fast
open Spec

/-- Exceptions that only the Python code raises. -/
def PythonOnly (e : Exc) : Prop := e = .unicodeError ∨ e = TTransportException.SIZE_LIMIT
/-- Exceptions that only the extension raises. -/
def ExtOnly (e : Exc) : Prop := e = .typeError ∨ e = TProtocolException.DEPTH_LIMIT

/-- The values of the two counters. -/
def Ahead (k : Int × Int) (s s' : Binary.St) : Prop := s.depth = k.1 ∧ s'.depth = k.2

section
variable {α α' β β' : Type}

/-- How a run of the Python code and a run of the extension compare. `w`: results the extension may
return, with nothing left to read, where Python has failed. Runs that do not end are not compared. -/
def Agree (k : Int × Int) (w : α' → Prop) (R : α → α' → Prop) : Res Binary.St α → Res Binary.St α' → Prop
  | some ((.ok a, s), r), some ((.ok b, s'), r') => R a b ∧ Ahead k s s' ∧ r = r'
  | some ((.ok _, _), _), some ((.error e, _), _) => ExtOnly e
  | some ((.error e, _), _), some ((.ok b, _), r') => PythonOnly e ∨ (w b ∧ r' = [])
  | _, _ => True

variable {k : Int × Int} {w : α' → Prop} {w' : β' → Prop} {R : α → α' → Prop} {Q : β → β' → Prop}

theorem Agree.both {e e' : Exc} {s s' : Binary.St} {r r' : Bytes} :
    Agree k w R (some ((.error e, s), r)) (some ((.error e', s'), r')) := trivial

theorem Agree.ext {p : Res Binary.St α} {e : Exc} {s' : Binary.St} {r' : Bytes} (h : ExtOnly e) :
    Agree k w R p (some ((.error e, s'), r')) := by
  rcases p with _ | ⟨⟨_ | _, _⟩, _⟩
  · trivial
  · trivial
  · exact h

theorem Agree.none_left {x : Res Binary.St α'} : Agree k w R none x := by
  rcases x with _ | ⟨⟨_ | _, _⟩, _⟩ <;> trivial

theorem Agree.none_right {p : Res Binary.St α} : Agree k w R p none := by
  rcases p with _ | ⟨⟨_ | _, _⟩, _⟩ <;> trivial

theorem Agree.mono {w2 : α' → Prop} {R2 : α → α' → Prop} {p : Res Binary.St α} {x : Res Binary.St α'}
    (h : Agree k w R p x) (hw : ∀ b, w b → w2 b) (hR : ∀ a b, R a b → R2 a b) : Agree k w2 R2 p x := by
  rcases p with _ | ⟨⟨e | a, s⟩, r⟩
  · exact Agree.none_left
  all_goals
    rcases x with _ | ⟨⟨e' | b, s'⟩, r'⟩
    · exact Agree.none_right
  · trivial
  · exact h.imp id fun h => ⟨hw _ h.1, h.2⟩
  · exact h
  · exact ⟨hR _ _ h.1, h.2⟩

theorem run_nil {σ γ : Type} {m : P σ γ} {s s' : σ} {c : Except Exc γ} {r : Bytes}
    (h : exec m s [] = some ((c, s'), r)) : r = [] := by
  unfold exec at h
  generalize m s = p at h
  induction p with
  | ret a => cases h; rfl
  | diverge => cases h
  | read n f ih =>
    simp only [Prog.run, memStep, List.take_nil, List.drop_nil] at h
    exact ih _ h

theorem Agree.bind {m : P Binary.St α} {m' : P Binary.St α'} {f : α → P Binary.St β}
    {f' : α' → P Binary.St β'} {s s' : Binary.St} {r : Bytes}
    (h : Agree k w R (exec m s r) (exec m' s' r))
    (hf : ∀ a b s s' r, R a b → Ahead k s s' → Agree k w' Q (exec (f a) s r) (exec (f' b) s' r))
    (hw : ∀ b s' c s'' r, w b → exec (f' b) s' [] = some ((.ok c, s''), r) → w' c) :
    Agree k w' Q (exec (m >>= f) s r) (exec (m' >>= f') s' r) := by
  rw [exec_bind, exec_bind]
  generalize exec m s r = p at h
  generalize exec m' s' r = x at h
  rcases p with _ | ⟨⟨e | a, s⟩, r⟩
  · exact Agree.none_left
  all_goals
    rcases x with _ | ⟨⟨e' | b, s'⟩, r'⟩
    · exact Agree.none_right
  · trivial
  · simp only [Res.andThen_ok, Res.andThen_error]
    rcases hx : exec (f' b) s' r' with _ | ⟨⟨e' | c, s''⟩, r''⟩
    · trivial
    · trivial
    · rcases h with h | ⟨h1, h2⟩
      · exact .inl h
      · subst h2
        exact .inr ⟨hw _ _ _ _ _ h1 hx, run_nil hx⟩
  · exact Agree.ext h
  · obtain ⟨h1, h2, h3⟩ := h
    subst h3
    exact hf _ _ _ _ _ h1 h2

/-- The same with nothing to watch in the first part. -/
theorem Agree.seq {m : P Binary.St α} {m' : P Binary.St α'} {f : α → P Binary.St β}
    {f' : α' → P Binary.St β'} {s s' : Binary.St} {r : Bytes}
    (h : Agree k (fun _ => False) R (exec m s r) (exec m' s' r))
    (hf : ∀ a b s s' r, R a b → Ahead k s s' → Agree k w' Q (exec (f a) s r) (exec (f' b) s' r)) :
    Agree k w' Q (exec (m >>= f) s r) (exec (m' >>= f') s' r) :=
  h.bind hf fun _ _ _ _ _ h => h.elim

theorem Agree.pure {a : α} {b : α'} {s s' : Binary.St} {r : Bytes} (h : R a b) (ha : Ahead k s s') :
    Agree k w R (exec (Pure.pure a : P Binary.St α) s r) (exec (Pure.pure b : P Binary.St α') s' r) :=
  ⟨h, ha, rfl⟩

theorem Agree.tryDec {p : P Binary.St α} {x : P Binary.St α'} {s s' : Binary.St} {r : Bytes}
    (h : Agree (k.1 + 1, k.2 + 1) w R (exec p s r) (exec x s' r)) :
    Agree k w R (exec (P.tryFinally p decDepth) s r) (exec (P.tryFinally x decDepth) s' r) := by
  rw [exec_tryFinally, exec_tryFinally]
  generalize exec p s r = p at h
  generalize exec x s' r = x at h
  rcases p with _ | ⟨⟨e | a, s⟩, r⟩
  · exact Agree.none_left
  all_goals
    rcases x with _ | ⟨⟨e' | b, s'⟩, r'⟩
    · exact Agree.none_right
  · trivial
  · exact h
  · exact h
  · refine ⟨h.1, ?_, h.2.2⟩
    obtain ⟨h1, h2⟩ := h.2.1
    dsimp only at h1 h2
    exact ⟨show s.depth - 1 = k.1 by omega, show s'.depth - 1 = k.2 by omega⟩

/-- The extension counts and Python does not. -/
theorem Agree.tryDecExt {p : P Binary.St α} {x : P Binary.St α'} {s s' : Binary.St} {r : Bytes}
    (h : Agree (k.1, k.2 + 1) w R (exec p s r) (exec x s' r)) :
    Agree k w R (exec p s r) (exec (P.tryFinally x decDepth) s' r) := by
  rw [exec_tryFinally]
  generalize exec p s r = p at h
  generalize exec x s' r = x at h
  rcases p with _ | ⟨⟨e | a, s⟩, r⟩
  · exact Agree.none_left
  all_goals
    rcases x with _ | ⟨⟨e' | b, s'⟩, r'⟩
    · exact Agree.none_right
  · trivial
  · exact h
  · exact h
  · refine ⟨h.1, ?_, h.2.2⟩
    obtain ⟨h1, h2⟩ := h.2.1
    dsimp only at h1 h2
    exact ⟨h1, show s'.depth - 1 = k.2 by omega⟩

theorem exec_incDepth (s : Binary.St) (r : Bytes) :
    exec incDepth s r = if s.depth < 64 then some ((.ok (), ⟨s.depth + 1⟩), r)
      else some ((.error TProtocolException.DEPTH_LIMIT, s), r) := by
  unfold incDepth
  simp only [exec_bind, exec_modify, Res.andThen_ok, exec_get]
  by_cases h : s.depth < 64
  · rw [if_pos h, if_neg]
    · rfl
    · show ¬ (s.depth + 1 > 64); omega
  · rw [if_neg h, if_pos]
    · simp only [exec_bind, exec_modify, Res.andThen_ok, exec_raise]
      show some ((_, (⟨s.depth + 1 - 1⟩ : Binary.St)), r) = _
      rw [show s.depth + 1 - 1 = s.depth by omega]
    · show s.depth + 1 > 64; omega

theorem Agree.repeatN_ {m m' : P Binary.St Unit}
    (h : ∀ s s' r, Ahead k s s' →
      Agree k (fun _ => False) (fun _ _ => True) (exec m s r) (exec m' s' r)) :
    (n : Nat) → ∀ s s' r, Ahead k s s' →
      Agree k (fun _ => False) (fun _ _ => True) (exec (P.repeatN_ n m) s r) (exec (P.repeatN_ n m') s' r)
  | 0, s, s', r, ha => ⟨trivial, ha, rfl⟩
  | n + 1, s, s', r, ha => Agree.seq (h s s' r ha) fun _ _ s s' r _ ha => Agree.repeatN_ h n s s' r ha

theorem Agree.repeatN {RL : List α → List α' → Prop} {m : P Binary.St α} {m' : P Binary.St α'}
    (h : ∀ s s' r, Ahead k s s' → Agree k (fun _ => True) R (exec m s r) (exec m' s' r))
    (h0 : RL [] []) (hc : ∀ a b as bs, R a b → RL as bs → RL (a :: as) (b :: bs)) :
    (n : Nat) → ∀ s s' r, Ahead k s s' →
      Agree k (fun _ => True) RL (exec (P.repeatN n m) s r) (exec (P.repeatN n m') s' r)
  | 0, s, s', r, ha => ⟨h0, ha, rfl⟩
  | n + 1, s, s', r, ha =>
    Agree.bind (h s s' r ha) (fun a b s s' r hab ha =>
      Agree.bind (Agree.repeatN h h0 hc n s s' r ha) (fun _ _ _ _ _ hl ha => ⟨hc _ _ _ _ hab hl, ha, rfl⟩)
        fun _ _ _ _ _ _ _ => trivial) fun _ _ _ _ _ _ _ => trivial

/-- The struct loops. An iteration of the extension that consumed everything where Python has failed is
not the last, and the next one fails. -/
theorem Agree.whileTrue {body : α → P Binary.St (α ⊕ β)} {body' : α' → P Binary.St (α' ⊕ β')}
    (h : ∀ a b s s' r, R a b → Ahead k s s' →
      Agree k (fun c => ∃ b, c = .inl b)
        (fun c c' => (∃ a b, c = .inl a ∧ c' = .inl b ∧ R a b) ∨ (∃ a b, c = .inr a ∧ c' = .inr b ∧ Q a b))
        (exec (body a) s r) (exec (body' b) s' r))
    (he : ∀ b s', exec (body' b) s' [] = some ((.error .eof, s'), [])) :
    (n n' : Nat) → ∀ a b s s' r, R a b → Ahead k s s' →
      Agree k (fun _ => False) Q (exec (P.whileTrue n body a) s r) (exec (P.whileTrue n' body' b) s' r)
  | 0, _, a, b, s, s', r, hR, ha => Agree.none_left
  | _ + 1, 0, a, b, s, s', r, hR, ha => Agree.none_right
  | n + 1, n' + 1, a, b, s, s', r, hR, ha => by
    refine Agree.bind (h a b s s' r hR ha) (fun c c' s s' r hc ha => ?_) (fun c s' d s'' r hc hd => ?_)
    · rcases hc with ⟨a, b, rfl, rfl, hab⟩ | ⟨a, b, rfl, rfl, hab⟩
      · exact Agree.whileTrue h he n n' a b s s' r hab ha
      · exact ⟨hab, ha, rfl⟩
    · obtain ⟨b, rfl⟩ := hc
      cases n' with
      | zero => cases hd
      | succ n' =>
        have : exec (P.whileTrue (n' + 1) body' b) s' [] = some ((.error .eof, s'), []) := by
          show exec (P.bind _ _) _ _ = _
          rw [exec_Pbind, he]
          rfl
        change exec (P.whileTrue (n' + 1) body' b) s' [] = _ at hd
        rw [this] at hd
        cases hd
end

/-! ### Single reads -/

section
variable {k : Int × Int}

theorem exec_readBytes {σ : Type} (n : Int) (s : σ) (b : Bytes) :
    exec (readBytes n : P σ Bytes) s b =
      if n < 0 then some ((.error .valueError, s), b)
      else if n.toNat ≤ b.length then some ((.ok (b.take n.toNat), s), b.drop n.toNat)
      else some ((.error .eof, s), []) := by
  unfold readBytes
  by_cases h : n < 0
  · rw [if_pos h, if_pos h]; rfl
  · rw [if_neg h, if_neg h, exec_readAll]

theorem agree_readAll {s s' : Binary.St} (n : Int) (r : Bytes) (hn : 0 ≤ n) (ha : Ahead k s s') :
    Agree k (fun _ => False) (fun x y => x = y ∧ x.length = n.toNat)
      (exec (P.readAll n : P Binary.St Bytes) s r) (exec (readBytes n) s' r) := by
  rw [exec_readAll, exec_readBytes, if_neg (show ¬ n < 0 by omega)]
  by_cases h : n.toNat ≤ r.length
  · rw [if_pos h, if_pos h]
    exact ⟨⟨rfl, by simp; omega⟩, ha, rfl⟩
  · rw [if_neg h, if_neg h]
    trivial

theorem agree_int {s s' : Binary.St} (n : Nat) (r : Bytes) (ha : Ahead k s s') :
    Agree k (fun _ => False) (fun x y => x = y)
      (exec (Binary.readInt n) s r) (exec (readInt n) s' r) := by
  refine Agree.seq (agree_readAll n r (by omega) ha) fun a b s s' r hR ha => ?_
  obtain ⟨rfl, -⟩ := hR
  exact ⟨rfl, ha, rfl⟩

/-- The type bytes: signed in Python, unsigned in the extension. -/
def TypeRel (t t' : Int) : Prop := (0 ≤ t ∧ t' = t) ∨ (t < 0 ∧ 128 ≤ t')

theorem agree_byte {s s' : Binary.St} (r : Bytes) (ha : Ahead k s s') :
    Agree k (fun _ => False) TypeRel (exec Binary.readByte s r) (exec readByte s' r) := by
  refine Agree.seq (agree_readAll 1 r (by omega) ha) fun a b s s' r hR ha => ?_
  obtain ⟨rfl, hl⟩ := hR
  refine ⟨?_, ha, rfl⟩
  match a, hl with
  | [x], _ =>
    have := x.toNat_lt
    unfold unpackS unpackU TypeRel
    rw [Compact.beNat_single]
    simp only [List.length_singleton, Nat.mul_one, Nat.reduceSub, Nat.reducePow]
    by_cases h : x.toNat < 128
    · rw [if_pos h]; left; omega
    · rw [if_neg h]; right; simp only [Int.reducePow]; omega

theorem checkLength_iff (l : Option Int) (n : Int) (hn : n < 2 ^ 31) :
    (checkLength l n = .ok () ∧ checkLengthLimit n (limitOf l) = .ok () ∧ 0 ≤ n) ∨
    (∃ e, checkLength l n = .error e ∧ checkLengthLimit n (limitOf l) = .error .overflowError) := by
  unfold checkLength checkLengthLimit limitOf
  by_cases h0 : n < 0
  · right
    rw [if_pos h0, if_pos h0]
    exact ⟨_, rfl, rfl⟩
  · rw [if_neg h0, if_neg h0]
    cases l with
    | none => left; refine ⟨rfl, ?_, by omega⟩; simp only; rw [if_neg (by omega)]
    | some l =>
      simp only
      by_cases h : n > l
      · right; rw [if_pos h, if_pos h]; exact ⟨_, rfl, rfl⟩
      · left; rw [if_neg h, if_neg h]; exact ⟨rfl, rfl, by omega⟩

theorem unpackS4_lt (b : Bytes) (h : b.length = 4) : unpackS b < 2 ^ 31 := by
  have := beNat_lt b
  rw [h] at this
  unfold unpackS
  rw [h]
  simp only [Nat.reduceMul, Nat.reduceSub, Nat.reducePow, Int.reducePow] at *
  split <;> omega

theorem checkLength_cases (l : Option Int) (n : Int) (hn : 0 ≤ n) :
    checkLength l n = .ok () ∨ checkLength l n = .error TTransportException.SIZE_LIMIT := by
  unfold checkLength
  rw [if_neg (by omega)]
  cases l with
  | none => exact .inl rfl
  | some l =>
    simp only
    split
    · exact .inr rfl
    · exact .inl rfl

/-- A length and its check. -/
theorem agree_len {s s' : Binary.St} (l : Option Int) (r : Bytes) (ha : Ahead k s s')
    {α α' : Type} {w : α' → Prop} {R : α → α' → Prop} {f : Int → P Binary.St α} {f' : Int → P Binary.St α'}
    (hf : ∀ n s s' r, 0 ≤ n → n < 2 ^ 31 → Ahead k s s' → Agree k w R (exec (f n) s r) (exec (f' n) s' r)) :
    Agree k w R
      (exec (do let n ← Binary.readI32; P.lift (checkLength l n); f n) s r)
      (exec (do let n ← readInt 4; P.lift (checkLengthLimit n (limitOf l)); f' n) s' r) := by
  have hi : Agree k (fun _ => False) (fun x y => x = y ∧ x < 2 ^ 31) (exec Binary.readI32 s r)
      (exec (readInt 4) s' r) := by
    refine Agree.seq (agree_readAll 4 r (by omega) ha) fun a b s s' r hR ha => ?_
    obtain ⟨rfl, hl⟩ := hR
    exact ⟨⟨rfl, unpackS4_lt a hl⟩, ha, rfl⟩
  refine Agree.seq hi fun n n' s s' r hR ha => ?_
  obtain ⟨rfl, hlt⟩ := hR
  rcases checkLength_iff l n hlt with ⟨h1, h2, h3⟩ | ⟨e, h1, h2⟩
  · rw [h1, h2]
    exact hf n s s' r h3 hlt ha
  · rw [h1, h2]
    trivial

variable (env : Env) (cfg : Binary.Cfg)

theorem agree_bool {s s' : Binary.St} (r : Bytes) (ha : Ahead k s s') :
    Agree k (fun _ => False) (fun p x => x = true → p = true) (exec (Binary.rd cfg).readBool s r)
      (exec (binaryRd env cfg).readBool s' r) := by
  cases r with
  | nil => trivial
  | cons x r =>
    have := x.toNat_lt
    have e1 : exec (Binary.rd cfg).readBool s (x :: r) = some ((.ok (decide (x.toNat ≠ 0)), s), r) := by
      have e : (unpackS [x] = 0) ↔ x.toNat = 0 := by
        unfold unpackS
        rw [Compact.beNat_single]
        simp only [List.length_singleton, Nat.mul_one, Nat.reduceSub, Nat.reducePow, Int.reducePow]
        split <;> omega
      show exec Binary.readBool s (x :: r) = _
      unfold Binary.readBool Binary.readByte Binary.readInt
      simp only [exec_bind, exec_readAll, exec_pure]
      rw [if_pos (by simp)]
      simp only [Res.andThen_ok, show ((1 : Nat) : Int).toNat = 1 from rfl, List.take_succ_cons, List.take_zero, e,
        List.drop_succ_cons, List.drop_zero]
      by_cases h : x.toNat = 0 <;> simp [h]
    have e2 : exec (binaryRd env cfg).readBool s' (x :: r) = some ((.ok (unpackU [x] == 1), s'), r) := rfl
    rw [e1, e2]
    refine ⟨?_, ha, rfl⟩
    intro h
    have h : ((x.toNat : Int) == 1) = true := by simpa [unpackU, Compact.beNat_single] using h
    have : x.toNat ≠ 0 := by
      have := eq_of_beq h
      omega
    simpa using this

theorem agree_fieldBegin {s s' : Binary.St} (r : Bytes) (ha : Ahead k s s') :
    Agree k (fun _ => False) (fun p x => TypeRel p.1 x.1 ∧ p.2 = x.2) (exec (Binary.rd cfg).readFieldBegin s r)
      (exec (binaryRd env cfg).readFieldBegin s' r) := by
  refine Agree.seq (agree_byte r ha) fun t t' s s' r hR ha => ?_
  by_cases h : t = TType.STOP
  · have : t' = TType.STOP := by unfold TypeRel TType.STOP at *; omega
    rw [if_pos h, if_pos this]
    exact ⟨⟨hR, rfl⟩, ha, rfl⟩
  · have : ¬ t' = TType.STOP := by unfold TypeRel TType.STOP at *; omega
    rw [if_neg h, if_neg this]
    exact Agree.seq (agree_int 2 r ha) fun a b s s' r he ha => ⟨⟨hR, he⟩, ha, rfl⟩

theorem agree_listBegin {s s' : Binary.St} (r : Bytes) (ha : Ahead k s s') :
    Agree k (fun _ => False) (fun p x => TypeRel p.1 x.1 ∧ p.2 = x.2) (exec (Binary.readListBegin cfg) s r)
      (exec (binaryReadListBegin cfg) s' r) := by
  refine Agree.seq (agree_byte r ha) fun t t' s s' r hR ha => ?_
  exact agree_len cfg.containerLimit r ha (R := fun p x => TypeRel p.1 x.1 ∧ p.2 = x.2) (w := fun _ => False)
    (f := fun n => Pure.pure (t, n)) (f' := fun n => Pure.pure (t', n)) fun n s s' r _ _ ha => ⟨⟨hR, rfl⟩, ha, rfl⟩

theorem agree_mapBegin {s s' : Binary.St} (r : Bytes) (ha : Ahead k s s') :
    Agree k (fun _ => False) (fun p x => TypeRel p.1 x.1 ∧ TypeRel p.2.1 x.2.1 ∧ p.2.2 = x.2.2)
      (exec (Binary.readMapBegin cfg) s r) (exec (binaryReadMapBegin cfg) s' r) := by
  refine Agree.seq (agree_byte r ha) fun t t' s s' r hR ha => ?_
  refine Agree.seq (agree_byte r ha) fun u u' s s' r hR' ha => ?_
  exact agree_len cfg.containerLimit r ha (R := fun p x => TypeRel p.1 x.1 ∧ TypeRel p.2.1 x.2.1 ∧ p.2.2 = x.2.2)
    (w := fun _ => False) (f := fun n => Pure.pure (t, u, n)) (f' := fun n => Pure.pure (t', u', n))
    fun n s s' r _ _ ha => ⟨⟨hR, hR', rfl⟩, ha, rfl⟩

theorem agree_binary {s s' : Binary.St} (r : Bytes) (ha : Ahead k s s') :
    Agree k (fun _ => False) (fun p x => p = x) (exec (Binary.readBinary cfg) s r)
      (exec (binaryReadString cfg) s' r) := by
  refine agree_len cfg.stringLimit r ha fun n s s' r h0 _ ha => ?_
  exact (agree_readAll n r h0 ha).mono (fun _ h => h) fun _ _ h => h.1

theorem agree_string (he : env.Decodes) {s s' : Binary.St} (r : Bytes) (ha : Ahead k s s') :
    Agree k (fun _ => False) (fun p x => p = env.replace x) (exec (Binary.readString cfg) s r)
      (exec (binaryReadString cfg) s' r) := by
  have h := agree_binary cfg r ha
  show Agree _ _ _ (exec (Binary.readBinary cfg >>= fun b => P.lift (utf8Decode b)) s r) _
  rw [exec_bind]
  generalize exec (Binary.readBinary cfg) s r = p at h
  generalize exec (binaryReadString cfg) s' r = x at h
  rcases p with _ | ⟨⟨e | a, s⟩, r⟩
  · exact Agree.none_left
  all_goals
    rcases x with _ | ⟨⟨e' | b, s'⟩, r'⟩
    · exact Agree.none_right
  · trivial
  · exact h
  · exact Agree.ext h
  · obtain ⟨h1, h2, h3⟩ := h
    subst h1 h3
    rw [Res.andThen_ok, exec_lift]
    rcases hu : utf8Decode a with e | y
    · left
      left
      exact utf8Decode_error_kind _ _ hu
    · exact ⟨(he a y hu).symm, h2, rfl⟩

/-- Skipped strings: Python decodes them and checks their length. -/
theorem agree_skipString {s s' : Binary.St} (r : Bytes) (ha : Ahead k s s') :
    Agree k (fun _ => False) (fun _ _ => True)
      (exec (do let _ ← (Binary.rd cfg).readString) s r)
      (exec (binaryRd env cfg).skipString s' r) := by
  have e : exec (do let _ ← (Binary.rd cfg).readString) s r =
      exec (Binary.readI32 >>= fun n => (do
        P.lift (checkLength cfg.stringLimit n)
        let b ← P.readAll n
        let _ ← P.lift (utf8Decode b)
        pure () : P Binary.St Unit)) s r := by
    show exec (((Binary.readI32 >>= fun n => (P.lift (checkLength cfg.stringLimit n) >>= fun _ => P.readAll n))
      >>= fun b => P.lift (utf8Decode b)) >>= fun _ => pure ()) s r = _
    simp only [exec_bind]
    rcases exec Binary.readI32 s r with _ | ⟨⟨e | n, s1⟩, r1⟩
    · rfl
    · rfl
    · simp only [Res.andThen_ok]
      rcases checkLength cfg.stringLimit n with e | u
      · rfl
      · simp only [exec_lift_ok, Res.andThen_ok]
        rcases exec (P.readAll n) s1 r1 with _ | ⟨⟨e | b, s2⟩, r2⟩ <;> rfl
  rw [e]
  refine Agree.seq (agree_int 4 r ha) fun n n' s s' r hR ha => ?_
  subst hR
  by_cases h0 : n < 0
  · have : checkLength cfg.stringLimit n = .error TTransportException.NEGATIVE_SIZE := by
      unfold checkLength
      rw [if_pos h0]
    rw [this, exec_bind, exec_bind, exec_readBytes, if_pos h0]
    trivial
  · have hR := agree_readAll n r (by omega) ha
    rcases checkLength_cases cfg.stringLimit n (by omega) with hc | hc
    · rw [hc, exec_bind, exec_lift_ok, Res.andThen_ok]
      refine Agree.seq hR fun a b s s' r hab ha => ?_
      rw [exec_bind, exec_lift]
      rcases hu : utf8Decode a with e | y
      · exact .inl (.inl (utf8Decode_error_kind _ _ hu))
      · exact ⟨trivial, ha, rfl⟩
    · rw [hc, exec_bind, exec_lift_error, Res.andThen_error, exec_bind]
      rcases exec (readBytes n : P Binary.St Bytes) s' r with _ | ⟨⟨e' | b, s2⟩, r2⟩
      · trivial
      · trivial
      · exact .inl (.inr rfl)

theorem agree_double {s s' : Binary.St} (r : Bytes) (ha : Ahead k s s') :
    Agree k (fun _ => False) (fun p x => p = x) (exec (Binary.rd cfg).readDouble s r)
      (exec (binaryRd env cfg).readDouble s' r) := by
  refine Agree.seq (agree_readAll 8 r (by omega) ha) fun a b s s' r hR ha => ?_
  obtain ⟨rfl, -⟩ := hR
  exact ⟨rfl, ha, rfl⟩

theorem agree_uuid {s s' : Binary.St} (r : Bytes) (ha : Ahead k s s') :
    Agree k (fun _ => True) (fun p x => p = x) (exec (Binary.rd cfg).readUuid s r)
      (exec (binaryRd env cfg).readUuid s' r) := by
  have e1 : exec (Binary.rd cfg).readUuid s r = _ := exec_readAll 16 s r
  have e2 := exec_readAll 16 s' r
  have e3 : exec (binaryRd env cfg).readUuid s' r = if (16 : Int).toNat ≤ r.length then
      some ((.ok (r.take (16 : Int).toNat), s'), r.drop (16 : Int).toNat) else some ((.ok env.beyond, s'), []) := by
    show exec (binaryReadUuid env) s' r = _
    unfold binaryReadUuid exec
    rw [Prog.run_bind]
    unfold exec at e2
    rw [e2]
    by_cases h : (16 : Int).toNat ≤ r.length
    · rw [if_pos h, if_pos h]; rfl
    · rw [if_neg h, if_neg h]; rfl
  rw [e1, e3]
  by_cases h : (16 : Int).toNat ≤ r.length
  · rw [if_pos h, if_pos h]
    exact ⟨rfl, ha, rfl⟩
  · rw [if_neg h, if_neg h]
    exact .inr ⟨trivial, rfl⟩

theorem agree_drop {α α' : Type} {R : α → α' → Prop} {m : P Binary.St α} {m' : P Binary.St α'} {s s' : Binary.St}
    {r : Bytes} (h : Agree k (fun _ => False) R (exec m s r) (exec m' s' r)) :
    Agree k (fun _ => False) (fun _ _ => True) (exec (do let _ ← m) s r) (exec (do let _ ← m') s' r) :=
  Agree.seq h fun _ _ _ _ _ _ ha => ⟨trivial, ha, rfl⟩

/-! ### `skip` -/

theorem exec_bind_pure {σ α : Type} (m : P σ α) (s : σ) (r : Bytes) :
    exec (m >>= fun a => pure a) s r = exec m s r := by
  rw [exec_bind]
  rcases exec m s r with _ | ⟨⟨e | a, s⟩, r⟩ <;> rfl

theorem exec_then_unit {σ : Type} (m : P σ Unit) (s : σ) (r : Bytes) :
    exec (do m; pure ()) s r = exec m s r := by
  rw [exec_bind]
  rcases exec m s r with _ | ⟨⟨e | a, s⟩, r⟩ <;> rfl

theorem Agree.unitAfter {R : Unit → Unit → Prop} {w : Unit → Prop} {m m' : P Binary.St Unit} {s s' : Binary.St}
    {r : Bytes} (h : Agree k w R (exec m s r) (exec m' s' r)) :
    Agree k w R (exec (do m; Pure.pure ()) s r) (exec m' s' r) := by
  rw [exec_then_unit]
  exact h

theorem body_nil (b : Unit) (f : Int → P Binary.St Unit) (s' : Binary.St) :
    exec (skipStructBody (binaryRd env cfg) f b) s' [] = some ((.error .eof, s'), []) := rfl

theorem skip_agree (fuel : Nat) : (fuel' : Nat) → (k : Int × Int) → (d : Nat) → (t t' : Int) →
    (s s' : Binary.St) → (r : Bytes) → TypeRel t t' → Ahead k s s' → 64 - k.2 ≤ d →
    Agree k (fun _ => False) (fun _ _ => True) (exec (Thrift.skip (Binary.rd cfg) fuel d t) s r)
      (exec (skip (binaryRd env cfg) fuel' t') s' r)
  | 0, _, _, _, _, _, _, _, _, _, _ => Agree.none_right
  | fuel' + 1, k, d, t, t', s, s', r, ht, ha, hd => by
    rw [skip, exec_bind, exec_incDepth]
    by_cases hlt : s'.depth < 64
    · rw [if_pos hlt, Res.andThen_ok]
      refine Agree.tryDecExt ?_
      have ha' : Ahead (k.1, k.2 + 1) s ⟨s'.depth + 1⟩ := ⟨ha.1, by show s'.depth + 1 = k.2 + 1; rw [ha.2]⟩
      generalize (⟨s'.depth + 1⟩ : Binary.St) = s1 at ha' ⊢
      cases d with
      | zero => have := ha.2; omega
      | succ d =>
        -- the recursive calls
        have ih : ∀ (u u' : Int), TypeRel u u' → ∀ (s s1 : Binary.St) (r : Bytes),
            Ahead (k.1, k.2 + 1) s s1 →
            Agree (k.1, k.2 + 1) (fun _ => False) (fun _ _ => True)
              (exec (Thrift.skip (Binary.rd cfg) fuel d u) s r)
              (exec (skip (binaryRd env cfg) fuel' u') s1 r) :=
          fun u u' hu s s1 r ha => skip_agree fuel fuel' (k.1, k.2 + 1) d u u' s s1 r hu ha (by
            dsimp only; omega)
        have hlist : Agree (k.1, k.2 + 1) (fun _ => False) (fun _ _ => True)
            (exec (do
              let (etype, size) ← Binary.readListBegin cfg
              P.repeatN_ size.toNat (Thrift.skip (Binary.rd cfg) fuel d etype)
              pure () : P Binary.St Unit) s r)
            (exec (do
              let (etype, len) ← binaryReadListBegin cfg
              P.repeatN_ len.toNat (skip (binaryRd env cfg) fuel' etype)) s1 r) := by
          refine Agree.seq (agree_listBegin cfg r ha') fun p x s s1 r hp ha => ?_
          obtain ⟨u, n⟩ := p
          obtain ⟨u', n'⟩ := x
          obtain ⟨hu, hn⟩ := hp
          dsimp only at hu hn
          subst hn
          have := Agree.repeatN_ (fun s s' r ha => ih u u' hu s s' r ha) n.toNat s s1 r ha
          dsimp only
          rw [exec_then_unit]
          exact this
        rw [Thrift.skip]
        by_cases hneg : t < 0
        · have h1 : t' ≥ 128 := by unfold TypeRel at ht; omega
          have e1 : ∀ c : Int, 0 ≤ c → ¬ t = c := by intro c hc; omega
          have e2 : ∀ c : Int, c < 128 → ¬ t' = c := by intro c hc; omega
          simp only [TType.BOOL, TType.BYTE, TType.I16, TType.I32, TType.I64,
            TType.DOUBLE, TType.STRING, TType.LIST, TType.SET, TType.MAP, TType.STRUCT, TType.UUID,
            e1 2 (by omega), e1 3 (by omega), e1 4 (by omega), e1 6 (by omega), e1 8 (by omega), e1 10 (by omega),
            e1 11 (by omega), e1 12 (by omega), e1 13 (by omega), e1 14 (by omega), e1 15 (by omega),
            e1 16 (by omega), if_false, e2 2 (by omega), e2 3 (by omega), e2 4 (by omega), e2 6 (by omega),
            e2 8 (by omega), e2 10 (by omega), e2 11 (by omega), e2 12 (by omega), e2 13 (by omega),
            e2 14 (by omega), e2 15 (by omega), e2 16 (by omega), or_false]
          trivial
        · have he : t' = t := by unfold TypeRel at ht; omega
          subst he
          by_cases h : t' = TType.BOOL
          · rw [if_pos h, if_pos h]
            exact agree_drop (agree_bool env cfg r ha')
          rw [if_neg h, if_neg h]; clear h
          by_cases h : t' = TType.BYTE
          · rw [if_pos h, if_pos h]
            exact agree_drop (agree_int 1 r ha')
          rw [if_neg h, if_neg h]; clear h
          by_cases h : t' = TType.I16
          · rw [if_pos h, if_pos h]
            exact agree_drop (agree_int 2 r ha')
          rw [if_neg h, if_neg h]; clear h
          by_cases h : t' = TType.I32
          · rw [if_pos h, if_pos h]
            exact agree_drop (agree_int 4 r ha')
          rw [if_neg h, if_neg h]; clear h
          by_cases h : t' = TType.I64
          · rw [if_pos h, if_pos h]
            exact agree_drop (agree_int 8 r ha')
          rw [if_neg h, if_neg h]; clear h
          by_cases h : t' = TType.DOUBLE
          · rw [if_pos h, if_pos h]
            exact agree_drop (agree_double env cfg r ha')
          rw [if_neg h, if_neg h]; clear h
          by_cases h : t' = TType.STRING
          · rw [if_pos h, if_pos h]
            exact agree_skipString env cfg r ha'
          rw [if_neg h, if_neg h]; clear h
          by_cases h : t' = TType.STRUCT
          · rw [if_pos h, if_neg (by rw [h]; decide), if_neg (by rw [h]; decide), if_pos h]
            refine Agree.seq (Agree.pure (R := fun _ _ => True) trivial ha') fun _ _ s s1 r _ ha => ?_
            refine Agree.seq (Agree.whileTrue (R := fun _ _ => True) (Q := fun _ _ => True)
              (fun a b s s' r _ ha => ?_) (body_nil env cfg · _) _ _ _ _ s s1 r trivial ha)
              fun _ _ s s1 r _ ha => ⟨trivial, ha, rfl⟩
            refine Agree.seq (agree_fieldBegin env cfg r ha) fun p x s s' r hp ha => ?_
            obtain ⟨u, n⟩ := p
            obtain ⟨u', n'⟩ := x
            obtain ⟨hu, -⟩ := hp
            dsimp only at hu ⊢
            by_cases h0 : u = TType.STOP
            · have : u' = TType.STOP := by unfold TypeRel TType.STOP at *; omega
              rw [if_pos h0, if_pos this]
              exact ⟨.inr ⟨_, _, rfl, rfl, trivial⟩, ha, rfl⟩
            · have : ¬ u' = TType.STOP := by unfold TypeRel TType.STOP at *; omega
              rw [if_neg h0, if_neg this]
              refine Agree.seq (ih u u' hu s s' r ha) fun _ _ s s' r _ ha => ?_
              exact ⟨.inl ⟨_, _, rfl, rfl, trivial⟩, ha, rfl⟩
          rw [if_neg h]
          by_cases hm : t' = TType.MAP
          · rw [if_pos hm, if_neg (by rw [hm]; decide), if_pos hm]
            refine Agree.seq (agree_mapBegin cfg r ha') fun p x s s1 r hp ha => ?_
            obtain ⟨u, v, n⟩ := p
            obtain ⟨u', v', n'⟩ := x
            obtain ⟨hu, hv, hn⟩ := hp
            dsimp only at hu hv hn
            subst hn
            dsimp only
            refine Agree.unitAfter ?_
            refine Agree.repeatN_ (fun s s' r ha => ?_) n.toNat s s1 r ha
            exact Agree.seq (ih u u' hu s s' r ha) fun _ _ s s' r _ ha => ih v v' hv s s' r ha
          rw [if_neg hm]
          by_cases hl : t' = TType.LIST ∨ t' = TType.SET
          · rw [if_pos hl]
            rcases hl with hl | hl
            · rw [if_neg (by rw [hl]; decide), if_pos hl]
              exact hlist
            · rw [if_pos hl]
              exact hlist
          · rw [if_neg (fun h => hl (.inr h)), if_neg (fun h => hl (.inl h)), if_neg hl, if_neg hm, if_neg h]
            by_cases hu : t' = TType.UUID
            · rw [if_pos hu, if_pos hu]
              exact agree_drop (agree_readAll 16 r (by omega) ha')
            · rw [if_neg hu, if_neg hu]
              trivial
    · rw [if_neg hlt, Res.andThen_error]
      exact Agree.ext (.inr rfl)

/-! ### Relations between values -/

open Spec

theorem similarf_refl : (vs : List (Option Val)) → Similarf vs vs
  | [] => .nil
  | none :: vs => .none (similarf_refl vs)
  | some v :: vs => .some (.eq v) (similarf_refl vs)

theorem similarf_set {p x : Val} (h : Similar p x) (i : Nat) (ps xs : List (Option Val))
    (hs : Similarf ps xs) : Similarf (ps.set i (some p)) (xs.set i (some x)) := by
  induction ps generalizing i xs with
  | nil => cases hs; exact .nil
  | cons q ps ih =>
    cases hs with
    | none hs =>
      cases i with
      | zero => exact .some h hs
      | succ i => exact .none (ih i _ hs)
    | some hq hs =>
      cases i with
      | zero => exact .some h hs
      | succ i => exact .some hq (ih i _ hs)

theorem similarp_put {q p x : Val} (h : Similar p x) (ps xs : List (Val × Val))
    (hs : Similarp ps xs) : Similarp (dictPut ps q p) (dictPut xs q x) := by
  induction ps generalizing xs with
  | nil => cases hs; exact .cons h .nil
  | cons _ ps ih =>
    cases hs with
    | @cons k a y _ ys ha hs =>
      unfold dictPut
      by_cases hk : keyEq q k = true
      · rw [if_pos hk, if_pos hk]
        exact .cons h hs
      · rw [if_neg hk, if_neg hk]
        exact .cons ha (ih _ hs)

theorem similarp_fold (ps xs : List (Val × Val)) (hs : Similarp ps xs) (ds es : List (Val × Val))
    (hd : Similarp ds es) : Similarp (ps.foldl (fun d kv => dictPut d kv.1 kv.2) ds)
      (xs.foldl (fun d kv => dictPut d kv.1 kv.2) es) := by
  induction ps generalizing xs ds es with
  | nil => cases hs; exact hd
  | cons q ps ih =>
    cases hs with
    | cons ha hs => exact ih _ hs _ _ (similarp_put ha ds es hd)

theorem similar_bool {p x : Bool} (h : x = true → p = true) : Similar (.bool p) (.bool x) := by
  cases p <;> cases x
  · exact .eq _
  · exact absurd (h rfl) nofun
  · exact .bool
  · exact .eq _

theorem similarp_dict {ps xs : List (Val × Val)} (h : Similarp ps xs) : Similarp (pyDict ps) (pyDict xs) :=
  similarp_fold ps xs h [] [] .nil

/-- The values of type `t` the two decoders return. -/
def RelT (t : Ty) (p x : Val) : Prop := Similar p x ∧ (t.hashable = true → t ≠ .bool → p = x)

theorem RelT.eq {t : Ty} {p : Val} : RelT t p p := ⟨.eq p, fun _ _ => rfl⟩

theorem typeRel_iff {t t' : Int} (h : TypeRel t t') (ty : Ty) : t = ty.ttype ↔ t' = ty.ttype := by
  have h0 : 0 ≤ ty.ttype ∧ ty.ttype < 128 := by cases ty <;> exact ⟨by simp [Ty.ttype, TType.BOOL, TType.BYTE, TType.I16, TType.I32, TType.I64, TType.DOUBLE, TType.STRING, TType.LIST, TType.SET, TType.MAP, TType.STRUCT, TType.UUID], by simp [Ty.ttype, TType.BOOL, TType.BYTE, TType.I16, TType.I32, TType.I64, TType.DOUBLE, TType.STRING, TType.LIST, TType.SET, TType.MAP, TType.STRUCT, TType.UUID]⟩
  unfold TypeRel at h
  omega

/-! ### `decodeValue` -/

theorem Agree.never {α α' : Type} {w : α' → Prop} {R : α → α' → Prop} {p : Res Binary.St α} {x : Res Binary.St α'}
    (hp : ∀ a s r, p ≠ some ((.ok a, s), r)) (hx : ∀ a s r, x ≠ some ((.ok a, s), r)) : Agree k w R p x := by
  rcases p with _ | ⟨⟨e | a, s⟩, r⟩
  · exact Agree.none_left
  · rcases x with _ | ⟨⟨e' | b, s'⟩, r'⟩
    · trivial
    · trivial
    · exact absurd rfl (hx _ _ _)
  · exact absurd rfl (hp _ _ _)

theorem agree_orTypeError {α α' : Type} {R : α → α' → Prop} {p : Res Binary.St α} {m : P Binary.St α'}
    {s' : Binary.St} {r : Bytes} (h : Agree k (fun _ => False) R p (exec m s' r)) :
    Agree k (fun _ => False) R p (exec (orTypeError m) s' r) := by
  unfold exec at h ⊢
  unfold orTypeError
  rw [Prog.run_bind]
  generalize Prog.run memStep (m s') r = x at h ⊢
  rcases x with _ | ⟨⟨e' | b, s'⟩, r'⟩
  · exact Agree.none_right
  · exact Agree.ext (.inl rfl)
  · exact h

theorem repeatN_length {σ α : Type} {m : P σ α} : (n : Nat) → ∀ {s s' : σ} {r r' : Bytes} {vs : List α},
    exec (P.repeatN n m) s r = some ((.ok vs, s'), r') → vs.length = n
  | 0, s, s', r, r', vs, h => by
    have : exec (P.repeatN 0 m) s r = some ((.ok [], s), r) := rfl
    rw [this] at h
    cases h
    rfl
  | n + 1, s, s', r, r', vs, h => by
    have e : exec (P.repeatN (n + 1) m) s r
      = Res.andThen (exec m s r) fun a s r => Res.andThen (exec (P.repeatN n m) s r) fun as s r =>
          some ((.ok (a :: as), s), r) := by
      show exec (P.bind _ _) _ _ = _
      rw [exec_Pbind]
      congr
      funext a s r
      show exec (P.bind _ _) _ _ = _
      rw [exec_Pbind]
      rfl
    rw [e] at h
    clear e
    generalize exec m s r = x at h
    rcases x with _ | ⟨⟨e | a, s1⟩, r1⟩
    · cases h
    · cases h
    · rw [Res.andThen_ok] at h
      rcases h2 : exec (P.repeatN n m) s1 r1 with _ | ⟨⟨e | as, s2⟩, r2⟩
      · rw [h2] at h; cases h
      · rw [h2] at h; cases h
      · rw [h2] at h
        cases h
        rw [List.length_cons, repeatN_length n h2]

theorem decode_scalar (he : env.Decodes) (sch : Schema) (t : Ty) (ht : t.hashable = true) (fuel fuel' : Nat)
    {s s' : Binary.St} (r : Bytes) (ha : Ahead k s s') :
    Agree k (fun _ => True) (RelT t) (exec (readVal (Binary.rd cfg) sch .gen fuel t) s r)
      (exec (decodeValue env (binaryRd env cfg) sch fuel' t) s' r) := by
  cases t
  case bool =>
    unfold readVal decodeValue
    exact Agree.seq (agree_bool env cfg r ha) fun a b s s' r h ha =>
      ⟨⟨similar_bool h, fun _ h => absurd rfl h⟩, ha, rfl⟩
  case byte =>
    unfold readVal decodeValue
    exact Agree.seq (agree_int 1 r ha) fun a b s s' r h ha => by subst h; exact ⟨RelT.eq, ha, rfl⟩
  case i16 =>
    unfold readVal decodeValue
    exact Agree.seq (agree_int 2 r ha) fun a b s s' r h ha => by subst h; exact ⟨RelT.eq, ha, rfl⟩
  case i32 =>
    unfold readVal decodeValue
    exact Agree.seq (agree_int 4 r ha) fun a b s s' r h ha => by subst h; exact ⟨RelT.eq, ha, rfl⟩
  case i64 =>
    unfold readVal decodeValue
    exact Agree.seq (agree_int 8 r ha) fun a b s s' r h ha => by subst h; exact ⟨RelT.eq, ha, rfl⟩
  case double =>
    unfold readVal decodeValue
    exact Agree.seq (agree_double env cfg r ha) fun a b s s' r h ha => by subst h; exact ⟨RelT.eq, ha, rfl⟩
  case string =>
    unfold readVal decodeValue
    exact Agree.seq (agree_string env cfg he r ha) fun a b s s' r h ha => by subst h; exact ⟨RelT.eq, ha, rfl⟩
  case binary =>
    unfold readVal decodeValue
    exact Agree.seq (agree_binary cfg r ha) fun a b s s' r h ha => by subst h; exact ⟨RelT.eq, ha, rfl⟩
  case uuid =>
    unfold readVal decodeValue
    exact Agree.bind (agree_uuid env cfg r ha)
      (fun a b s s' r h ha => by subst h; exact ⟨RelT.eq, ha, rfl⟩) fun _ _ _ _ _ _ _ => trivial
  all_goals cases ht

theorem struct_body_nil (fs : List Field) (f : Ty → P Binary.St Val) (g : Int → P Binary.St Unit)
    (b : List (Option Val)) (s' : Binary.St) :
    exec (readStructBody (binaryRd env cfg) fs f g b) s' [] = some ((.error .eof, s'), []) := rfl

theorem decode_agree (he : env.Decodes) (sch : Schema) (hs : SchemaOK .dyn sch)
    (hb : ∀ sid, ∀ f ∈ sch sid, NoBoolKeys f.ty) (fuel' : Nat) : ∀ (fuel : Nat) (a : Int) (t : Ty)
    (s s' : Binary.St) (r : Bytes), 0 ≤ a → NoBoolKeys t → Ahead (a, a) s s' →
    Agree (a, a) (fun _ => ∀ sid, t ≠ .struct sid) (RelT t) (exec (readVal (Binary.rd cfg) sch .gen fuel t) s r)
      (exec (decodeValue env (binaryRd env cfg) sch fuel' t) s' r) := by
  induction fuel' with
  | zero =>
    intro fuel a t s s' r h0 hn ha
    by_cases ht : t.hashable = true
    · refine (decode_scalar env cfg he sch t ht fuel 0 r ha).mono ?_ fun _ _ h => h
      rintro _ - sid rfl
      cases ht
    · have : exec (decodeValue env (binaryRd env cfg) sch 0 t) s' r = none := by
        cases t <;> first | exact absurd rfl ht | rfl
      rw [this]
      exact Agree.none_right
  | succ fuel' ih =>
    intro fuel a t s s' r h0 hn ha
    by_cases ht : t.hashable = true
    · refine (decode_scalar env cfg he sch t ht fuel _ r ha).mono ?_ fun _ _ h => h
      rintro _ - sid rfl
      cases ht
    cases fuel with
    | zero =>
      have : exec (readVal (Binary.rd cfg) sch .gen 0 t) s r = none := by
        cases t <;> first | exact absurd rfl ht | rfl
      rw [this]
      exact Agree.none_left
    | succ fuel =>
      have ih' : ∀ t s s' r, NoBoolKeys t → Ahead (a, a) s s' → Agree (a, a) (fun _ => True) (RelT t)
          (exec (readVal (Binary.rd cfg) sch .gen fuel t) s r)
          (exec (decodeValue env (binaryRd env cfg) sch fuel' t) s' r) := fun t s s' r hn ha =>
        (ih fuel a t s s' r h0 hn ha).mono (fun _ _ => trivial) fun _ _ h => h
      cases t with
      | list e =>
        rw [readVal, decodeValue]
        refine Agree.seq (agree_listBegin cfg r ha) fun p x s s' r hp ha => ?_
        obtain ⟨u, n⟩ := p
        obtain ⟨u', n'⟩ := x
        obtain ⟨-, hn'⟩ := hp
        dsimp only at hn'
        subst hn'
        dsimp only
        by_cases hm : n > 0 ∧ u' ≠ e.ttype
        · rw [if_pos hm]
          exact Agree.ext (.inl rfl)
        rw [if_neg hm]
        refine Agree.bind (Agree.repeatN (RL := Similars) (fun s s' r ha => ih' e s s' r hn ha) .nil
          (fun a b as bs h hs => Similars.cons h.1 hs) n.toNat s s' r ha)
          (fun as bs s s' r h ha => ⟨⟨.list h, nofun⟩, ha, rfl⟩) fun _ _ _ _ _ _ _ sid => nofun
      | set e =>
        rw [readVal, decodeValue]
        refine Agree.seq (agree_listBegin cfg r ha) fun p x s s' r hp ha => ?_
        obtain ⟨u, n⟩ := p
        obtain ⟨u', n'⟩ := x
        obtain ⟨-, hn'⟩ := hp
        dsimp only at hn'
        subst hn'
        dsimp only
        by_cases hm : n > 0 ∧ u' ≠ e.ttype
        · rw [if_pos hm]
          exact Agree.ext (.inl rfl)
        rw [if_neg hm]
        by_cases hh : e.hashable = true
        · refine Agree.bind (Agree.repeatN (R := fun a b => a = b) (RL := fun a b => a = b) (fun s s' r ha => ?_) rfl
            (fun a b as bs h hs => by rw [h, hs]) n.toNat s s' r ha)
            (fun as bs s s' r h ha => ?_) fun _ _ _ _ _ _ _ sid => nofun
          · unfold readHashed
            simp only [hh, if_true]
            have := (ih' e s s' r hn.2 ha).mono (fun _ h => h) fun _ _ h => h.2 hh hn.1
            rw [exec_bind_pure]
            exact this
          · subst h
            rw [newSet, hh]
            exact ⟨RelT.eq, ha, rfl⟩
        · by_cases h0 : n.toNat = 0
          · rw [h0]
            have : newSet e [] = .ok (.set (pySet [])) := by
              unfold newSet
              rw [if_pos (by simp)]
            show Agree _ _ _ _ (exec (P.lift (newSet e [])) s' r)
            rw [this]
            exact ⟨RelT.eq, ha, rfl⟩
          · refine Agree.never (fun v s1 r1 => ?_) fun v s1 r1 => ?_
            · obtain ⟨m, hm⟩ : ∃ m, n.toNat = m + 1 := ⟨n.toNat - 1, by omega⟩
              rw [hm]
              have : ∀ s r v s1 r1, exec (readHashed (readVal (Binary.rd cfg) sch .gen fuel) e) s r
                  ≠ some ((.ok v, s1), r1) := by
                intro s r v s1 r1
                unfold readHashed
                simp only [hh, Bool.false_eq_true, if_false]
                rw [exec_bind]
                rcases exec (readVal (Binary.rd cfg) sch .gen fuel e) s r with _ | ⟨⟨e | a, s⟩, r⟩ <;> nofun
              have h1 := this s r
              clear this
              show exec (P.bind (P.bind _ _) _) _ _ ≠ _
              rw [exec_Pbind, exec_Pbind]
              generalize exec (readHashed (readVal (Binary.rd cfg) sch .gen fuel) e) s r = x at h1
              rcases x with _ | ⟨⟨e | a, s⟩, r⟩
              · nofun
              · nofun
              · exact absurd rfl (h1 a s r)
            · rw [exec_bind]
              rcases hx : exec (P.repeatN n.toNat (decodeValue env (binaryRd env cfg) sch fuel' e)) s' r
                with _ | ⟨⟨e | vs, s⟩, r⟩
              · nofun
              · nofun
              · have := repeatN_length _ hx
                rw [Res.andThen_ok, newSet, if_neg]
                · nofun
                · cases vs with
                  | nil => exact absurd this.symm h0
                  | cons v vs => simpa using hh
      | map kt vt =>
        rw [readVal, decodeValue]
        refine Agree.seq (agree_orTypeError (agree_mapBegin cfg r ha)) fun p x s s' r hp ha => ?_
        obtain ⟨u, v, n⟩ := p
        obtain ⟨u', v', n'⟩ := x
        obtain ⟨-, -, hn'⟩ := hp
        dsimp only at hn'
        subst hn'
        dsimp only
        by_cases hm : n > 0 ∧ (u' ≠ kt.ttype ∨ v' ≠ vt.ttype)
        · rw [if_pos hm]
          exact Agree.ext (.inl rfl)
        rw [if_neg hm]
        refine Agree.bind (Agree.repeatN (R := fun p x => p.1 = x.1 ∧ Similar p.2 x.2) (RL := Similarp)
          (fun s s' r ha => ?_) .nil
          (fun a b as bs h hs => ?_) n.toNat s s' r ha)
          (fun as bs s s' r h ha => ⟨⟨.map (similarp_dict h), nofun⟩, ha, rfl⟩) fun _ _ _ _ _ _ _ sid => nofun
        · refine Agree.bind (ih' kt s s' r hn.2.1 ha) (fun p x s s' r h1 ha => ?_) fun _ _ _ _ _ _ _ => trivial
          refine Agree.bind (ih' vt s s' r hn.2.2 ha) (fun p x s s' r h2 ha => ?_) fun _ _ _ _ _ _ _ => trivial
          by_cases hh : kt.hashable = true
          · rw [if_pos hh, if_pos hh]
            exact ⟨⟨h1.2 hh hn.1, h2.1⟩, ha, rfl⟩
          · rw [if_neg hh, if_neg hh]
            trivial
        · obtain ⟨a1, a2⟩ := a
          obtain ⟨b1, b2⟩ := b
          obtain ⟨h1, h2⟩ := h
          dsimp only at h1 h2
          subst h1
          exact .cons h2 hs
      | struct sid =>
        rw [readVal, decodeValue]
        rw [exec_bind, exec_incDepth, exec_bind, exec_incDepth]
        have hd : s.depth = s'.depth := ha.1.trans ha.2.symm
        rw [hd]
        by_cases hlt : s'.depth < 64
        · rw [if_pos hlt, if_pos hlt, Res.andThen_ok, Res.andThen_ok]
          refine Agree.tryDec ?_
          have ha' : Ahead (a + 1, a + 1) ⟨s'.depth + 1⟩ ⟨s'.depth + 1⟩ := by
            have := ha.2
            exact ⟨by show s'.depth + 1 = a + 1; rw [this], by show s'.depth + 1 = a + 1; rw [this]⟩
          generalize (⟨s'.depth + 1⟩ : Binary.St) = s1 at ha' ⊢
          dsimp only
          refine Agree.mono (w := fun _ => False) ?_ (fun _ h => h.elim) fun _ _ h => h
          refine Agree.seq (w' := fun _ => False) (Agree.pure (R := fun _ _ => True) trivial ha')
            fun _ _ s s' r _ ha' => ?_
          refine Agree.seq (w' := fun _ => False)
            (Agree.whileTrue (R := Similarf) (Q := Similarf) (fun as bs s s' r hab ha => ?_)
              (struct_body_nil env cfg (sch sid) _ _) fuel fuel' _ _ s s' r (similarf_refl _) ha')
            fun as bs s s' r h ha => ⟨⟨.struct h, nofun⟩, ha, rfl⟩
          refine Agree.seq (agree_fieldBegin env cfg r ha) fun p x s s' r hp ha => ?_
          obtain ⟨u, n⟩ := p
          obtain ⟨u', n'⟩ := x
          obtain ⟨hu, hn'⟩ := hp
          dsimp only at hu hn'
          subst hn'
          dsimp only
          by_cases h0 : u = TType.STOP
          · have : u' = TType.STOP := by unfold TypeRel TType.STOP at *; omega
            rw [if_pos h0, if_pos this]
            exact ⟨.inr ⟨_, _, rfl, rfl, hab⟩, ha, rfl⟩
          · have : ¬ u' = TType.STOP := by unfold TypeRel TType.STOP at *; omega
            rw [if_neg h0, if_neg this]
            have hskip := skip_agree env cfg fuel fuel' (a + 1, a + 1) skipDepth u u' s s' r hu ha (by
              dsimp only [skipDepth]; omega)
            rw [specEntry_eq (hs sid).1 ((hs sid).2 rfl)]
            rw [show lookupField .gen (sch sid) n = (sch sid).findIdx? (fun f => f.fid == n) from rfl]
            generalize (sch sid).findIdx? (fun f => f.fid == n) = o
            rcases o with _ | i
            · exact Agree.seq hskip fun _ _ s s' r _ ha => ⟨.inl ⟨_, _, rfl, rfl, hab⟩, ha, rfl⟩
            · dsimp only
              rcases hf : (sch sid)[i]? with _ | f
              · trivial
              · dsimp only
                by_cases hty : u = f.ty.ttype
                · have h2 := (typeRel_iff hu f.ty).1 hty
                  rw [if_pos hty, if_neg (fun h => h h2.symm)]
                  have hmem : f ∈ sch sid := List.mem_of_getElem? hf
                  refine Agree.bind ((ih fuel (a + 1) f.ty s s' r (by omega) (hb sid f hmem) ha).mono
                    (w2 := fun _ => True) (fun _ _ => trivial) fun _ _ h => h)
                    (fun p x s s' r h ha => ⟨.inl ⟨_, _, rfl, rfl, similarf_set h.1 i _ _ hab⟩, ha, rfl⟩)
                    fun b s' c s'' r _ hc => ?_
                  cases hc
                  exact ⟨_, rfl⟩
                · have h2 := fun h => hty ((typeRel_iff hu f.ty).2 h)
                  rw [if_neg hty, if_pos (fun h => h2 h.symm)]
                  exact Agree.seq hskip fun _ _ s s' r _ ha => ⟨.inl ⟨_, _, rfl, rfl, hab⟩, ha, rfl⟩
        · rw [if_neg hlt, if_neg hlt]
          trivial
      | _ => exact absurd rfl ht

end
end Thrift.Fast
