import Verif.Proofs.JsonFail
import Verif.Proofs.SafeOps
/-
What the readers of `TJSONProtocol` do with arbitrary bytes.
-/

namespace Thrift.Json.Arb
open Spec Spec.Json

section
variable {hang : Prop} {E : Exc → Prop} {α β : Type}

/-- Like `Out`, with a budget `c` for calls of `read` that return nothing; `Q` is told what is left of it. -/
def Tr (hang : Prop) (E : Exc → Prop) (c : Nat) (m : P St α) (s : St) (b : Bytes) (Q : α → St → Bytes → Nat → Prop) : Prop :=
  ∀ k, (hang ∧ cexec m s b k = none) ∨ ∃ r s' b' k' c', cexec m s b k = some ((r, s'), (b', k')) ∧ b' <:+ b ∧
    (hang ∨ k' + b'.length + c' ≤ k + b.length + c) ∧
    (match r with
      | .ok a => Q a s' b' c'
      | .error e => E e)

theorem Tr.out {L : Lim} {m : P St α} {s : St} {b : Bytes} {Q : α → St → Bytes → Prop}
    (h : L.fits b → Tr L.hang E L.slack m s b fun a s' b' c' => c' = L.slack ∧ Q a s' b') : Out L E m s b Q := by
  intro hb k
  rcases h hb k with h | ⟨r, s', b', k', c', h1, h2, h3, h4⟩
  · exact .inl h
  · refine .inr ⟨r, s', b', k', h1, h2, ?_⟩
    cases r with
    | ok a => exact ⟨h3.imp_right fun _ => by have := h4.1; omega, h4.2⟩
    | error e => exact ⟨h3.imp_right fun _ => by omega, h4⟩

theorem Tr.mono {c : Nat} {m : P St α} {s : St} {b : Bytes} {Q R : α → St → Bytes → Nat → Prop} (h : Tr hang E c m s b Q)
    (hqr : ∀ a s' b' c', b' <:+ b → Q a s' b' c' → R a s' b' c') : Tr hang E c m s b R := by
  intro k
  rcases h k with h | ⟨r, s', b', k', c', h1, h2, h3, h4⟩
  · exact .inl h
  · refine .inr ⟨r, s', b', k', c', h1, h2, h3, ?_⟩
    cases r with
    | ok a => exact hqr a s' b' c' h2 h4
    | error e => exact h4

theorem Tr.pure {c : Nat} {a : α} {s : St} {b : Bytes} {Q : α → St → Bytes → Nat → Prop} (h : Q a s b c) :
    Tr hang E c (Pure.pure a) s b Q := fun _ => .inr ⟨_, _, _, _, c, rfl, List.suffix_refl _, .inr (Nat.le_refl _), h⟩
theorem Tr.raise {c : Nat} {e : Exc} {s : St} {b : Bytes} {Q : α → St → Bytes → Nat → Prop} (h : E e) :
    Tr hang E c (P.raise e) s b Q := fun _ => .inr ⟨_, _, _, _, c, rfl, List.suffix_refl _, .inr (Nat.le_refl _), h⟩
theorem Tr.diverge {c : Nat} {s : St} {b : Bytes} {Q : α → St → Bytes → Nat → Prop} (h : hang) :
    Tr hang E c (P.diverge) s b Q := fun _ => .inl ⟨h, rfl⟩
theorem Tr.lift {c : Nat} {x : Except Exc α} {s : St} {b : Bytes} {Q : α → St → Bytes → Nat → Prop}
    (h : ∀ a, x = .ok a → Q a s b c) (he : ∀ e, x = .error e → E e) : Tr hang E c (P.lift x) s b Q := by
  cases x with
  | ok a => exact Tr.pure (h a rfl)
  | error e => exact Tr.raise (he e rfl)
theorem Tr.modify {c : Nat} {s : St} {f : St → St} {b : Bytes} {Q : Unit → St → Bytes → Nat → Prop} (h : Q () (f s) b c) :
    Tr hang E c (P.modify f) s b Q := fun _ => .inr ⟨_, _, _, _, c, rfl, List.suffix_refl _, .inr (Nat.le_refl _), h⟩
theorem Tr.set {c : Nat} {s s' : St} {b : Bytes} {Q : Unit → St → Bytes → Nat → Prop} (h : Q () s' b c) :
    Tr hang E c (P.set s') s b Q := fun _ => .inr ⟨_, _, _, _, c, rfl, List.suffix_refl _, .inr (Nat.le_refl _), h⟩
theorem Tr.get {c : Nat} {k : St → P St α} {s : St} {b : Bytes} {Q : α → St → Bytes → Nat → Prop}
    (h : Tr hang E c (k s) s b Q) : Tr hang E c (P.get >>= k) s b Q := h
theorem Tr.ite {p : Prop} [Decidable p] {c : Nat} {m n : P St α} {s : St} {b : Bytes} {Q : α → St → Bytes → Nat → Prop}
    (hm : p → Tr hang E c m s b Q) (hn : ¬ p → Tr hang E c n s b Q) : Tr hang E c (if p then m else n) s b Q := by
  split
  · exact hm ‹_›
  · exact hn ‹_›

theorem Tr.Pbind {c : Nat} {m : P St α} {k : α → P St β} {s : St} {b : Bytes} {Q : α → St → Bytes → Nat → Prop}
    {R : β → St → Bytes → Nat → Prop} (hm : Tr hang E c m s b Q)
    (hk : ∀ a s' b' c', b' <:+ b → Q a s' b' c' → Tr hang E c' (k a) s' b' R) : Tr hang E c (P.bind m k) s b R := by
  intro n
  have e : cexec (P.bind m k) s b n = (cexec m s b n).bind fun x =>
      Prog.run countStep (match x.1 with
        | (.ok a, s') => k a s'
        | (.error e, s') => .ret (.error e, s')) x.2 := by
    unfold cexec P.bind
    rw [Prog.run_bind]
    rcases Prog.run countStep (m s) (b, n) with _ | ⟨⟨_ | _, _⟩, _⟩ <;> rfl
  rcases hm n with ⟨h0, h1⟩ | ⟨r, s', b', k', c', h1, h2, h3, h4⟩
  · rw [h1] at e
    exact .inl ⟨h0, e⟩
  rw [h1] at e
  cases r with
  | error x => exact .inr ⟨_, _, _, _, _, e, h2, h3, h4⟩
  | ok a =>
    rcases hk a s' b' c' h2 h4 k' with ⟨g0, g1⟩ | ⟨r2, s2, b2, k2, c2, g1, g2, g3, g4⟩
    · exact .inl ⟨g0, e.trans g1⟩
    refine .inr ⟨r2, s2, b2, k2, c2, e.trans g1, g2.trans h2, ?_, g4⟩
    rcases h3 with h | h
    · exact .inl h
    · exact g3.imp_right fun _ => by omega

theorem Tr.bind {c : Nat} {m : P St α} {k : α → P St β} {s : St} {b : Bytes} {Q : α → St → Bytes → Nat → Prop}
    {R : β → St → Bytes → Nat → Prop} (hm : Tr hang E c m s b Q)
    (hk : ∀ a s' b' c', b' <:+ b → Q a s' b' c' → Tr hang E c' (k a) s' b' R) : Tr hang E c (m >>= k) s b R :=
  Tr.Pbind hm hk

theorem Tr.transRead {c n : Nat} {s : St} {b : Bytes} {Q : Bytes → St → Bytes → Nat → Prop}
    (h : b ≠ [] → Q (b.take (n + 1)) s (b.drop (n + 1)) c) (hc : hang ∨ 1 ≤ c) (h0 : b = [] → Q [] s [] (c - 1)) :
    Tr hang E c (P.transRead (n + 1)) s b Q := by
  intro k
  by_cases hb : b = []
  · subst hb
    refine .inr ⟨_, _, _, k + 1, c - 1, rfl, List.suffix_refl _, ?_, h0 rfl⟩
    exact hc.imp_right fun _ => by simp only [List.drop_nil, List.length_nil]; omega
  · refine .inr ⟨_, _, _, k + 1, c, rfl, List.drop_suffix _ _, .inr ?_, h hb⟩
    have : 0 < b.length := List.length_pos_iff.mpr hb
    simp only [List.length_drop]
    omega

/-- The characters that are still to be read. -/
def chars (s : St) (b : Bytes) : Nat := b.length + if s.hasData then s.data.length else 0

theorem Tr.whileTrue {c : Nat} {body : α → P St (α ⊕ β)} {I : α → St → Bytes → Prop} {Q : β → St → Bytes → Prop}
    (hb : ∀ a s b, I a s b → Tr hang E c (body a) s b fun r s' b' c' => c' = c ∧
      match r with | .inl a' => I a' s' b' ∧ chars s' b' + 1 ≤ chars s b | .inr x => Q x s' b')
    (f : Nat) (a : α) (s : St) (b : Bytes) (ha : I a s b) (hf : hang ∨ chars s b + 1 ≤ f) :
    Tr hang E c (P.whileTrue f body a) s b fun x s' b' c' => c' = c ∧ Q x s' b' := by
  induction f generalizing a s b with
  | zero => exact Tr.diverge (hf.resolve_right (by omega))
  | succ f ih =>
    refine Tr.Pbind (hb a s b ha) fun r s1 b1 c1 hb1 hr => ?_
    obtain ⟨rfl, hr⟩ := hr
    cases r with
    | inl a' => exact ih a' s1 b1 hr.1 (hf.imp_right fun _ => by have := hr.2; omega)
    | inr x => exact Tr.pure ⟨rfl, hr⟩

/-! ### Characters -/

/-- The lookahead holds one byte, or nothing because the input has ended. -/
def Sane (s : St) (b : Bytes) : Prop := s.hasData = true → s.data.length = 1 ∨ (s.data = [] ∧ b = [])

/-- The lookahead holds one byte. -/
def Live (s : St) : Prop := s.hasData = true → s.data.length = 1

theorem Live.sane {s : St} (h : Live s) (b : Bytes) : Sane s b := fun e => .inl (h e)

theorem Live.chars_le {s : St} (h : Live s) (b : Bytes) : chars s b ≤ b.length + 1 := by
  unfold chars
  split
  · rw [h ‹_›]; exact Nat.le_refl _
  · omega

/-- The recursion counter and the contexts are the same. -/
def Kept (s s' : St) : Prop := s'.depth = s.depth ∧ s'.stack = s.stack

theorem Kept.trans {s s1 s2 : St} (h : Kept s s1) (g : Kept s1 s2) : Kept s s2 := ⟨g.1.trans h.1, g.2.trans h.2⟩

theorem length_one {b : Bytes} (h : b.length = 1) : ∃ y, b = [y] := by
  match b, h with
  | [y], _ => exact ⟨y, rfl⟩

theorem tr_read {c : Nat} {s : St} {b : Bytes} (hs : Sane s b) (hc : hang ∨ 1 ≤ c) :
    Tr hang E c readerRead s b fun x s' b' c' => Kept s s' ∧ s'.hasData = false ∧
      ((∃ y, x = [y] ∧ b'.length + 1 = chars s b ∧ c' = c) ∨ (x = [] ∧ b' = [] ∧ chars s b = 0 ∧ c - 1 ≤ c' ∧ (s.hasData = true → c' = c))) := by
  unfold readerRead
  refine Tr.get (Tr.ite (fun h => ?_) fun h => ?_)
  · refine Tr.bind (Q := fun _ s' b' c' => s' = { s with hasData := false } ∧ b' = b ∧ c' = c) (Tr.set ⟨rfl, rfl, rfl⟩) ?_
    rintro _ s' b' c' - ⟨rfl, rfl, rfl⟩
    refine Tr.pure ⟨⟨rfl, rfl⟩, rfl, ?_⟩
    rcases hs h with h1 | ⟨h1, h2⟩
    · obtain ⟨y, hy⟩ := length_one h1
      exact .inl ⟨y, hy, by unfold chars; rw [if_pos h, h1], rfl⟩
    · exact .inr ⟨h1, h2, by unfold chars; rw [if_pos h, h1, h2]; rfl, by omega, fun _ => rfl⟩
  · refine Tr.bind (Q := fun x s' b' c' => s' = s ∧ ((∃ y, x = [y] ∧ b'.length + 1 = chars s b ∧ c' = c) ∨
      (x = [] ∧ b' = [] ∧ chars s b = 0 ∧ c - 1 ≤ c' ∧ (s.hasData = true → c' = c)))) (Tr.transRead (n := 0) (fun hb => ⟨rfl, .inl ?_⟩) hc fun hb =>
        ⟨rfl, .inr ⟨rfl, rfl, by unfold chars; rw [if_neg h, hb]; rfl, Nat.le_refl _, fun e => absurd e h⟩⟩) ?_
    · cases b with
      | nil => exact absurd rfl hb
      | cons y b => exact ⟨y, rfl, by unfold chars; rw [if_neg h]; simp, rfl⟩
    · rintro x s' b' c' - ⟨rfl, hx⟩
      refine Tr.bind (Q := fun _ s'' b'' c'' => s'' = { s' with data := x } ∧ b'' = b' ∧ c'' = c') (Tr.modify ⟨rfl, rfl, rfl⟩) ?_
      rintro _ s'' b'' c'' - ⟨rfl, rfl, rfl⟩
      exact Tr.pure ⟨⟨rfl, rfl⟩, by simpa using h, hx⟩

theorem tr_peek {c : Nat} {s : St} {b : Bytes} (hs : Sane s b) (hc : hang ∨ 1 ≤ c) :
    Tr hang E c readerPeek s b fun x s' b' c' => Kept s s' ∧ s'.hasData = true ∧ s'.data = x ∧
      ((∃ y, x = [y] ∧ b'.length + 1 = chars s b ∧ c' = c) ∨ (x = [] ∧ b' = [] ∧ chars s b = 0 ∧ c - 1 ≤ c' ∧ (s.hasData = true → c' = c))) := by
  unfold readerPeek
  refine Tr.get (Tr.ite (fun h => ?_) fun h => ?_)
  · refine Tr.pure ⟨⟨rfl, rfl⟩, h, rfl, ?_⟩
    rcases hs h with h1 | ⟨h1, h2⟩
    · obtain ⟨y, hy⟩ := length_one h1
      exact .inl ⟨y, hy, by unfold chars; rw [if_pos h, h1], rfl⟩
    · exact .inr ⟨h1, h2, by unfold chars; rw [if_pos h, h1, h2]; rfl, by omega, fun _ => rfl⟩
  · refine Tr.bind (Q := fun x s' b' c' => s' = s ∧ ((∃ y, x = [y] ∧ b'.length + 1 = chars s b ∧ c' = c) ∨
      (x = [] ∧ b' = [] ∧ chars s b = 0 ∧ c - 1 ≤ c' ∧ (s.hasData = true → c' = c)))) (Tr.transRead (n := 0) (fun hb => ⟨rfl, .inl ?_⟩) hc fun hb =>
        ⟨rfl, .inr ⟨rfl, rfl, by unfold chars; rw [if_neg h, hb]; rfl, Nat.le_refl _, fun e => absurd e h⟩⟩) ?_
    · cases b with
      | nil => exact absurd rfl hb
      | cons y b => exact ⟨y, rfl, by unfold chars; rw [if_neg h]; simp, rfl⟩
    · rintro x s' b' c' - ⟨rfl, hx⟩
      refine Tr.bind (Q := fun _ s'' b'' c'' => s'' = { s' with data := x, hasData := true } ∧ b'' = b' ∧ c'' = c')
        (Tr.modify ⟨rfl, rfl, rfl⟩) ?_
      rintro _ s'' b'' c'' - ⟨rfl, rfl, rfl⟩
      exact Tr.pure ⟨⟨rfl, rfl⟩, rfl, rfl, hx⟩

theorem live_off {s : St} (h : s.hasData = false) : Live s := fun e => by rw [h] at e; cases e

theorem chars_off {s : St} (h : s.hasData = false) (b : Bytes) : chars s b = b.length := by
  unfold chars; rw [h]; simp

theorem tr_syntax {c : Nat} {s : St} {b : Bytes} (x : UInt8) (hs : Sane s b) (hc : hang ∨ 1 ≤ c)
    (hi : E TProtocolException.INVALID_DATA) :
    Tr hang E c (readSyntaxChar x) s b fun _ s' b' c' => Kept s s' ∧ s'.hasData = false ∧ b'.length + 1 = chars s b ∧
      c' = c := by
  unfold readSyntaxChar
  refine Tr.bind (tr_read hs hc) ?_
  rintro y s1 b1 c1 - ⟨h1, h2, h3⟩
  refine Tr.ite (fun hy => Tr.pure ?_) fun _ => Tr.raise hi
  rcases h3 with ⟨z, -, h4, h5⟩ | ⟨h4, -⟩
  · exact ⟨h1, h2, h4, h5⟩
  · rw [h4] at hy; cases hy

/-- The same contexts, except for the state of the innermost. -/
def Alike (k k' : List Ctx) : Prop := k'.tail = k.tail ∧ (k' = [] ↔ k = [])

theorem Alike.refl (k : List Ctx) : Alike k k := ⟨rfl, Iff.rfl⟩
theorem Alike.trans {a b c : List Ctx} (h : Alike a b) (g : Alike b c) : Alike a c :=
  ⟨g.1.trans h.1, g.2.trans h.2⟩

theorem alike_setTop (k : List Ctx) (c : Ctx) : Alike k (setTop k c) := by
  cases k <;> simp [setTop, Alike]

/-- After a call that left the contexts alike. -/
structure Same (s s' : St) : Prop where
  depth : s'.depth = s.depth
  stack : Alike s.stack s'.stack
  live : Live s → Live s'

theorem Same.refl (s : St) : Same s s := ⟨rfl, Alike.refl _, id⟩
theorem Same.trans {s s1 s2 : St} (h : Same s s1) (g : Same s1 s2) : Same s s2 :=
  ⟨g.depth.trans h.depth, h.stack.trans g.stack, g.live ∘ h.live⟩
theorem Kept.same {s s' : St} (h : Kept s s') (hl : Live s') : Same s s' :=
  ⟨h.1, h.2 ▸ Alike.refl _, fun _ => hl⟩

/-- Nothing has been gained. -/
structure Less (s : St) (b : Bytes) (s' : St) (b' : Bytes) : Prop where
  depth : s'.depth = s.depth
  stack : Alike s.stack s'.stack
  live : Live s → Live s'
  sane : Sane s' b'
  chars : chars s' b' ≤ chars s b

theorem Less.trans {s s1 s2 : St} {b b1 b2 : Bytes} (h : Less s b s1 b1) (g : Less s1 b1 s2 b2) : Less s b s2 b2 :=
  ⟨g.depth.trans h.depth, h.stack.trans g.stack, g.live ∘ h.live, g.sane, Nat.le_trans g.chars h.chars⟩

theorem tr_ctx {c : Nat} {s : St} {b : Bytes} (hs : Sane s b) (hc : hang ∨ 1 ≤ c)
    (hi : E TProtocolException.INVALID_DATA) :
    Tr hang E c ctxRead s b fun _ s' b' c' => c' = c ∧ Less s b s' b' := by
  unfold ctxRead
  refine Tr.get ?_
  cases (advance (top s.stack)).1 with
  | none =>
    exact Tr.modify ⟨rfl, rfl, alike_setTop _ _, id, hs, Nat.le_refl _⟩
  | some x =>
    refine Tr.bind (tr_syntax x hs hc hi) ?_
    rintro _ s1 b1 c1 - ⟨h1, h2, h3, h4⟩
    refine Tr.modify ⟨h4, h1.1, ?_, fun _ => live_off h2, (live_off h2).sane _, ?_⟩
    · rw [show (advanceTop s1).stack = setTop s1.stack (advance (top s1.stack)).2 from rfl, h1.2]
      exact alike_setTop _ _
    · have : chars (advanceTop s1) b1 = b1.length := chars_off h2 b1
      omega

theorem tr_quotes {c : Nat} {s : St} {b : Bytes} (hs : Sane s b) (hc : hang ∨ 1 ≤ c)
    (hi : E TProtocolException.INVALID_DATA) :
    Tr hang E c readQuotes s b fun _ s' b' c' => c' = c ∧ Less s b s' b' := by
  unfold readQuotes
  refine Tr.get (Tr.ite (fun _ => (tr_syntax 34 hs hc hi).mono ?_) fun _ => Tr.pure ⟨rfl, rfl, Alike.refl _, id, hs, Nat.le_refl _⟩)
  rintro _ s1 b1 c1 - ⟨h1, h2, h3, h4⟩
  exact ⟨h4, h1.1, h1.2 ▸ Alike.refl _, fun _ => live_off h2, (live_off h2).sane _, by rw [chars_off h2]; omega⟩

theorem ord_some {x : Bytes} {o : Nat} (h : ord x = .ok o) : ∃ y : UInt8, x = [y] ∧ o = y.toNat := by
  match x, h with
  | [y], h => exact ⟨y, rfl, by simp only [ord, Except.ok.injEq] at h; exact h.symm⟩

theorem ord_error {x : Bytes} {e : Exc} (h : ord x = .error e) : e = .typeError := by
  match x, h with
  | [], h => simp only [ord, Except.error.injEq] at h; exact h.symm
  | _ :: _ :: _, h => simp only [ord, Except.error.injEq] at h; exact h.symm

theorem chr_some {i : Int} {o : Nat} (h : chr i = .ok o) : (o : Int) = i ∧ i < 0x110000 := by
  unfold chr at h
  split at h
  · simp only [Except.ok.injEq] at h
    omega
  · cases h

theorem chr_error {i : Int} {e : Exc} (h : chr i = .error e) : e = .valueError := by
  unfold chr at h
  split at h
  · cases h
  · simp only [Except.error.injEq] at h; exact h.symm

theorem asciiDecode_error {x : Bytes} {e : Exc} (h : asciiDecode x = .error e) : e = .unicodeError := by
  unfold asciiDecode at h
  split at h
  · cases h
  · simp only [Except.error.injEq] at h; exact h.symm

theorem checkLength_nat {l : Option Int} {n : Nat} : (checkLength l n = .ok () → Within l n) ∧
    ∀ e, checkLength l n = .error e → e = TTransportException.SIZE_LIMIT := by
  unfold checkLength
  rw [if_neg (by omega)]
  cases l with
  | none => exact ⟨(fun _ _ h => by cases h), (fun _ h => by cases h)⟩
  | some x =>
    dsimp only
    split
    · exact ⟨(fun h => by cases h), (fun e h => by simp only [Except.error.injEq] at h; exact h.symm)⟩
    · exact ⟨(fun _ y hy => by cases hy; omega), (fun _ h => by cases h)⟩

/-- What a reader of characters may raise. -/
structure Chars (E : Exc → Prop) : Prop where
  invalid : E TProtocolException.INVALID_DATA
  size : E TTransportException.SIZE_LIMIT
  type : E .typeError
  value : E .valueError
  unicode : E .unicodeError

section
variable (cfg : Cfg) (hE : Chars E)
include hE

theorem tr_utf8 {c : Nat} (hc : hang ∨ 1 ≤ c) (a : Bytes × Nat) (s : St) (b : Bytes) (hs : Live s) :
    Tr hang E c (utf8Body cfg a) s b fun r s' b' c' => c' = c ∧ Kept s s' ∧ Live s' ∧
      match r with
      | .inl a' => a'.1.length = a.1.length + 1 ∧ a'.2 = a.2 + 1 ∧ chars s' b' + 1 ≤ chars s b
      | .inr a' => a' = a ∧ chars s' b' ≤ chars s b := by
  unfold utf8Body
  refine Tr.bind (tr_peek (hs.sane b) hc) ?_
  rintro x s1 b1 c1 - ⟨h1, h2, h3, h4⟩
  refine Tr.bind (Q := fun o s' b' c' => ord x = .ok o ∧ s' = s1 ∧ b' = b1 ∧ c' = c1)
    (Tr.lift (fun o ho => ⟨ho, rfl, rfl, rfl⟩) fun e he => ord_error he ▸ hE.type) ?_
  rintro o s' b' c' - ⟨ho, rfl, rfl, rfl⟩
  obtain ⟨y, hy, -⟩ := ord_some ho
  rcases h4 with ⟨z, hz, h5, rfl⟩ | ⟨h5, -⟩
  · have hl : Live s' := fun _ => by rw [h3, hz]; rfl
    have hch : chars s' b' = chars s b := by
      unfold chars at h5 ⊢
      rw [if_pos h2, h3, hz]
      simpa using h5
    refine Tr.ite (fun _ => ?_) fun _ => Tr.pure ⟨rfl, h1, hl, rfl, by omega⟩
    refine Tr.bind (tr_read (hl.sane b') hc) ?_
    rintro x2 s2 b2 c2 - ⟨g1, g2, g3⟩
    refine Tr.bind (Q := fun o s' b' c' => ord x2 = .ok o ∧ s' = s2 ∧ b' = b2 ∧ c' = c2)
      (Tr.lift (fun o ho => ⟨ho, rfl, rfl, rfl⟩) fun e he => ord_error he ▸ hE.type) ?_
    rintro o s' b' c' - ⟨ho, rfl, rfl, rfl⟩
    refine Tr.bind (Q := fun _ s'' b'' c'' => s'' = s' ∧ b'' = b' ∧ c'' = c')
      (Tr.lift (fun _ _ => ⟨rfl, rfl, rfl⟩) fun e he => checkLength_nat.2 e he ▸ hE.size) ?_
    rintro _ s'' b'' c'' - ⟨rfl, rfl, rfl⟩
    obtain ⟨w, hw, -⟩ := ord_some ho
    rcases g3 with ⟨z, -, g4, rfl⟩ | ⟨g4, -⟩
    · exact Tr.pure ⟨rfl, h1.trans g1, live_off g2, by simp, rfl, by rw [chars_off g2]; omega⟩
    · rw [g4] at hw; cases hw
  · rw [h5] at hy; cases hy

/-- What has been read of a text. -/
structure Good (sl : Option Int) (a : Acc) : Prop where
  scalar : ∀ x ∈ a.text, Scalar x
  length : utf8Len a.text ≤ a.length
  within : Within sl (utf8Len a.text)

omit hE in
theorem utf8Len_append (x y : PyStr) : utf8Len (x ++ y) = utf8Len x + utf8Len y := by simp [utf8Len]

theorem tr_append {c : Nat} (a : Acc) (cs : PyStr) (s : St) (b : Bytes) (h1 : ∀ x ∈ a.text, Scalar x)
    (h2 : ∀ x ∈ cs, Scalar x) (h3 : utf8Len a.text + utf8Len cs ≤ a.length) :
    Tr hang E c (appendChar cfg a cs) s b fun r s' b' c' => c' = c ∧ s' = s ∧ b' = b ∧
      ∃ a', r = .inl a' ∧ Good cfg.stringLimit a' := by
  unfold appendChar
  refine Tr.bind (Q := fun _ s'' b'' c'' => Within cfg.stringLimit a.length ∧ s'' = s ∧ b'' = b ∧ c'' = c)
    (Tr.lift (fun _ h => ⟨checkLength_nat.1 h, rfl, rfl, rfl⟩) fun e he => checkLength_nat.2 e he ▸ hE.size) ?_
  rintro _ s'' b'' c'' - ⟨hw, rfl, rfl, rfl⟩
  refine Tr.ite (fun _ => Tr.raise hE.invalid) fun _ => Tr.pure ⟨rfl, rfl, rfl, _, rfl, ?_, ?_, ?_⟩
  · intro x hx
    rcases List.mem_append.mp hx with h | h
    · exact h1 x h
    · exact h2 x h
  · rw [utf8Len_append]; exact h3
  · rw [utf8Len_append]; exact Within.le hw h3


omit hE in
theorem utf8Width_le (x : Nat) : utf8Width x ≤ 4 := by
  unfold utf8Width
  split
  · omega
  · split
    · omega
    · split <;> omega

theorem tr_unicode {c : Nat} (hc : hang ∨ 1 ≤ c) (a : Acc) (s : St) (b : Bytes) (ha : Good cfg.stringLimit a) :
    Tr hang E c (unicodeEscape cfg a) s b fun r s' b' c' => c' = c ∧ s' = s ∧ b'.length ≤ b.length ∧
      ∃ a', r = .inl a' ∧ Good cfg.stringLimit a' := by
  unfold unicodeEscape
  refine Tr.bind (Q := fun x s' b' c' => s' = s ∧ b'.length ≤ b.length ∧ (x = [] ∨ c' = c))
    (Tr.transRead (n := 3) (fun _ => ⟨rfl, by simp, .inr rfl⟩) hc fun h => ⟨rfl, by simp, .inl rfl⟩) ?_
  rintro x s1 b1 c1 - ⟨rfl, h1, h2⟩
  refine Tr.bind (Q := fun t s' b' c' => asciiDecode x = .ok t ∧ s' = s1 ∧ b' = b1 ∧ c' = c1)
    (Tr.lift (fun t ht => ⟨ht, rfl, rfl, rfl⟩) fun e he => asciiDecode_error he ▸ hE.unicode) ?_
  rintro t s2 b2 c2 - ⟨ht, rfl, rfl, rfl⟩
  cases hp : pyInt16 t with
  | none => exact Tr.raise hE.value
  | some code =>
    obtain rfl : c2 = c := by
      rcases h2 with rfl | h2
      · simp only [asciiDecode, List.all_nil, if_pos, List.map_nil, Except.ok.injEq] at ht
        subst ht
        cases hp
      · exact h2
    refine Tr.ite (fun _ => Tr.ite (fun _ => Tr.raise hE.invalid) fun _ => Tr.pure ⟨rfl, rfl, h1, _, rfl, ha.scalar, ?_, ha.within⟩)
      fun g1 => Tr.ite (fun g2 => Tr.ite (fun _ => Tr.raise hE.invalid) fun _ => ?_) fun g2 => ?_
    · have := ha.length
      simp only
      omega
    · refine Tr.bind (Q := fun o s' b' c' => chr (0x10000 + a.high % 0x400 * 0x400 + code % 0x400) = .ok o ∧ s' = s2 ∧ b' = b2 ∧ c' = c2)
        (Tr.lift (fun o ho => ⟨ho, rfl, rfl, rfl⟩) fun e he => chr_error he ▸ hE.value) ?_
      rintro o s3 b3 c3 - ⟨ho, rfl, rfl, rfl⟩
      have ho := chr_some ho
      refine (tr_append cfg hE { text := a.text, length := a.length + 4 } [o] s3 b3 ha.scalar ?_ ?_).mono ?_
      · intro x hx
        simp only [List.mem_singleton] at hx
        subst hx
        exact .inr (by omega)
      · have := ha.length
        have := utf8Width_le o
        simp only [utf8Len, List.map_cons, List.map_nil, List.sum_cons, List.sum_nil] at *
        omega
      · rintro r s' b' c' - ⟨rfl, rfl, rfl, h⟩
        exact ⟨rfl, rfl, h1, h⟩
    · refine Tr.bind (Q := fun o s' b' c' => chr code = .ok o ∧ s' = s2 ∧ b' = b2 ∧ c' = c2)
        (Tr.lift (fun o ho => ⟨ho, rfl, rfl, rfl⟩) fun e he => chr_error he ▸ hE.value) ?_
      rintro o s3 b3 c3 - ⟨ho, rfl, rfl, rfl⟩
      have ho := chr_some ho
      refine (tr_append cfg hE { a with length := a.length + 4 } [o] s3 b3 ha.scalar ?_ ?_).mono ?_
      · intro x hx
        simp only [List.mem_singleton] at hx
        subst hx
        unfold Scalar
        omega
      · have := ha.length
        have := utf8Width_le o
        simp only [utf8Len, List.map_cons, List.map_nil, List.sum_cons, List.sum_nil] at *
        omega
      · rintro r s' b' c' - ⟨rfl, rfl, rfl, h⟩
        exact ⟨rfl, rfl, h1, h⟩


omit hE in
theorem unescape_small {x : UInt8} {o : Nat} (h : unescape x = some o) : o < 128 := by
  unfold unescape at h
  repeat' split at h
  all_goals (first | (cases h; done) | (simp only [Option.some.injEq] at h; omega))

omit hE in
theorem utf8Width_small {o : Nat} (h : o < 128) : utf8Width o = 1 := by
  unfold utf8Width
  rw [if_pos h]

theorem tr_stringBody {c : Nat} (hc : hang ∨ 1 ≤ c) (fuel : Nat) (a : Acc) (s : St) (b : Bytes)
    (ha : Good cfg.stringLimit a) (hs : Live s) (hf : hang ∨ chars s b + 1 ≤ fuel) :
    Tr hang E c (stringBody cfg fuel a) s b fun r s' b' c' => c' = c ∧ Kept s s' ∧ Live s' ∧ chars s' b' + 1 ≤ chars s b ∧
      match r with
      | .inl a' => Good cfg.stringLimit a'
      | .inr x => s'.hasData = false ∧ (∀ y ∈ x, Scalar y) ∧ Within cfg.stringLimit (utf8Len x) := by
  unfold stringBody
  refine Tr.bind (tr_read (hs.sane b) hc) ?_
  rintro x s1 b1 c1 - ⟨h1, h2, h3⟩
  rcases h3 with ⟨y, rfl, h3, rfl⟩ | ⟨rfl, -⟩
  · have hch : chars s1 b1 + 1 = chars s b := by rw [chars_off h2]; exact h3
    have hl := ha.length
    refine Tr.ite (fun _ => Tr.pure ⟨rfl, h1, live_off h2, by omega, h2, ha.scalar, ha.within⟩) fun _ => ?_
    refine Tr.bind (Q := fun o s' b' c' => o = y.toNat ∧ s' = s1 ∧ b' = b1 ∧ c' = c1)
      (Tr.lift (fun o ho => ⟨by cases ho; rfl, rfl, rfl, rfl⟩) fun e he => ord_error he ▸ hE.type) ?_
    rintro o s2 b2 c2 - ⟨rfl, rfl, rfl, rfl⟩
    refine Tr.ite (fun _ => ?_) fun _ => ?_
    · refine Tr.bind (tr_read ((live_off h2).sane b2) hc) ?_
      rintro x s3 b3 c3 - ⟨g1, g2, g3⟩
      rcases g3 with ⟨z, rfl, g3, rfl⟩ | ⟨rfl, -⟩
      · have hch3 : chars s3 b3 + 1 = chars s2 b2 := by rw [chars_off g2]; exact g3
        refine Tr.bind (Q := fun o s' b' c' => o = z.toNat ∧ s' = s3 ∧ b' = b3 ∧ c' = c3)
          (Tr.lift (fun o ho => ⟨by cases ho; rfl, rfl, rfl, rfl⟩) fun e he => ord_error he ▸ hE.type) ?_
        rintro o s4 b4 c4 - ⟨rfl, rfl, rfl, rfl⟩
        refine Tr.ite (fun _ => ?_) fun _ => ?_
        · refine (tr_unicode cfg hE hc { a with length := a.length + 1 + 1 } s4 b4 ⟨ha.scalar, ?_, ha.within⟩).mono ?_
          · simp only; omega
          · rintro r s5 b5 c5 - ⟨rfl, rfl, h5, a', rfl, ha'⟩
            refine ⟨rfl, h1.trans g1, live_off g2, ?_, ha'⟩
            rw [chars_off g2] at hch3 ⊢
            omega
        · cases hu : unescape (UInt8.ofNat z.toNat) with
          | none => exact Tr.raise hE.invalid
          | some o =>
            have ho := unescape_small hu
            refine (tr_append cfg hE { a with length := a.length + 1 + 1 } [o] s4 b4 ha.scalar ?_ ?_).mono ?_
            · intro x hx
              simp only [List.mem_singleton] at hx
              subst hx
              exact .inl (by omega)
            · have := utf8Width_small ho
              simp only [utf8Len, List.map_cons, List.map_nil, List.sum_cons, List.sum_nil] at *
              omega
            · rintro r s5 b5 c5 - ⟨rfl, rfl, rfl, a', rfl, ha'⟩
              exact ⟨rfl, h1.trans g1, live_off g2, by omega, ha'⟩
      · exact Tr.bind (Q := fun _ _ _ _ => False) (Tr.lift (fun o ho => by cases ho) fun e he => ord_error he ▸ hE.type)
          fun _ _ _ _ _ h => h.elim
    · refine Tr.bind (Tr.whileTrue (c := c2) (I := fun (p : Bytes × Nat) s' b' => Kept s s' ∧ Live s' ∧
        chars s' b' + 1 ≤ chars s b ∧ p.1.length + a.length = p.2)
        (Q := fun (p : Bytes × Nat) s' b' => Kept s s' ∧ Live s' ∧ chars s' b' + 1 ≤ chars s b ∧ p.1.length + a.length = p.2)
        ?_ fuel _ s2 b2 ⟨h1, live_off h2, by omega, ?_⟩ (hf.imp_right fun _ => by omega)) ?_
      · rintro p s' b' ⟨i1, i2, i3, i4⟩
        refine (tr_utf8 cfg hE hc p s' b' i2).mono ?_
        rintro r s'' b'' c'' - ⟨rfl, k1, k2, k3⟩
        cases r with
        | inl p' => exact ⟨rfl, ⟨i1.trans k1, k2, by omega, by omega⟩, k3.2.2⟩
        | inr p' => obtain ⟨rfl, k4⟩ := k3; exact ⟨rfl, i1.trans k1, k2, by omega, i4⟩
      · simp; omega
      · rintro ⟨bs, len⟩ s3 b3 c3 - ⟨rfl, i1, i2, i3, i4⟩
        refine Tr.bind (Q := fun t s' b' c' => utf8Decode bs = .ok t ∧ s' = s3 ∧ b' = b3 ∧ c' = c3)
          (Tr.lift (fun t ht => ⟨ht, rfl, rfl, rfl⟩) fun e he => utf8Decode_error_kind _ _ he ▸ hE.unicode) ?_
        rintro t s4 b4 c4 - ⟨ht, rfl, rfl, rfl⟩
        obtain ⟨t1, t2⟩ := utf8Decode_sound bs t ht
        refine (tr_append cfg hE { a with length := len } t s4 b4 ha.scalar t1 ?_).mono ?_
        · have := utf8_length t1
          rw [t2] at this
          simp only at i4 ⊢
          omega
        · rintro r s5 b5 c5 - ⟨rfl, rfl, rfl, a', rfl, ha'⟩
          exact ⟨rfl, i1, i2, i3, ha'⟩
  · exact Tr.ite (fun h => by cases h) fun _ => Tr.bind (Q := fun _ _ _ _ => False)
      (Tr.lift (fun o ho => by cases ho) fun e he => ord_error he ▸ hE.type) fun _ _ _ _ _ h => h.elim

/-- What reading a text leaves. -/
structure Text (sl : Option Int) (x : PyStr) : Prop where
  scalar : ∀ y ∈ x, Scalar y
  within : Within sl (utf8Len x)

variable (h0 : Within cfg.stringLimit 0)
include h0

theorem tr_stringBodies {c : Nat} (hc : hang ∨ 1 ≤ c) (fuel : Nat) (s : St) (b : Bytes)
    (hs : Sane s b) (hf : hang ∨ chars s b + 1 ≤ fuel) :
    Tr hang E c (readStringBody cfg fuel) s b fun x s' b' c' => c' = c ∧ Kept s s' ∧ s'.hasData = false ∧
      chars s' b' + 1 ≤ chars s b ∧ Text cfg.stringLimit x := by
  unfold readStringBody
  refine Tr.bind (tr_syntax 34 hs hc hE.invalid) ?_
  rintro _ s1 b1 c1 - ⟨h1, h2, h3, rfl⟩
  refine (Tr.whileTrue (c := c1) (I := fun a s' b' => Good cfg.stringLimit a ∧ Kept s s' ∧ Live s' ∧ chars s' b' + 1 ≤ chars s b)
    (Q := fun x s' b' => Kept s s' ∧ s'.hasData = false ∧ chars s' b' + 1 ≤ chars s b ∧ Text cfg.stringLimit x)
    ?_ fuel {} s1 b1 ⟨⟨by simp, Nat.le_refl _, h0⟩, h1, live_off h2, by rw [chars_off h2]; omega⟩
    (hf.imp_right fun _ => by rw [chars_off h2]; omega))
  rintro a s' b' ⟨i1, i2, i3, i4⟩
  refine (tr_stringBody cfg hE hc fuel a s' b' i1 i3 (hf.imp_right fun _ => by omega)).mono ?_
  rintro r s'' b'' c'' - ⟨rfl, k1, k2, k3, k4⟩
  cases r with
  | inl a' => exact ⟨rfl, ⟨k4, i2.trans k1, k2, by omega⟩, k3⟩
  | inr x => exact ⟨rfl, i2.trans k1, k4.1, by omega, k4.2.1, k4.2.2⟩

theorem tr_string {c : Nat} (hc : hang ∨ 1 ≤ c) (fuel : Nat) (s : St) (b : Bytes)
    (hs : Sane s b) (hf : hang ∨ chars s b + 1 ≤ fuel) :
    Tr hang E c (readJSONString cfg fuel) s b fun x s' b' c' => c' = c ∧ Less s b s' b' ∧ s'.hasData = false ∧
      chars s' b' + 1 ≤ chars s b ∧ Text cfg.stringLimit x := by
  unfold readJSONString
  refine Tr.bind (tr_ctx hs hc hE.invalid) ?_
  rintro _ s1 b1 c1 - ⟨rfl, h1⟩
  have hc1 := h1.chars
  refine (tr_stringBodies cfg hE h0 hc fuel s1 b1 h1.sane (hf.imp_right fun _ => by omega)).mono ?_
  rintro x s2 b2 c2 - ⟨rfl, g1, g2, g3, g4⟩
  exact ⟨rfl, h1.trans ⟨g1.1, g1.2 ▸ Alike.refl _, fun _ => live_off g2, (live_off g2).sane _, by omega⟩, g2, by omega, g4⟩

omit h0

theorem tr_numericLoop (f : Nat) : ∀ {c : Nat} (a : Bytes) (n : Nat) (s : St) (b : Bytes), Sane s b →
    (hang ∨ ∃ l : Int, cfg.stringLimit = some l ∧ n ≤ l.toNat ∧ l.toNat + 2 ≤ c + n ∧ chars s b + l.toNat + 2 ≤ f + n) →
    Tr hang E c (P.whileTrue f (numericBody cfg) (a, n)) s b fun _ s' b' c' => c' = c ∧ Kept s s' ∧ Live s' ∧
      chars s b ≠ 0 ∧ chars s' b' ≤ chars s b := by
  induction f with
  | zero =>
    intro c a n s b hs hr
    refine Tr.diverge (hr.resolve_right ?_)
    rintro ⟨l, -, h1, h2, h3⟩
    omega
  | succ f ih =>
    intro c a n s b hs hr
    have hc : hang ∨ 2 ≤ c := hr.imp_right fun ⟨l, _, h1, h2, h3⟩ => by omega
    refine Tr.Pbind (Q := fun r s' b' c' => (chars s b ≠ 0 → c' = c) ∧ c - 1 ≤ c' ∧ Kept s s' ∧ Live s' ∧
      match r with
      | .inl p => p.2 = n + 1 ∧ Within cfg.stringLimit (n + 1) ∧ chars s' b' + 1 = max (chars s b) 1
      | .inr _ => chars s b ≠ 0 ∧ chars s' b' ≤ chars s b) ?_ ?_
    · unfold numericBody
      refine Tr.bind (tr_peek hs (hc.imp_right fun _ => by omega)) ?_
      rintro x s1 b1 c1 - ⟨h1, h2, h3, h4⟩
      refine Tr.ite (fun hx => ?_) fun hx => ?_
      · rcases h4 with ⟨y, rfl, h5, rfl⟩ | ⟨rfl, -⟩
        · refine Tr.pure ⟨fun _ => rfl, by omega, h1, fun _ => by rw [h3]; rfl, by omega, ?_⟩
          unfold chars at h5 ⊢
          rw [if_pos h2, h3]
          simp only [List.length_singleton]
          omega
        · cases hx
      · have hc1 : hang ∨ 1 ≤ c1 := hc.imp_right fun _ => by
          rcases h4 with ⟨y, -, -, rfl⟩ | ⟨-, -, -, h, -⟩ <;> omega
        have hs1 : Sane s1 b1 := fun _ => by
          rcases h4 with ⟨y, rfl, -⟩ | ⟨rfl, h, -⟩
          · left; rw [h3]; rfl
          · right; exact ⟨h3, h⟩
        refine Tr.bind (tr_read hs1 hc1) ?_
        rintro x2 s2 b2 c2 - ⟨g1, g2, g3⟩
        refine Tr.bind (Q := fun _ s'' b'' c'' => Within cfg.stringLimit (n + 1) ∧ s'' = s2 ∧ b'' = b2 ∧ c'' = c2)
          (Tr.lift (fun _ h => ⟨checkLength_nat.1 h, rfl, rfl, rfl⟩) fun e he => checkLength_nat.2 e he ▸ hE.size) ?_
        rintro _ s3 b3 c3 - ⟨hw, rfl, rfl, rfl⟩
        have hch1 : chars s1 b1 = b1.length + x.length := by unfold chars; rw [if_pos h2, h3]
        refine Tr.pure ⟨?_, ?_, h1.trans g1, live_off g2, rfl, hw, ?_⟩
        · intro hne
          rcases h4 with ⟨y, rfl, h5, rfl⟩ | ⟨rfl, -, h5, -⟩
          · rcases g3 with ⟨z, -, -, h⟩ | ⟨-, -, -, -, h⟩
            · exact h
            · exact h h2
          · exact absurd h5 hne
        · have : c3 = c1 := by
            rcases g3 with ⟨z, -, -, h⟩ | ⟨-, -, -, -, h⟩
            · exact h
            · exact h h2
          rcases h4 with ⟨y, rfl, h5, rfl⟩ | ⟨rfl, -, h5, h6, -⟩ <;> omega
        · rw [chars_off g2]
          rcases h4 with ⟨y, rfl, h5, rfl⟩ | ⟨rfl, rfl, h5, h6, -⟩
          · simp only [List.length_singleton] at hch1
            rcases g3 with ⟨z, -, h, -⟩ | ⟨-, rfl, h, -⟩ <;> omega
          · simp only [List.length_nil] at hch1
            rcases g3 with ⟨z, -, h, -⟩ | ⟨-, rfl, h, -⟩
            · omega
            · simp only [List.length_nil]; omega
    · rintro r s1 b1 c1 - ⟨k1, k2, k3, k4, k5⟩
      cases r with
      | inr x => exact Tr.pure ⟨k1 k5.1, k3, k4, k5.1, k5.2⟩
      | inl p =>
        obtain ⟨a1, n1⟩ := p
        obtain ⟨rfl, hw, hch⟩ := k5
        refine (ih (c := c1) a1 (n + 1) s1 b1 (k4.sane _) ?_).mono ?_
        · refine hr.imp_right ?_
          rintro ⟨l, e1, e2, e3, e4⟩
          have := hw l e1
          exact ⟨l, e1, by omega, by omega, by omega⟩
        · rintro x s2 b2 c2 - ⟨rfl, m1, m2, m3, m4⟩
          have hne : chars s b ≠ 0 := by omega
          exact ⟨k1 hne, k3.trans m1, m2, hne, by omega⟩

theorem asciiDecode_ok {x : Bytes} : ∀ e, asciiDecode x = .error e → E e :=
  fun _ he => asciiDecode_error he ▸ hE.unicode

/-- What a number needs: a limit, calls that return nothing, and room for its loop. -/
def Num (hang : Prop) (cfg : Cfg) (c fuel n : Nat) : Prop :=
  hang ∨ ∃ l : Int, cfg.stringLimit = some l ∧ l.toNat + 3 ≤ c ∧ n + l.toNat + 2 ≤ fuel

omit hE in
theorem Num.le {c fuel n m : Nat} (h : Num hang cfg c fuel n) (hm : m ≤ n) : Num hang cfg c fuel m :=
  h.imp_right fun ⟨l, h1, h2, h3⟩ => ⟨l, h1, h2, by omega⟩
omit hE in
theorem Num.more {c c' fuel n : Nat} (h : Num hang cfg c fuel n) (hc : c ≤ c') : Num hang cfg c' fuel n :=
  h.imp_right fun ⟨l, h1, h2, h3⟩ => ⟨l, h1, by omega, h3⟩
omit hE in
theorem Num.one {c fuel n : Nat} (h : Num hang cfg c fuel n) : hang ∨ 1 ≤ c :=
  h.imp_right fun ⟨l, h1, h2, h3⟩ => by omega
omit hE in
theorem Num.fuel {c fuel n : Nat} (h : Num hang cfg c fuel n) : hang ∨ n + 1 ≤ fuel :=
  h.imp_right fun ⟨l, h1, h2, h3⟩ => by omega

theorem tr_numeric {c : Nat} (fuel : Nat) (s : St) (b : Bytes) (hs : Sane s b) (hn : Num hang cfg (c + 1) fuel (chars s b)) :
    Tr hang E c (readNumericChars cfg fuel) s b fun _ s' b' c' => c' = c ∧ Kept s s' ∧ Live s' ∧
      chars s b ≠ 0 ∧ chars s' b' ≤ chars s b := by
  unfold readNumericChars
  refine Tr.bind (tr_numericLoop cfg hE fuel [] 0 s b hs (hn.imp_right fun ⟨l, h1, h2, h3⟩ => ⟨l, h1, by omega, by omega, by omega⟩)) ?_
  rintro x s1 b1 c1 - h
  exact Tr.lift (fun _ _ => h) (asciiDecode_ok hE)

theorem tr_int {c : Nat} (fuel : Nat) (s : St) (b : Bytes) (hs : Sane s b) (hn : Num hang cfg (c + 1) fuel (chars s b)) :
    Tr hang E c (readJSONInteger cfg fuel) s b fun _ s' b' c' => c' = c ∧ Less s b s' b' ∧ Live s' ∧
      chars s b ≠ 0 := by
  have hone : hang ∨ 1 ≤ c := hn.imp_right fun ⟨l, e1, e2, e3⟩ => by omega
  unfold readJSONInteger
  refine Tr.bind (tr_ctx hs hone hE.invalid) ?_
  rintro _ s1 b1 c1 - ⟨rfl, h1⟩
  refine Tr.bind (tr_quotes h1.sane hone hE.invalid) ?_
  rintro _ s2 b2 c2 - ⟨rfl, h2⟩
  have h12 := h1.trans h2
  refine Tr.bind (tr_numeric cfg hE fuel s2 b2 h2.sane (hn.le cfg h12.chars)) ?_
  rintro x s3 b3 c3 - ⟨rfl, h3, h4, hne, h5⟩
  refine Tr.bind (tr_quotes (h4.sane _) hone hE.invalid) ?_
  rintro _ s4 b4 c4 - ⟨rfl, h6⟩
  cases pyInt x with
  | none => exact Tr.raise hE.invalid
  | some i =>
    have h3' : Less s2 b2 s3 b3 := ⟨h3.1, h3.2 ▸ Alike.refl _, fun _ => h4, h4.sane _, h5⟩
    exact Tr.pure ⟨rfl, (h12.trans h3').trans h6, h6.live h4, by have := h12.chars; omega⟩

variable (h0 : Within cfg.stringLimit 0)
include h0

theorem tr_double (py : Floats) {c : Nat} (fuel : Nat) (s : St) (b : Bytes) (hs : Sane s b)
    (hn : Num hang cfg c fuel (chars s b)) :
    Tr hang E c (readJSONDouble py cfg fuel) s b fun _ s' b' c' => c' = c ∧ Less s b s' b' ∧ Live s' := by
  unfold readJSONDouble
  refine Tr.bind (tr_ctx hs hn.one hE.invalid) ?_
  rintro _ s1 b1 c1 - ⟨rfl, h1⟩
  refine Tr.bind (tr_peek h1.sane hn.one) ?_
  rintro x s2 b2 c2 - ⟨h2, h3, h4, h5⟩
  have hs2 : Sane s2 b2 := fun _ => by
    rcases h5 with ⟨y, rfl, -⟩ | ⟨rfl, h, -⟩
    · left; rw [h4]; rfl
    · right; exact ⟨h4, h⟩
  have hch : chars s2 b2 ≤ chars s1 b1 := by
    have e : chars s2 b2 = b2.length + x.length := by unfold chars; rw [if_pos h3, h4]
    rcases h5 with ⟨y, rfl, h, -⟩ | ⟨rfl, rfl, -⟩
    · rw [e]; simp only [List.length_singleton]; omega
    · rw [e]; exact Nat.zero_le _
  have hc1 := h1.chars
  refine Tr.ite (fun hx => ?_) fun hx => ?_
  · rcases h5 with ⟨y, rfl, -, rfl⟩ | ⟨rfl, -⟩
    · refine Tr.bind (tr_stringBodies cfg hE h0 hn.one fuel s2 b2 hs2 ((Num.fuel cfg hn).imp_right fun _ => by omega)) ?_
      rintro t s3 b3 c3 - ⟨rfl, g1, g2, g3, -⟩
      cases py.parse t with
      | none => exact Tr.raise hE.invalid
      | some v =>
        have k := h2.trans g1
        exact Tr.pure ⟨rfl, h1.trans ⟨k.1, k.2 ▸ Alike.refl _, fun _ => live_off g2, (live_off g2).sane _, by omega⟩, live_off g2⟩
    · cases hx
  · have hc2 : c1 ≤ c2 + 1 := by
      rcases h5 with ⟨y, -, -, h⟩ | ⟨-, -, -, h, -⟩ <;> omega
    have hone : hang ∨ 1 ≤ c2 := hn.imp_right fun ⟨l, e1, e2, e3⟩ => by omega
    have hend : chars s2 b2 ≠ 0 → c2 = c1 ∧ Live s2 := by
      intro hne
      have e : chars s2 b2 = b2.length + x.length := by unfold chars; rw [if_pos h3, h4]
      rcases h5 with ⟨y, rfl, -, h⟩ | ⟨rfl, rfl, -⟩
      · exact ⟨h, fun _ => by rw [h4]; rfl⟩
      · exact absurd e hne
    have rest : ∀ s3 b3, Less s2 b2 s3 b3 → Tr hang E c2 (do
        let text ← readNumericChars cfg fuel
        match py.parse text with
        | some x => pure x
        | none => P.raise TProtocolException.INVALID_DATA) s3 b3 fun _ s' b' c' => c' = c1 ∧ Less s b s' b' ∧ Live s' := by
      intro s3 b3 g
      have gc := g.chars
      refine Tr.bind (tr_numeric cfg hE fuel s3 b3 g.sane (((hn.le cfg (by omega)).more cfg hc2))) ?_
      rintro t s4 b4 c4 - ⟨rfl, k1, k2, k3, k4⟩
      cases py.parse t with
      | none => exact Tr.raise hE.invalid
      | some v =>
        obtain ⟨rfl, -⟩ := hend (by omega)
        have a1 : Less s1 b1 s2 b2 := ⟨h2.1, h2.2 ▸ Alike.refl _, fun _ => (hend (by omega)).2, hs2, hch⟩
        have a2 : Less s3 b3 s4 b4 := ⟨k1.1, k1.2 ▸ Alike.refl _, fun _ => k2, k2.sane _, k4⟩
        exact Tr.pure ⟨rfl, ((h1.trans a1).trans g).trans a2, k2⟩
    refine Tr.get (Tr.ite (fun _ => ?_) fun _ => rest s2 b2 ⟨rfl, Alike.refl _, id, hs2, Nat.le_refl _⟩)
    refine Tr.bind (tr_syntax 34 hs2 hone hE.invalid) ?_
    rintro _ s3 b3 c3 - ⟨g1, g2, g3, rfl⟩
    exact rest s3 b3 ⟨g1.1, g1.2 ▸ Alike.refl _, fun _ => live_off g2, (live_off g2).sane _, by rw [chars_off g2]; omega⟩

omit hE h0 in
theorem b64Loop_cons (pos left pads x : Nat) (t : PyStr) : b64Loop pos left pads (x :: t) =
    if x = 61 then
      if 2 ≤ pos ∧ 4 ≤ pos + (pads + 1) then .ok []
      else b64Loop pos left (if 2 ≤ pos then pads + 1 else pads) t
    else
      match b64Val x with
      | none => b64Loop pos left pads t
      | some v =>
        if pos = 0 then b64Loop 1 v 0 t
        else if pos = 1 then (b64Loop 2 (v % 16) 0 t).map (UInt8.ofNat (left * 4 + v / 16) :: ·)
        else if pos = 2 then (b64Loop 3 (v % 4) 0 t).map (UInt8.ofNat (left * 16 + v / 4) :: ·)
        else (b64Loop 0 0 0 t).map (UInt8.ofNat (left * 64 + v) :: ·) := by
  cases pos <;> rfl

omit hE h0 in
theorem b64Loop_length (t : PyStr) : ∀ (pos left pads : Nat) (r : Bytes), b64Loop pos left pads t = .ok r →
    r.length ≤ (t.filter (· != 61)).length := by
  induction t with
  | nil =>
    intro pos left pads r h
    cases pos with
    | zero => simp only [b64Loop, Except.ok.injEq] at h; subst h; exact Nat.le_refl _
    | succ n => simp [b64Loop] at h
  | cons x t ih =>
    intro pos left pads r h
    have key : ∀ (p l q : Nat) (y : UInt8) (r : Bytes), (b64Loop p l q t).map (y :: ·) = .ok r →
        r.length ≤ (t.filter (· != 61)).length + 1 := by
      intro p l q y r h
      cases hb : b64Loop p l q t with
      | error e => rw [hb] at h; cases h
      | ok z =>
        rw [hb] at h
        simp only [Except.map, Except.ok.injEq] at h
        subst h
        have := ih _ _ _ _ hb
        simp only [List.length_cons]
        omega
    rw [b64Loop_cons] at h
    by_cases hx : x = 61
    · rw [if_pos hx] at h
      rw [List.filter_cons_of_neg (by simp [hx])]
      split at h
      · simp only [Except.ok.injEq] at h; subst h; exact Nat.zero_le _
      · exact ih _ _ _ _ h
    · rw [if_neg hx] at h
      rw [List.filter_cons_of_pos (by simp [hx]), List.length_cons]
      split at h
      · exact Nat.le_succ_of_le (ih _ _ _ _ h)
      · split at h
        · exact Nat.le_succ_of_le (ih _ _ _ _ h)
        · split at h
          · exact key _ _ _ _ _ h
          · split at h
            · exact key _ _ _ _ _ h
            · exact key _ _ _ _ _ h

omit hE h0 in
theorem b64Loop_error (t : PyStr) : ∀ (pos left pads : Nat) (e : Exc), b64Loop pos left pads t = .error e → e = .valueError := by
  induction t with
  | nil =>
    intro pos left pads r h
    cases pos with
    | zero => simp [b64Loop] at h
    | succ n => simp only [b64Loop, Except.error.injEq] at h; exact h.symm
  | cons x t ih =>
    intro pos left pads r h
    have key : ∀ (p l q : Nat) (y : UInt8) (r : Exc), (b64Loop p l q t).map (y :: ·) = .error r → r = .valueError := by
      intro p l q y r h
      cases hb : b64Loop p l q t with
      | error e => rw [hb] at h; simp only [Except.map, Except.error.injEq] at h; subst h; exact ih _ _ _ _ hb
      | ok z => rw [hb] at h; cases h
    rw [b64Loop_cons] at h
    split at h
    · split at h
      · cases h
      · exact ih _ _ _ _ h
    · split at h
      · exact ih _ _ _ _ h
      · split at h
        · exact ih _ _ _ _ h
        · split at h
          · exact key _ _ _ _ _ h
          · split at h
            · exact key _ _ _ _ _ h
            · exact key _ _ _ _ _ h

omit hE h0 in
theorem length_le_utf8Len (t : PyStr) : t.length ≤ utf8Len t := by
  induction t with
  | nil => exact Nat.le_refl _
  | cons x t ih =>
    have : 1 ≤ utf8Width x := by unfold utf8Width; (repeat' split) <;> omega
    simp only [utf8Len, List.map_cons, List.sum_cons, List.length_cons] at *
    omega

omit hE h0 in
theorem b64decode_length {t : PyStr} {n : Nat} {r : Bytes} (h : b64decode (t ++ List.replicate n 61) = .ok r) :
    r.length ≤ utf8Len t := by
  unfold b64decode at h
  split at h
  · have h1 := b64Loop_length _ _ _ _ _ h
    have h2 : (t ++ List.replicate n 61).filter (· != 61) = t.filter (· != 61) := by
      simp
    rw [h2] at h1
    exact Nat.le_trans h1 (Nat.le_trans (List.length_filter_le _ _) (length_le_utf8Len t))
  · cases h

omit hE h0 in
theorem b64decode_error {t : PyStr} {e : Exc} (h : b64decode t = .error e) : e = .valueError := by
  unfold b64decode at h
  split at h
  · exact b64Loop_error _ _ _ _ _ h
  · simp only [Except.error.injEq] at h; exact h.symm

theorem tr_base64 {c : Nat} (hc : hang ∨ 1 ≤ c) (fuel : Nat) (s : St) (b : Bytes)
    (hs : Sane s b) (hf : hang ∨ chars s b + 1 ≤ fuel) :
    Tr hang E c (readJSONBase64 cfg fuel) s b fun x s' b' c' => c' = c ∧ Less s b s' b' ∧ Live s' ∧
      Within cfg.stringLimit x.length := by
  unfold readJSONBase64
  refine Tr.bind (tr_string cfg hE h0 hc fuel s b hs hf) ?_
  rintro t s1 b1 c1 - ⟨rfl, h1, h2, h3, h4⟩
  refine Tr.lift (fun r hr => ⟨rfl, h1, live_off h2, Within.le h4.within ?_⟩) fun e he => b64decode_error he ▸ hE.value
  split at hr
  · exact b64decode_length hr
  · exact b64decode_length (n := 0) (by simpa using hr)

theorem tr_uuid {c : Nat} (hc : hang ∨ 1 ≤ c) (fuel : Nat) (s : St) (b : Bytes)
    (hs : Sane s b) (hf : hang ∨ chars s b + 1 ≤ fuel) :
    Tr hang E c (readUuid cfg fuel) s b fun x s' b' c' => c' = c ∧ Less s b s' b' ∧ Live s' ∧ x.length = 16 := by
  unfold readUuid
  refine Tr.bind (tr_string cfg hE h0 hc fuel s b hs hf) ?_
  rintro t s1 b1 c1 - ⟨rfl, h1, h2, h3, h4⟩
  cases hp : parseUuid t with
  | none => exact Tr.raise hE.value
  | some u =>
    refine Tr.pure ⟨rfl, h1, live_off h2, ?_⟩
    unfold parseUuid at hp
    dsimp only at hp
    split at hp
    · cases hp
    · split at hp
      · simp only [Option.some.injEq] at hp
        subst hp
        simp [uuidBytes, beBytes_length]
      · cases hp

theorem tr_type {c : Nat} (hk : E .keyError) (hc : hang ∨ 1 ≤ c) (fuel : Nat) (s : St) (b : Bytes)
    (hs : Sane s b) (hf : hang ∨ chars s b + 1 ≤ fuel) :
    Tr hang E c (readType cfg fuel) s b fun t s' b' c' => c' = c ∧ Less s b s' b' ∧ s'.hasData = false ∧
      chars s' b' + 1 ≤ chars s b ∧ t ≠ TType.STOP := by
  unfold readType
  refine Tr.bind (tr_string cfg hE h0 hc fuel s b hs hf) ?_
  rintro t s1 b1 c1 - ⟨rfl, h1, h2, h3, h4⟩
  refine Tr.lift (fun r hr => ⟨rfl, h1, h2, h3, ?_⟩) fun e he => ?_
  · unfold typeOf at hr
    split at hr
    · rename_i x hx
      simp only [Except.ok.injEq] at hr
      subst hr
      have := List.mem_of_find?_eq_some hx
      have all : ∀ y ∈ ctypes, y.1 ≠ TType.STOP := by decide
      exact all x this
    · cases hr
  · unfold typeOf at he
    split at he
    · cases he
    · simp only [Except.error.injEq] at he; exact he ▸ hk

omit h0

theorem tr_open {c : Nat} (hc : hang ∨ 1 ≤ c) (x : UInt8) (k : Ctx) (s : St) (b : Bytes) (hs : Sane s b) :
    Tr hang E c (do ctxRead; readSyntaxChar x; P.modify (push k)) s b fun _ s' b' c' => c' = c ∧ s'.hasData = false ∧
      b'.length + 1 ≤ chars s b ∧ s'.depth = s.depth ∧ ∃ stk, s'.stack = k :: stk ∧ Alike s.stack stk := by
  refine Tr.bind (tr_ctx hs hc hE.invalid) ?_
  rintro _ s1 b1 c1 - ⟨rfl, h1⟩
  refine Tr.bind (tr_syntax x h1.sane hc hE.invalid) ?_
  rintro _ s2 b2 c2 - ⟨g1, g2, g3, rfl⟩
  have := h1.chars
  exact Tr.modify ⟨rfl, g2, by omega, g1.1.trans h1.depth, s2.stack, rfl, g1.2 ▸ h1.stack⟩

theorem tr_close {c : Nat} (hc : hang ∨ 1 ≤ c) (x : UInt8) (s : St) (b : Bytes) (hs : Sane s b) (k : Ctx) (stk : List Ctx)
    (hk : s.stack = k :: stk) :
    Tr hang E c (do readSyntaxChar x; popR) s b fun _ s' b' c' => c' = c ∧ s'.hasData = false ∧
      b'.length + 1 ≤ chars s b ∧ s'.depth = s.depth ∧ s'.stack = stk := by
  refine Tr.bind (tr_syntax x hs hc hE.invalid) ?_
  rintro _ s2 b2 c2 - ⟨g1, g2, g3, rfl⟩
  unfold popR
  refine Tr.get ?_
  rw [g1.2, hk]
  exact Tr.set ⟨rfl, g2, by omega, g1.1, rfl⟩


/-- Inside one or two more contexts. -/
def In1 (s0 s : St) : Prop := Live s ∧ s.depth = s0.depth ∧ ∃ k stk, s.stack = k :: stk ∧ Alike s0.stack stk
def In2 (s0 s : St) : Prop := Live s ∧ s.depth = s0.depth ∧ ∃ k1 k2 stk, s.stack = k1 :: k2 :: stk ∧ Alike s0.stack stk

omit hE in
theorem alike_cons {k : Ctx} {stk stk' : List Ctx} (h : Alike (k :: stk) stk') : ∃ k', stk' = k' :: stk := by
  cases stk' with
  | nil => exact absurd (h.2.mp rfl) (by simp)
  | cons k' t => exact ⟨k', by rw [show t = stk from h.1]⟩

omit hE in
theorem In1.same {s0 s s' : St} (h : In1 s0 s) (g : Same s s') : In1 s0 s' := by
  obtain ⟨h1, h2, k, stk, h3, h4⟩ := h
  have hs := g.stack
  rw [h3] at hs
  obtain ⟨k', e⟩ := alike_cons hs
  exact ⟨g.live h1, g.depth.trans h2, k', stk, e, h4⟩

omit hE in
theorem In2.same {s0 s s' : St} (h : In2 s0 s) (g : Same s s') : In2 s0 s' := by
  obtain ⟨h1, h2, k, k2, stk, h3, h4⟩ := h
  have hs := g.stack
  rw [h3] at hs
  obtain ⟨k', e⟩ := alike_cons hs
  exact ⟨g.live h1, g.depth.trans h2, k', k2, stk, e, h4⟩

omit hE in
theorem Less.same {s s' : St} {b b' : Bytes} (h : Less s b s' b') : Same s s' := ⟨h.depth, h.stack, h.live⟩

omit hE in
theorem In1.less {s0 s s' : St} {b b' : Bytes} (h : In1 s0 s) (g : Less s b s' b') : In1 s0 s' := h.same g.same
omit hE in
theorem In2.less {s0 s s' : St} {b b' : Bytes} (h : In2 s0 s) (g : Less s b s' b') : In2 s0 s' := h.same g.same

/-- What the readers of `TJSONProtocol` may raise. -/
def catalogue : List Exc := [.typeError, .valueError, .unicodeError, .keyError, TTransportException.SIZE_LIMIT,
  TProtocolException.INVALID_DATA, TProtocolException.DEPTH_LIMIT]

end

theorem chars_of {E : Exc → Prop} (h : ∀ e ∈ catalogue, E e) : Chars E :=
  ⟨h _ (by simp [catalogue]), h _ (by simp [catalogue]), h _ (by simp [catalogue]), h _ (by simp [catalogue]),
    h _ (by simp [catalogue])⟩

section
variable (cfg : Cfg) (hcat : ∀ e ∈ catalogue, E e) (h0 : Within cfg.stringLimit 0) (fuel : Nat) (L : Lim) (cap : Nat)
  (hcap : L.cap = some cap) (hn : Num L.hang cfg L.slack fuel (cap + 1))
include hcat h0 hcap hn

omit h0 hcat in
theorem num_of {s : St} {b : Bytes} (hs : Live s) (hb : L.fits b) : Num L.hang cfg L.slack fuel (chars s b) := by
  refine hn.le cfg ?_
  have := hs.chars_le b
  have := hb cap hcap
  omega

theorem out_int (s : St) (b : Bytes) (hs : Live s) :
    Out L E (readJSONInteger cfg fuel) s b fun _ s' _ => Same s s' := by
  refine Tr.out fun hb => (tr_int cfg (chars_of hcat) fuel s b (hs.sane b) ((num_of cfg fuel L cap hcap hn hs hb).more cfg (by omega))).mono ?_
  rintro i s' b' c' - ⟨h1, h2, h3, -⟩
  exact ⟨h1, h2.same⟩

theorem out_fieldBegin (s0 s : St) (b : Bytes) (h1 : In1 s0 s) (h2 : s.hasData = false) :
    Out L E (readFieldBegin cfg fuel) s b fun a s' b' =>
      b'.length + 1 ≤ b.length ∧ ((a.1 = TType.STOP ∧ In1 s0 s') ∨ (a.1 ≠ TType.STOP ∧ In2 s0 s')) := by
  have hE := chars_of hcat
  refine Tr.out fun hb => ?_
  have num := num_of cfg fuel L cap hcap hn h1.1 hb
  have hch := chars_off h2 b
  unfold readFieldBegin
  refine Tr.bind (tr_peek (h1.1.sane b) num.one) ?_
  rintro x s1 b1 c1 - ⟨g1, g2, g3, g4⟩
  have hc1 : L.slack ≤ c1 + 1 := by rcases g4 with ⟨y, -, -, h⟩ | ⟨-, -, -, h, -⟩ <;> omega
  have e1 : chars s1 b1 = b1.length + x.length := by unfold chars; rw [if_pos g2, g3]
  have hs1 : Sane s1 b1 := fun _ => by
    rcases g4 with ⟨y, rfl, -⟩ | ⟨rfl, h, -⟩
    · left; rw [g3]; rfl
    · right; exact ⟨g3, h⟩
  have hle : chars s1 b1 ≤ chars s b := by
    rw [e1]
    rcases g4 with ⟨y, rfl, h, -⟩ | ⟨rfl, rfl, -⟩
    · simp only [List.length_singleton]; omega
    · exact Nat.zero_le _
  have hgo : chars s1 b1 ≠ 0 → c1 = L.slack ∧ In1 s0 s1 := by
    intro hne
    rcases g4 with ⟨y, rfl, -, h⟩ | ⟨rfl, rfl, -⟩
    · exact ⟨h, h1.same (g1.same fun _ => by rw [g3]; rfl)⟩
    · exact absurd e1 hne
  refine Tr.ite (fun hx => ?_) fun hx => ?_
  · subst hx
    rcases g4 with ⟨y, -, h, rfl⟩ | ⟨h, -⟩
    · exact Tr.pure ⟨rfl, by omega, .inl ⟨rfl, (hgo (by rw [e1]; simp)).2⟩⟩
    · cases h
  · refine Tr.bind (tr_int cfg hE fuel s1 b1 hs1 ((num.le cfg hle).more cfg hc1)) ?_
    rintro i s2 b2 c2 - ⟨rfl, k1, k2, k3⟩
    obtain ⟨rfl, hin⟩ := hgo k3
    have hk := k1.chars
    refine Tr.bind (tr_open hE num.one 123 (.pair true true) s2 b2 (k2.sane _)) ?_
    rintro _ s3 b3 c3 - ⟨rfl, m1, m2, m3, stk, m4, m5⟩
    have hin2 := hin.less k1
    have hch3 : chars s3 b3 = b3.length := chars_off m1 b3
    refine Tr.bind (tr_type cfg hE h0 (hcat _ (by simp [catalogue])) num.one fuel s3 b3 ((live_off m1).sane _)
      ((num.le cfg (by omega)).fuel cfg)) ?_
    rintro t s4 b4 c4 - ⟨rfl, n1, n2, n3, n4⟩
    refine Tr.pure ⟨rfl, ?_, .inr ⟨n4, In2.less (s := s3) ?_ n1⟩⟩
    · rw [chars_off n2] at n3; omega
    · obtain ⟨q1, q2, q, qs, q3, q4⟩ := hin2
      rw [q3] at m5
      obtain ⟨q', rfl⟩ := alike_cons m5
      exact ⟨live_off m1, m3.trans q2, _, q', qs, m4, q4⟩

theorem out_listBegin (s : St) (b : Bytes) (hs : Live s) :
    Out L E (readCollectionBegin cfg fuel) s b fun _ s' b' => b'.length + 1 ≤ b.length ∧ In1 s s' := by
  have hE := chars_of hcat
  refine Tr.out fun hb => ?_
  have num := num_of cfg fuel L cap hcap hn hs hb
  have hcl := hs.chars_le b
  unfold readCollectionBegin
  refine Tr.bind (tr_open hE num.one 91 (.list true) s b (hs.sane _)) ?_
  rintro _ s1 b1 c1 - ⟨rfl, m1, m2, m3, stk, m4, m5⟩
  have hch1 : chars s1 b1 = b1.length := chars_off m1 b1
  refine Tr.bind (tr_type cfg hE h0 (hcat _ (by simp [catalogue])) num.one fuel s1 b1 ((live_off m1).sane _)
    ((num.le cfg (by omega)).fuel cfg)) ?_
  rintro t s2 b2 c2 - ⟨rfl, n1, n2, n3, n4⟩
  refine Tr.bind (tr_int cfg hE fuel s2 b2 n1.sane ((num.le cfg (by omega)).more cfg (by omega))) ?_
  rintro i s3 b3 c3 hb3 ⟨rfl, k1, k2, -⟩
  refine Tr.pure ⟨rfl, ?_, In1.less (In1.less (s := s1) ⟨live_off m1, m3, _, stk, m4, m5⟩ n1) k1⟩
  have := hb3.length_le
  rw [chars_off n2] at n3
  omega

theorem out_mapBegin (s : St) (b : Bytes) (hs : Live s) :
    Out L E (readMapBegin cfg fuel) s b fun _ s' b' => b'.length + 1 ≤ b.length ∧ In2 s s' := by
  have hE := chars_of hcat
  refine Tr.out fun hb => ?_
  have num := num_of cfg fuel L cap hcap hn hs hb
  have hcl := hs.chars_le b
  unfold readMapBegin
  refine Tr.bind (tr_open hE num.one 91 (.list true) s b (hs.sane _)) ?_
  rintro _ s1 b1 c1 - ⟨rfl, m1, m2, m3, stk, m4, m5⟩
  have hch1 : chars s1 b1 = b1.length := chars_off m1 b1
  refine Tr.bind (tr_type cfg hE h0 (hcat _ (by simp [catalogue])) num.one fuel s1 b1 ((live_off m1).sane _)
    ((num.le cfg (by omega)).fuel cfg)) ?_
  rintro t s2 b2 c2 - ⟨rfl, n1, n2, n3, n4⟩
  refine Tr.bind (tr_type cfg hE h0 (hcat _ (by simp [catalogue])) num.one fuel s2 b2 n1.sane
    ((num.le cfg (by omega)).fuel cfg)) ?_
  rintro t2 s3 b3 c3 - ⟨rfl, p1, p2, p3, p4⟩
  refine Tr.bind (tr_int cfg hE fuel s3 b3 p1.sane ((num.le cfg (by omega)).more cfg (by omega))) ?_
  rintro i s4 b4 c4 - ⟨rfl, k1, k2, -⟩
  have hk := k1.chars
  refine Tr.bind (tr_open hE num.one 123 (.pair true true) s4 b4 (k2.sane _)) ?_
  rintro _ s5 b5 c5 - ⟨rfl, r1, r2, r3, stk2, r4, r5⟩
  obtain ⟨q1, q2, q, qs, q3, q4⟩ := In1.less (In1.less (In1.less (s0 := s) (s := s1) ⟨live_off m1, m3, _, stk, m4, m5⟩ n1) p1) k1
  rw [q3] at r5
  obtain ⟨q', rfl⟩ := alike_cons r5
  exact Tr.pure ⟨rfl, by omega, live_off r1, r3.trans q2, _, q', qs, r4, q4⟩

omit h0 in
theorem out_close (x : UInt8) (s0 s : St) (b : Bytes) (h : In1 s0 s) :
    Out L E (do readSyntaxChar x; popR) s b fun _ s' _ => Same s0 s' ∧ s'.hasData = false := by
  obtain ⟨h1, h2, k, stk, h3, h4⟩ := h
  refine Tr.out fun hb => (tr_close (chars_of hcat) (num_of cfg fuel L cap hcap hn h1 hb).one x s b (h1.sane _) k stk h3).mono ?_
  rintro _ s' b' c' - ⟨g1, g2, g3, g4, g5⟩
  exact ⟨g1, ⟨g4.trans h2, g5 ▸ h4, fun _ => live_off g2⟩, g2⟩

omit h0 in
theorem out_close2 (x : UInt8) (s0 s : St) (b : Bytes) (h : In2 s0 s) :
    Out L E (do readSyntaxChar x; popR) s b fun _ s' _ => In1 s0 s' ∧ s'.hasData = false := by
  obtain ⟨h1, h2, k, k2, stk, h3, h4⟩ := h
  refine Tr.out fun hb => (tr_close (chars_of hcat) (num_of cfg fuel L cap hcap hn h1 hb).one x s b (h1.sane _) k _ h3).mono ?_
  rintro _ s' b' c' - ⟨g1, g2, g3, g4, g5⟩
  exact ⟨g1, ⟨live_off g2, g4.trans h2, k2, stk, g5, h4⟩, g2⟩

/-- The reading operations of `TJSONProtocol` on arbitrary bytes. -/
def safeOps (py : Floats) : SafeOps (rd py cfg fuel) L E (fun _ _ => True) cfg.stringLimit none where
  Can _ s := Live s
  Same := Same
  Fld s0 s := In1 s0 s ∧ s.hasData = false
  Fval s0 _ s := In2 s0 s
  Fin := In1
  Elt := In1
  Pr := In2
  same_refl := Same.refl
  same_fval _ _ _ _ h g := h.same g
  same_elt _ _ _ h g := h.same g
  same_pr _ _ _ h g := h.same g
  fval_can _ _ _ h := h.1
  elt_can _ _ _ h := h.1
  pr_can _ _ _ h := h.1
  can_depth _ _ _ h := h
  same_depth s s' h := by
    refine ⟨?_, h.stack, fun hl => h.live hl⟩
    have e : s'.depth = s.depth + 1 := h.depth
    show s'.depth - 1 = s.depth
    omega
  depthLimit := hcat _ (by simp [catalogue])
  invalidData := hcat _ (by simp [catalogue])
  structBegin s b hs := Tr.out fun hb =>
    (tr_open (chars_of hcat) (num_of cfg fuel L cap hcap hn hs hb).one 123 (.pair true true) s b (hs.sane _)).mono
      fun _ s' _ _ _ ⟨m0, m1, m2, m3, stk, m4, m5⟩ => ⟨m0, ⟨live_off m1, m3, _, stk, m4, m5⟩, m1⟩
  structEnd s0 s b h := (out_close cfg hcat fuel L cap hcap hn 125 s0 s b h).mono fun _ _ _ _ h => h.1
  fieldBegin s0 s b h := out_fieldBegin cfg hcat h0 fuel L cap hcap hn s0 s b h.1 h.2
  fieldEnd s0 _ s b h := out_close2 cfg hcat fuel L cap hcap hn 125 s0 s b h
  mapBegin s b hs := (out_mapBegin cfg hcat h0 fuel L cap hcap hn s b hs).mono
    fun _ _ _ _ h => ⟨h.1, (fun _ h => by cases h), h.2⟩
  mapEnd s0 s b h := Out.bind (out_close2 cfg hcat fuel L cap hcap hn 125 s0 s b h) fun _ s1 b1 _ h1 =>
    (out_close cfg hcat fuel L cap hcap hn 93 s0 s1 b1 h1.1).mono fun _ _ _ _ h => h.1
  listBegin s b hs := (out_listBegin cfg hcat h0 fuel L cap hcap hn s b hs).mono
    fun _ _ _ _ h => ⟨h.1, (fun _ h => by cases h), h.2⟩
  listEnd s0 s b h := (out_close cfg hcat fuel L cap hcap hn 93 s0 s b h).mono fun _ _ _ _ h => h.1
  setBegin s b hs := (out_listBegin cfg hcat h0 fuel L cap hcap hn s b hs).mono
    fun _ _ _ _ h => ⟨h.1, (fun _ h => by cases h), h.2⟩
  setEnd s0 s b h := (out_close cfg hcat fuel L cap hcap hn 93 s0 s b h).mono fun _ _ _ _ h => h.1
  bool s b hs := Out.bind (out_int cfg hcat h0 fuel L cap hcap hn s b hs) fun _ _ _ _ h => Out.pure h
  byte s b hs := (out_int cfg hcat h0 fuel L cap hcap hn s b hs).mono fun _ _ _ _ h => ⟨h, trivial⟩
  i16 s b hs := (out_int cfg hcat h0 fuel L cap hcap hn s b hs).mono fun _ _ _ _ h => ⟨h, trivial⟩
  i32 s b hs := (out_int cfg hcat h0 fuel L cap hcap hn s b hs).mono fun _ _ _ _ h => ⟨h, trivial⟩
  i64 s b hs := (out_int cfg hcat h0 fuel L cap hcap hn s b hs).mono fun _ _ _ _ h => ⟨h, trivial⟩
  double s b hs := Tr.out fun hb =>
    (tr_double cfg (chars_of hcat) h0 py fuel s b (hs.sane _) (num_of cfg fuel L cap hcap hn hs hb)).mono
      fun _ _ _ _ _ h => ⟨h.1, h.2.1.same⟩
  string s b hs := Tr.out fun hb =>
    (tr_string cfg (chars_of hcat) h0 (num_of cfg fuel L cap hcap hn hs hb).one fuel s b (hs.sane _)
      ((num_of cfg fuel L cap hcap hn hs hb).fuel cfg)).mono
      fun _ _ _ _ _ h => ⟨h.1, h.2.1.same, h.2.2.2.2.scalar, h.2.2.2.2.within⟩
  binary s b hs := Tr.out fun hb =>
    (tr_base64 cfg (chars_of hcat) h0 (num_of cfg fuel L cap hcap hn hs hb).one fuel s b (hs.sane _)
      ((num_of cfg fuel L cap hcap hn hs hb).fuel cfg)).mono
      fun _ _ _ _ _ h => ⟨h.1, h.2.1.same, h.2.2.2⟩
  uuid s b hs := Tr.out fun hb =>
    (tr_uuid cfg (chars_of hcat) h0 (num_of cfg fuel L cap hcap hn hs hb).one fuel s b (hs.sane _)
      ((num_of cfg fuel L cap hcap hn hs hb).fuel cfg)).mono
      fun _ _ _ _ _ h => ⟨h.1, h.2.1.same, h.2.2.2⟩

end
end
end Thrift.Json.Arb
