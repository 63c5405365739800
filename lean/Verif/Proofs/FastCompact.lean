import Verif.Proofs.StrictRefines
import Verif.Proofs.FastAgree
import Verif.Proofs.FastLaws
import Verif.Proofs.SafeOps
/-
The extension and the strict Python reader over the compact protocol, side by side on arbitrary bytes.
-/

namespace Thrift.Fast
open Spec

namespace CompactAgree

/-- Exceptions that only the strict reader raises -/
def PyOnly (e : Exc) : Prop := e = .unicodeError ∨ e = TTransportException.SIZE_LIMIT ∨ e = .overflowError
/-- Exceptions that only the extension raises -/
def XOnly (e : Exc) : Prop := e = .typeError ∨ e = TProtocolException.DEPTH_LIMIT ∨ e = .overflowError

section
variable {α α' β β' : Type}

/-- How a run of the strict reader and a run of the extension compare. Runs that do not end are not compared. -/
def Agr (Q : α → α' → Compact.St → CSt → Prop) : Res Compact.St α → Res CSt α' → Prop
  | some ((.ok a, s), r), some ((.ok b, s'), r') => Q a b s s' ∧ r = r'
  | some ((.ok _, _), _), some ((.error e, _), _) => XOnly e
  | some ((.error e, _), _), some ((.ok _, _), _) => PyOnly e
  | _, _ => True

variable {Q : α → α' → Compact.St → CSt → Prop} {Q' : β → β' → Compact.St → CSt → Prop}

theorem Agr.both {e e' : Exc} {s : Compact.St} {s' : CSt} {r r' : Bytes} : Agr Q (some ((.error e, s), r)) (some ((.error e', s'), r')) := trivial

theorem Agr.ext {p : Res Compact.St α} {e : Exc} {s' : CSt} {r' : Bytes} (h : XOnly e) : Agr Q p (some ((.error e, s'), r')) := by
  rcases p with _ | ⟨⟨_ | _, _⟩, _⟩
  · trivial
  · trivial
  · exact h

theorem Agr.py {x : Res CSt α'} {e : Exc} {s : Compact.St} {r : Bytes} (h : PyOnly e) : Agr Q (some ((.error e, s), r)) x := by
  rcases x with _ | ⟨⟨_ | _, _⟩, _⟩
  · trivial
  · trivial
  · exact h

theorem Agr.none_left {x : Res CSt α'} : Agr Q none x := by
  rcases x with _ | ⟨⟨_ | _, _⟩, _⟩ <;> trivial

theorem Agr.none_right {p : Res Compact.St α} : Agr Q p none := by
  rcases p with _ | ⟨⟨_ | _, _⟩, _⟩ <;> trivial

theorem Agr.andThen {p : Res Compact.St α} {x : Res CSt α'} {f : α → Compact.St → Bytes → Res Compact.St β} {f' : α' → CSt → Bytes → Res CSt β'}
    (h : Agr Q p x) (hf : ∀ a b s s' r, Q a b s s' → Agr Q' (f a s r) (f' b s' r)) : Agr Q' (p.andThen f) (x.andThen f') := by
  rcases p with _ | ⟨⟨e | a, s⟩, r⟩
  · exact Agr.none_left
  all_goals
    rcases x with _ | ⟨⟨e' | b, s'⟩, r'⟩
    · exact Agr.none_right
  · trivial
  · exact Agr.py h
  · exact Agr.ext h
  · obtain ⟨h1, rfl⟩ := h
    exact hf _ _ _ _ _ h1

theorem Agr.mono {Q2 : α → α' → Compact.St → CSt → Prop} {p : Res Compact.St α} {x : Res CSt α'} (h : Agr Q p x)
    (hQ : ∀ a b s s', Q a b s s' → Q2 a b s s') : Agr Q2 p x := by
  rcases p with _ | ⟨⟨e | a, s⟩, r⟩
  · exact Agr.none_left
  all_goals
    rcases x with _ | ⟨⟨e' | b, s'⟩, r'⟩
    · exact Agr.none_right
  · trivial
  · exact h
  · exact h
  · exact ⟨hQ _ _ _ _ h.1, h.2⟩

theorem Agr.bind {m : P Compact.St α} {m' : P CSt α'} {f : α → P Compact.St β} {f' : α' → P CSt β'} {s : Compact.St} {s' : CSt} {r : Bytes}
    (h : Agr Q (exec m s r) (exec m' s' r)) (hf : ∀ a b s s' r, Q a b s s' → Agr Q' (exec (f a) s r) (exec (f' b) s' r)) :
    Agr Q' (exec (m >>= f) s r) (exec (m' >>= f') s' r) := by
  rw [exec_bind, exec_bind]
  exact Agr.andThen h hf

/-- Python goes on, without reading. -/
theorem Agr.left {Q' : β → α' → Compact.St → CSt → Prop} {p : Res Compact.St α} {x : Res CSt α'} {f : α → Compact.St → Bytes → Res Compact.St β}
    (h : Agr Q p x) (hf : ∀ a b s s' r, Q a b s s' → Agr Q' (f a s r) (some ((.ok b, s'), r))) : Agr Q' (p.andThen f) x := by
  rcases p with _ | ⟨⟨e | a, s⟩, r⟩
  · exact Agr.none_left
  all_goals
    rcases x with _ | ⟨⟨e' | b, s'⟩, r'⟩
    · exact Agr.none_right
  · trivial
  · exact Agr.py h
  · exact Agr.ext h
  · obtain ⟨h1, rfl⟩ := h
    exact hf _ _ _ _ _ h1

theorem Agr.tryDec {Q' : α → α' → Compact.St → CSt → Prop} {p : P Compact.St α} {x : P CSt α'} {s : Compact.St} {s' : CSt} {r : Bytes}
    (h : Agr Q (exec p s r) (exec x s' r)) (hQ : ∀ a b s s', Q a b s s' → Q' a b (decDepth s) (decDepth s')) :
    Agr Q' (exec (P.tryFinally p decDepth) s r) (exec (P.tryFinally x decDepth) s' r) := by
  rw [exec_tryFinally, exec_tryFinally]
  generalize exec p s r = p at h
  generalize exec x s' r = x at h
  rcases p with _ | ⟨⟨e | a, s⟩, r⟩
  · exact Agr.none_left
  all_goals
    rcases x with _ | ⟨⟨e' | b, s'⟩, r'⟩
    · exact Agr.none_right
  · trivial
  · exact h
  · exact h
  · exact ⟨hQ _ _ _ _ h.1, h.2⟩

theorem Agr.tryDecExt {Q' : α → α' → Compact.St → CSt → Prop} {p : Res Compact.St α} {x : P CSt α'} {s' : CSt} {r : Bytes}
    (h : Agr Q p (exec x s' r)) (hQ : ∀ a b s s', Q a b s s' → Q' a b s (decDepth s')) : Agr Q' p (exec (P.tryFinally x decDepth) s' r) := by
  rw [exec_tryFinally]
  generalize exec x s' r = x at h
  rcases p with _ | ⟨⟨e | a, s⟩, r⟩
  · exact Agr.none_left
  all_goals
    rcases x with _ | ⟨⟨e' | b, s'⟩, r'⟩
    · exact Agr.none_right
  · trivial
  · exact h
  · exact h
  · exact ⟨hQ _ _ _ _ h.1, h.2⟩

theorem Agr.repeatN_ {I : Compact.St → CSt → Prop} {m : P Compact.St Unit} {m' : P CSt Unit}
    (h : ∀ s s' r, I s s' → Agr (fun _ _ s s' => I s s') (exec m s r) (exec m' s' r)) :
    (n : Nat) → ∀ s s' r, I s s' → Agr (fun _ _ s s' => I s s') (exec (P.repeatN_ n m) s r) (exec (P.repeatN_ n m') s' r)
  | 0, _, _, _, hi => ⟨hi, rfl⟩
  | n + 1, s, s', r, hi => Agr.bind (f := fun _ => P.repeatN_ n m) (f' := fun _ => P.repeatN_ n m') (h s s' r hi) fun _ _ s s' r hi => Agr.repeatN_ h n s s' r hi

theorem Agr.repeatN {I : Compact.St → CSt → Prop} {m : P Compact.St α} {m' : P CSt α}
    (h : ∀ s s' r, I s s' → Agr (fun a b s s' => a = b ∧ I s s') (exec m s r) (exec m' s' r)) :
    (n : Nat) → ∀ s s' r, I s s' → Agr (fun a b s s' => a = b ∧ I s s') (exec (P.repeatN n m) s r) (exec (P.repeatN n m') s' r)
  | 0, _, _, _, hi => ⟨⟨rfl, hi⟩, rfl⟩
  | n + 1, s, s', r, hi =>
    Agr.bind (f := fun a => P.bind (P.repeatN n m) fun as => P.pure (a :: as)) (f' := fun a => P.bind (P.repeatN n m') fun as => P.pure (a :: as))
      (h s s' r hi) fun a b s s' r hab =>
        Agr.bind (f := fun as => P.pure (a :: as)) (f' := fun as => P.pure (b :: as)) (Agr.repeatN h n s s' r hab.2) fun as bs s s' r hl =>
          ⟨⟨by rw [hab.1, hl.1], hl.2⟩, rfl⟩

theorem Agr.whileTrue {I : α → α' → Compact.St → CSt → Prop} {body : α → P Compact.St (α ⊕ β)} {body' : α' → P CSt (α' ⊕ β')}
    (h : ∀ a b s s' r, I a b s s' → Agr (fun c c' s s' => (∃ a b, c = .inl a ∧ c' = .inl b ∧ I a b s s') ∨ (∃ a b, c = .inr a ∧ c' = .inr b ∧ Q' a b s s'))
      (exec (body a) s r) (exec (body' b) s' r)) :
    (n n' : Nat) → ∀ a b s s' r, I a b s s' → Agr Q' (exec (P.whileTrue n body a) s r) (exec (P.whileTrue n' body' b) s' r)
  | 0, _, _, _, _, _, _, _ => Agr.none_left
  | _ + 1, 0, _, _, _, _, _, _ => Agr.none_right
  | n + 1, n' + 1, a, b, s, s', r, hi => by
    refine Agr.bind (h a b s s' r hi) fun c c' s s' r hc => ?_
    rcases hc with ⟨a, b, rfl, rfl, hab⟩ | ⟨a, b, rfl, rfl, hab⟩
    · exact Agr.whileTrue h n n' a b s s' r hab
    · exact ⟨hab, rfl⟩
end

theorem exec_incDepth {σ : Type} [HasDepth σ] (s : σ) (r : Bytes) :
    exec incDepth s r = if HasDepth.depth s < 64 then some ((.ok (), HasDepth.setDepth (HasDepth.depth s + 1) s), r)
      else some ((.error TProtocolException.DEPTH_LIMIT, s), r) := by
  unfold incDepth
  simp only [exec_bind, exec_modify, Res.andThen_ok, exec_get]
  by_cases h : HasDepth.depth s < 64
  · rw [if_pos h, if_neg (by rw [HasDepth.depth_set]; unfold recursionLimit; omega)]
    rfl
  · rw [if_neg h, if_pos (by rw [HasDepth.depth_set]; unfold recursionLimit; omega)]
    simp only [exec_bind, exec_modify, Res.andThen_ok, exec_raise]
    rw [HasDepth.depth_set, HasDepth.set_set, show HasDepth.depth s + 1 - 1 = HasDepth.depth s by omega, HasDepth.set_depth]

/-! ### Numbers and bytes -/

section
variable {s : Compact.St} {s' : CSt}

theorem agr_read (n : Int) (r : Bytes) (hn : 0 ≤ n) :
    Agr (fun a b t t' => (a = b ∧ a.length = n.toNat) ∧ t = s ∧ t' = s') (exec (P.readAll n : P Compact.St Bytes) s r) (exec (readBytes n) s' r) := by
  rw [exec_readAll, exec_readBytes, if_neg (show ¬ n < 0 by omega)]
  by_cases h : n.toNat ≤ r.length
  · rw [if_pos h, if_pos h]
    exact ⟨⟨⟨rfl, by simp; omega⟩, rfl, rfl⟩, rfl⟩
  · rw [if_neg h, if_neg h]
    trivial

theorem exec_byte {σ : Type} (s : σ) (r : Bytes) : exec (P.readAll 1 : P σ Bytes) s r = match r with
    | [] => some ((.error .eof, s), [])
    | x :: r => some ((.ok [x], s), r) := by
  rw [exec_readAll]
  cases r <;> simp

theorem exec_byte' {σ : Type} (s : σ) (r : Bytes) : exec (readBytes 1 : P σ Bytes) s r = match r with
    | [] => some ((.error .eof, s), [])
    | x :: r => some ((.ok [x], s), r) := by
  rw [exec_readBytes]
  cases r <;> simp

theorem agr_loop (bits : Nat) : ∀ (left k : Nat), k ≤ left → ∀ (v sh : Nat) (r : Bytes),
    Agr (fun a b t t' => (0 ≤ a ∧ b = a.toNat % 2 ^ bits) ∧ t = s ∧ t' = s') (exec (Compact.readVarintLoop left v sh) s r)
      (exec (readVarintLoop bits k (v % 2 ^ bits) sh) s' r)
  | 0, 0, _, _, _, _ => trivial
  | _ + 1, 0, _, _, _, _ => Agr.ext (.inr (.inr rfl))
  | left + 1, k + 1, hk, v, sh, r => by
    rw [Compact.readVarintLoop, readVarintLoop, exec_bind, exec_bind, exec_byte, exec_byte']
    cases r with
    | nil => trivial
    | cons x r =>
      dsimp only
      rw [Res.andThen_ok, Res.andThen_ok, Compact.beNat_single]
      have hx := x.toNat_lt
      have h7 : (x.toNat >>> 7 = 0) ↔ ¬ x.toNat &&& 0x80 ≠ 0 := by
        rw [bit7, Nat.shiftRight_eq_div_pow]
        omega
      have hm : ∀ y, (v % 2 ^ bits ||| y) % 2 ^ bits = (v ||| y) % 2 ^ bits := by
        intro y
        rw [Nat.or_mod_two_pow, Nat.or_mod_two_pow, Nat.mod_mod]
      by_cases hb : x.toNat &&& 0x80 ≠ 0
      · rw [if_neg (fun h => h7.1 h hb), if_pos hb, hm]
        exact agr_loop bits left k (by omega) _ _ r
      · rw [if_pos (h7.2 hb), if_neg hb, hm]
        have : x.toNat &&& 0x7f = x.toNat := by
          have : ¬ 128 ≤ x.toNat := fun h => hb ((bit7 x).2 h)
          rw [Compact.byte_and]
          omega
        rw [this]
        exact ⟨⟨⟨by omega, rfl⟩, rfl, rfl⟩, rfl⟩

theorem agr_varint (bits k : Nat) (hk : k ≤ 10) (r : Bytes) :
    Agr (fun a b t t' => (0 ≤ a ∧ b = a.toNat % 2 ^ bits) ∧ t = s ∧ t' = s') (exec Compact.readVarint s r) (exec (readVarintLoop bits k 0 0) s' r) := by
  have := agr_loop (s := s) (s' := s') bits 10 k hk 0 0 r
  rwa [Nat.zero_mod] at this

/-- The zigzag of a number of the given size -/
theorem fromZigZag_of {bits : Nat} {n : Int} (hb : 0 < bits) (h0 : 0 ≤ n) (h : InRange bits (Compact.fromZigZag n)) :
    n.toNat < 2 ^ bits ∧ fromZigZag bits n.toNat = Compact.fromZigZag n := by
  obtain ⟨i, hi⟩ : ∃ i : Int, Spec.Compact.zigzag i = n.toNat := by
    refine ⟨if n % 2 = 0 then n / 2 else -(n / 2) - 1, ?_⟩
    unfold Spec.Compact.zigzag
    split <;> split <;> omega
  have e : Compact.fromZigZag n = i := by
    have := Compact.fromZigZag_eq i
    rw [hi] at this
    rw [← this]
    congr 1
    omega
  rw [e] at h ⊢
  rw [← hi]
  exact ⟨Compact.zigzag_lt hb h, fromZigZag_eq hb h⟩

theorem agr_zigzag (bits k : Nat) (hb : 0 < bits) (hk : k ≤ 10) (r : Bytes) :
    Agr (fun a b t t' => (a = b ∧ InRange bits a) ∧ t = s ∧ t' = s') (exec (Strict.zigzag bits) s r)
      (exec (do let n ← readVarintLoop bits k 0 0; pure (fromZigZag bits n)) s' r) := by
  have e : exec (Strict.zigzag bits) s r = Res.andThen (exec Compact.readVarint s r) fun n s r =>
      if InRange bits (Compact.fromZigZag n) then some ((.ok (Compact.fromZigZag n), s), r) else some ((.error .overflowError, s), r) := by
    unfold Strict.zigzag checked Compact.readZigZag
    rw [exec_bind, exec_bind]
    rcases exec Compact.readVarint s r with _ | ⟨⟨e | n, s1⟩, r1⟩
    · rfl
    · rfl
    · simp only [Res.andThen_ok, exec_pure, decide_eq_true_eq]
      split <;> rfl
  rw [e, exec_bind]
  refine Agr.andThen (agr_varint bits k hk r) fun a b s s' r h => ?_
  obtain ⟨⟨h0, rfl⟩, rfl, rfl⟩ := h
  split
  · next hr =>
    obtain ⟨h1, h2⟩ := fromZigZag_of hb h0 hr
    rw [Nat.mod_eq_of_lt h1, h2]
    exact ⟨⟨⟨rfl, hr⟩, rfl, rfl⟩, rfl⟩
  · exact Agr.py (.inr (.inr rfl))

theorem agr_size (r : Bytes) : Agr (fun a b t t' => (a = Int.ofNat b ∧ a < 2 ^ 31) ∧ t = s ∧ t' = s') (exec Strict.size s r) (exec (readVarint32 : P CSt Nat) s' r) := by
  have e : exec Strict.size s r = Res.andThen (exec Compact.readVarint s r) fun n s r =>
      if n < 0 then some ((.error TProtocolException.UNKNOWN, s), r) else if n < 2 ^ 31 then some ((.ok n, s), r) else some ((.error .overflowError, s), r) := by
    unfold Strict.size checked Compact.readSize
    rw [exec_bind, exec_bind]
    rcases exec Compact.readVarint s r with _ | ⟨⟨e | n, s1⟩, r1⟩
    · rfl
    · rfl
    · simp only [Res.andThen_ok]
      by_cases h0 : n < 0
      · simp only [if_pos h0, exec_raise, Res.andThen_error]
      · simp only [if_neg h0, exec_pure, Res.andThen_ok, decide_eq_true_eq]
        split <;> rfl
  rw [e]
  refine Agr.left (agr_varint 32 5 (by omega) r) fun a b s s' r h => ?_
  obtain ⟨⟨h0, rfl⟩, rfl, rfl⟩ := h
  rw [if_neg (by omega)]
  split
  · next h1 =>
    refine ⟨⟨⟨?_, h1⟩, rfl, rfl⟩, rfl⟩
    rw [Nat.mod_eq_of_lt (by omega)]
    exact (Int.toNat_of_nonneg h0).symm
  · exact Agr.py (.inr (.inr rfl))

theorem signed_small {n : Nat} (h : (n : Int) < 2 ^ 31) : signed 32 n = n := by
  unfold signed
  rw [if_pos (by omega)]

theorem checkLen_iff (l : Option Int) (n : Nat) (h : (n : Int) < 2 ^ 31) :
    (checkLength l n = .ok () ∧ checkLen n l = .ok ()) ∨ (∃ e, checkLength l n = .error e ∧ checkLen n l = .error .overflowError) := by
  unfold checkLen
  rw [signed_small h]
  rcases checkLength_iff l n h with h | h
  · exact .inl ⟨h.1, h.2.1⟩
  · exact .inr h

theorem agr_binary (cfg : Compact.Cfg) (r : Bytes) : Agr (fun a b t t' => a = b ∧ t = s ∧ t' = s') (exec (Strict.binary cfg) s r) (exec (compactReadString cfg) s' r) := by
  refine Agr.bind (agr_size r) fun a n s s' r h => ?_
  obtain ⟨⟨rfl, h⟩, rfl, rfl⟩ := h
  change (n : Int) < 2 ^ 31 at h
  rw [Int.ofNat_eq_natCast]
  rcases checkLen_iff cfg.stringLimit n h with ⟨h1, h2⟩ | ⟨e, h1, h2⟩
  · rw [h1, h2]
    have e : exec (if n = 0 then pure [] else readBytes n : P CSt Bytes) s' r = exec (readBytes n) s' r := by
      split
      · next h => subst h; rw [exec_readBytes]; simp
      · rfl
    show Agr _ (exec (P.readAll n) s r) (exec (if n = 0 then pure [] else readBytes n : P CSt Bytes) s' r)
    rw [e]
    exact (agr_read n r (by omega)).mono fun a b t t' h => ⟨h.1.1, h.2⟩
  · rw [h1, h2]
    trivial

theorem agr_ubyte (r : Bytes) : Agr (fun a b t t' => (a = b ∧ 0 ≤ a ∧ a < 256) ∧ t = s ∧ t' = s') (exec Compact.readUByte s r) (exec readByte s' r) := by
  refine Agr.bind (agr_read 1 r (by omega)) fun a b s s' r h => ?_
  obtain ⟨⟨rfl, hl⟩, rfl, rfl⟩ := h
  match a, hl with
  | [x], _ =>
    have := x.toNat_lt
    refine ⟨⟨⟨rfl, ?_⟩, rfl, rfl⟩, rfl⟩
    unfold unpackU
    rw [Compact.beNat_single]
    omega
end

/-! ### The two objects -/

open Compact (State)

/-- What does not change while a value is read -/
structure Frame where
  fid : Int
  structs : List (State × Int)
  containers : List State
  tags : List Int
  d : Int
  d' : Int

/-- `TCompactProtocol` in the given state, and the extension with no bool pending -/
structure At (K : Frame) (st : State) (s : Compact.St) (s' : CSt) : Prop where
  state : s.state = st
  fid : s.lastFid = K.fid
  structs : s.structs = K.structs
  containers : s.containers = K.containers
  depth : s.depth = K.d
  tags : s'.readTags = K.tags
  bool : s'.readBool = none
  depth' : s'.depth = K.d'

/-- Both after the header of a bool field -/
structure AtBool (K : Frame) (s : Compact.St) (s' : CSt) : Prop where
  state : s.state = .BOOL_READ
  fid : s.lastFid = K.fid
  structs : s.structs = K.structs
  containers : s.containers = K.containers
  depth : s.depth = K.d
  tags : s'.readTags = K.tags
  bool : s'.readBool = some s.boolValue
  depth' : s'.depth = K.d'

/-- Both before a value of wire type `t` -/
def Ready (K : Frame) (t : Int) (st : State) (s : Compact.St) (s' : CSt) : Prop :=
  (At K st s s' ∧ (st = .CONTAINER_READ ∨ (st = .VALUE_READ ∧ t ≠ TType.BOOL) ∨ (st = .CLEAR ∧ t = TType.STRUCT)))
    ∨ (AtBool K s s' ∧ st = .BOOL_READ ∧ t = TType.BOOL)

/-- Inside of a struct, after the field `f` -/
def Loop (K : Frame) (st : State) (f : Int) : Frame := { K with fid := f, structs := (st, K.fid) :: K.structs, tags := f :: K.tags }

/-- Inside of a container -/
def Inside (K : Frame) (st : State) : Frame := { K with containers := st :: K.containers }

/-- Deeper by one struct, on both sides or in the extension only -/
def Deeper (K : Frame) : Frame := { K with d := K.d + 1, d' := K.d' + 1 }
def Deeper' (K : Frame) : Frame := { K with d' := K.d' + 1 }

/-- The state after the header of a field -/
def fieldState (t : Int) : State := if t = TType.BOOL then .BOOL_READ else .VALUE_READ

variable {K : Frame} {st : State} {s : Compact.St} {s' : CSt}

def IsValue (st : State) : Prop := st = .VALUE_READ ∨ st = .CONTAINER_READ

theorem exec_reader {α : Type} (m : P Compact.St α) (h : At K st s s') (hv : IsValue st) (r : Bytes) : exec (Compact.reader m) s r = exec m s r := by
  unfold Compact.reader
  have : (s.state == State.VALUE_READ || s.state == State.CONTAINER_READ) = true := by
    rw [h.state]
    rcases hv with rfl | rfl <;> rfl
  rw [exec_bind, exec_get, Res.andThen_ok, exec_bind, this, exec_assert_true, Res.andThen_ok]

theorem Agr.at {α α' : Type} {R : α → α' → Prop} {p : Res Compact.St α} {x : Res CSt α'} (h : Agr (fun a b t t' => R a b ∧ t = s ∧ t' = s') p x) (hk : At K st s s') :
    Agr (fun a b t t' => R a b ∧ At K st t t') p x :=
  h.mono fun _ _ _ _ h => ⟨h.1, by rw [h.2.1, h.2.2]; exact hk⟩

theorem agr_bool (cfg : Compact.Cfg) (h : Ready K TType.BOOL st s s') (r : Bytes) :
    Agr (fun a b t t' => a = b ∧ At K st t t') (exec (Strict.rd cfg).readBool s r) (exec (compactRd cfg).readBool s' r) := by
  show Agr _ (exec Compact.readBool s r) (exec compactReadBool s' r)
  unfold Compact.readBool compactReadBool
  rw [exec_bind, exec_get, Res.andThen_ok, exec_bind, exec_get, Res.andThen_ok]
  rcases h with ⟨h, hs⟩ | ⟨h, rfl, -⟩
  · rcases hs with rfl | ⟨-, h⟩ | ⟨-, h⟩
    · rw [if_neg (by rw [h.state]; nofun), if_pos h.state, h.bool]
      dsimp only
      refine Agr.bind (m := Compact.readByteRaw) (m' := readBytes 1) (Q := fun a b t t' => a = unpackS b ∧ At K .CONTAINER_READ t t') ?_ fun a b s s' r h => ?_
      · unfold Compact.readByteRaw
        rw [exec_bind]
        refine Agr.left ((agr_read 1 r (by omega)).at h) fun a b s s' r h => ?_
        exact ⟨⟨by rw [h.1.1], h.2⟩, rfl⟩
      · exact ⟨⟨by rw [h.1]; rfl, h.2⟩, rfl⟩
    · exact absurd rfl h
    · exact absurd h (by decide)
  · rw [if_pos h.state, h.bool]
    exact ⟨⟨rfl, h.state, h.fid, h.structs, h.containers, h.depth, h.tags, rfl, h.depth'⟩, rfl⟩

theorem agr_byte (cfg : Compact.Cfg) (h : At K st s s') (hv : IsValue st) (r : Bytes) :
    Agr (fun a b t t' => a = b ∧ At K st t t') (exec (Strict.rd cfg).readByte s r) (exec (compactRd cfg).readI8 s' r) := by
  show Agr _ (exec (Compact.reader Compact.readByteRaw) s r) _
  rw [exec_reader _ h hv]
  refine Agr.bind ((agr_read 1 r (by omega)).at h) fun a b s s' r h => ?_
  exact ⟨⟨by rw [h.1.1], h.2⟩, rfl⟩

theorem agr_i16 (cfg : Compact.Cfg) (h : At K st s s') (hv : IsValue st) (r : Bytes) :
    Agr (fun a b t t' => a = b ∧ At K st t t') (exec (Strict.rd cfg).readI16 s r) (exec (compactRd cfg).readI16 s' r) := by
  show Agr _ (exec (Compact.reader _) s r) _
  rw [exec_reader _ h hv]
  exact ((agr_zigzag 16 3 (by omega) (by omega) r).at h).mono fun _ _ _ _ h => ⟨h.1.1, h.2⟩

theorem agr_i32 (cfg : Compact.Cfg) (h : At K st s s') (hv : IsValue st) (r : Bytes) :
    Agr (fun a b t t' => a = b ∧ At K st t t') (exec (Strict.rd cfg).readI32 s r) (exec (compactRd cfg).readI32 s' r) := by
  show Agr _ (exec (Compact.reader _) s r) _
  rw [exec_reader _ h hv]
  exact ((agr_zigzag 32 5 (by omega) (by omega) r).at h).mono fun _ _ _ _ h => ⟨h.1.1, h.2⟩

theorem agr_i64 (cfg : Compact.Cfg) (h : At K st s s') (hv : IsValue st) (r : Bytes) :
    Agr (fun a b t t' => a = b ∧ At K st t t') (exec (Strict.rd cfg).readI64 s r) (exec (compactRd cfg).readI64 s' r) := by
  show Agr _ (exec (Compact.reader _) s r) _
  rw [exec_reader _ h hv]
  exact ((agr_zigzag 64 10 (by omega) (by omega) r).at h).mono fun _ _ _ _ h => ⟨h.1.1, h.2⟩

theorem agr_double (cfg : Compact.Cfg) (h : At K st s s') (hv : IsValue st) (r : Bytes) :
    Agr (fun a b t t' => a = b ∧ At K st t t') (exec (Strict.rd cfg).readDouble s r) (exec (compactRd cfg).readDouble s' r) := by
  show Agr _ (exec (Compact.reader _) s r) _
  rw [exec_reader _ h hv]
  refine Agr.bind ((agr_read 8 r (by omega)).at h) fun a b s s' r h => ?_
  exact ⟨⟨by rw [h.1.1], h.2⟩, rfl⟩

theorem agr_readBinary (cfg : Compact.Cfg) (h : At K st s s') (hv : IsValue st) (r : Bytes) :
    Agr (fun a b t t' => a = b ∧ At K st t t') (exec (Strict.rd cfg).readBinary s r) (exec (compactRd cfg).readString s' r) := by
  show Agr _ (exec (Compact.reader _) s r) _
  rw [exec_reader _ h hv]
  exact (agr_binary cfg r).at h

theorem agr_string (env : Env) (he : env.Decodes) (cfg : Compact.Cfg) (h : At K st s s') (hv : IsValue st) (r : Bytes) :
    Agr (fun a b t t' => a = env.replace b ∧ At K st t t') (exec (Strict.rd cfg).readString s r) (exec (compactRd cfg).readString s' r) := by
  show Agr _ (exec (do let b ← Compact.reader (Strict.binary cfg); P.lift (utf8Decode b)) s r) _
  rw [exec_bind, exec_reader _ h hv]
  refine Agr.left ((agr_binary cfg r).at h) fun a b s s' r h => ?_
  obtain ⟨rfl, h⟩ := h
  rw [exec_lift]
  rcases hu : utf8Decode a with e | y
  · exact Agr.py (.inl (utf8Decode_error_kind _ _ hu))
  · exact ⟨⟨(he a y hu).symm, h⟩, rfl⟩

theorem agr_uuid (cfg : Compact.Cfg) (h : At K st s s') (hv : IsValue st) (r : Bytes) :
    Agr (fun a b t t' => a = b ∧ At K st t t') (exec (Strict.rd cfg).readUuid s r) (exec (compactRd cfg).readUuid s' r) := by
  show Agr _ (exec (Compact.reader _) s r) _
  rw [exec_reader _ h hv]
  exact ((agr_read 16 r (by omega)).at h).mono fun _ _ _ _ h => ⟨h.1.1, h.2⟩

/-- A skipped string: the extension does not look at the limit. -/
theorem agr_skipString (cfg : Compact.Cfg) (h : At K st s s') (hv : IsValue st) (r : Bytes) :
    Agr (fun _ _ t t' => At K st t t') (exec (do let _ ← (Strict.rd cfg).readString) s r) (exec (compactRd cfg).skipString s' r) := by
  have e : exec (do let _ ← (Strict.rd cfg).readString : P Compact.St Unit) s r = Res.andThen (exec Strict.size s r) fun n s r =>
      Res.andThen (some ((checkLength cfg.stringLimit n, s), r)) fun _ s r => Res.andThen (exec (P.readAll n) s r) fun b s r =>
        Res.andThen (some ((utf8Decode b, s), r)) fun _ s r => some ((.ok (), s), r) := by
    show exec (do let _ ← (do let b ← Compact.reader (Strict.binary cfg); P.lift (utf8Decode b))) s r = _
    rw [exec_bind, exec_bind, exec_reader _ h hv]
    unfold Strict.binary
    rw [exec_bind]
    rcases exec Strict.size s r with _ | ⟨⟨e | n, s1⟩, r1⟩
    · rfl
    · rfl
    rw [Res.andThen_ok, Res.andThen_ok, exec_bind, exec_lift]
    rcases checkLength cfg.stringLimit n with e | u
    · rfl
    rw [Res.andThen_ok, Res.andThen_ok]
    rcases exec (P.readAll n) s1 r1 with _ | ⟨⟨e | b, s2⟩, r2⟩
    · rfl
    · rfl
    rfl
  rw [e]
  show Agr _ _ (exec (readVarint32 >>= fun len => do let _ ← readBytes (signed 32 len)) s' r)
  rw [exec_bind]
  refine Agr.andThen ((agr_size r).at h) fun a n s s' r h => ?_
  obtain ⟨⟨rfl, hn⟩, h⟩ := h
  change (n : Int) < 2 ^ 31 at hn
  rw [Int.ofNat_eq_natCast]
  rw [signed_small hn]
  rcases hl : checkLength cfg.stringLimit n with e | u
  · have : e = TTransportException.SIZE_LIMIT := by
      unfold checkLength at hl
      rw [if_neg (by omega)] at hl
      split at hl
      · cases hl
      · split at hl
        · exact (Except.error.inj hl).symm
        · cases hl
    exact Agr.py (.inr (.inl this))
  · rw [Res.andThen_ok, exec_bind]
    refine Agr.andThen ((agr_read n r (by omega)).at h) fun a b s s' r h => ?_
    rcases hu : utf8Decode a with e | y
    · exact Agr.py (.inl (utf8Decode_error_kind _ _ hu))
    · exact ⟨h.2, rfl⟩

/-! ### Headers -/

theorem collectionEnd (h : At (Inside K st) .CONTAINER_READ s s') (r : Bytes) : ∃ t, exec Compact.readCollectionEnd s r = some ((.ok (), t), r) ∧ At K st t s' := by
  refine ⟨{ s with state := st, containers := K.containers }, ?_, rfl, h.fid, h.structs, rfl, h.depth, h.tags, h.bool, h.depth'⟩
  unfold Compact.readCollectionEnd
  rw [exec_bind, exec_get, Res.andThen_ok, exec_bind, h.state]
  show exec (match s.containers with
    | [] => P.raise .indexError
    | c :: rest => P.set { s with state := c, containers := rest }) s r = _
  rw [h.containers]
  rfl

theorem structBegin (h : At K st s s') (hv : IsValue st ∨ st = .CLEAR) (cfg : Compact.Cfg) (r : Bytes) :
    ∃ t t', exec Compact.readStructBegin s r = some ((.ok (), t), r) ∧ exec (compactRd cfg).readStructBegin s' r = some ((.ok (), t'), r) ∧ At (Loop K st 0) .FIELD_READ t t' := by
  refine ⟨{ s with structs := (s.state, s.lastFid) :: s.structs, state := .FIELD_READ, lastFid := 0 }, { s' with readTags := 0 :: s'.readTags }, ?_, rfl, ?_⟩
  · unfold Compact.readStructBegin
    have : (s.state == State.CLEAR || s.state == State.CONTAINER_READ || s.state == State.VALUE_READ) = true := by
      rw [h.state]
      rcases hv with (rfl | rfl) | rfl <;> rfl
    rw [exec_bind, exec_get, Res.andThen_ok, exec_bind, this, exec_assert_true, Res.andThen_ok, exec_modify]
  · exact ⟨rfl, rfl, by show _ :: _ = (st, K.fid) :: K.structs; rw [h.state, h.fid, h.structs], h.containers, h.depth, by show 0 :: _ = 0 :: K.tags; rw [h.tags], h.bool, h.depth'⟩

theorem structEnd {f : Int} (h : At (Loop K st f) .FIELD_READ s s') (cfg : Compact.Cfg) (r : Bytes) :
    ∃ t t', exec Compact.readStructEnd s r = some ((.ok (), t), r) ∧ exec (compactRd cfg).readStructEnd s' r = some ((.ok (), t'), r) ∧ At K st t t' := by
  refine ⟨{ s with state := st, lastFid := K.fid, structs := K.structs }, { s' with readTags := s'.readTags.tail }, ?_, rfl, ?_⟩
  · unfold Compact.readStructEnd
    rw [exec_bind, exec_get, Res.andThen_ok, exec_bind, h.state]
    show exec (match s.structs with
      | [] => P.raise .indexError
      | (st, fid) :: rest => P.set { s with state := st, lastFid := fid, structs := rest }) s r = _
    rw [h.structs]
    rfl
  · exact ⟨rfl, rfl, rfl, h.containers, h.depth, by show s'.readTags.tail = K.tags; rw [h.tags]; rfl, h.bool, h.depth'⟩

theorem fieldEnd {t : Int} (h : At K (fieldState t) s s') (r : Bytes) : ∃ u, exec Compact.readFieldEnd s r = some ((.ok (), u), r) ∧ At K .FIELD_READ u s' := by
  refine ⟨{ s with state := .FIELD_READ }, ?_, rfl, h.fid, h.structs, h.containers, h.depth, h.tags, h.bool, h.depth'⟩
  unfold Compact.readFieldEnd
  have : (s.state == State.VALUE_READ || s.state == State.BOOL_READ) = true := by
    rw [h.state]
    unfold fieldState
    split <;> rfl
  rw [exec_bind, exec_get, Res.andThen_ok, exec_bind, this, exec_assert_true, Res.andThen_ok, exec_modify]

theorem ttypes_of {c : Int} (h0 : 0 ≤ c) (h1 : c < 16) : getTType c = .error .typeError ∨ getTType c = Compact.ttypes c := by
  obtain ⟨n, rfl⟩ : ∃ n : Nat, c = n := ⟨c.toNat, by omega⟩
  have : ∀ n : Fin 16, getTType (n.val : Int) = .error .typeError ∨ getTType (n.val : Int) = Compact.ttypes (n.val : Int) := by decide
  exact this ⟨n, by omega⟩

theorem lift_ttype {α α' : Type} {Q : α → α' → Compact.St → CSt → Prop} {c : Int} (h0 : 0 ≤ c) (h1 : c < 16) {f : Int → P Compact.St α} {f' : Int → P CSt α'} {r : Bytes}
    (hf : ∀ t, getTType c = .ok t → Agr Q (exec (f t) s r) (exec (f' t) s' r)) :
    Agr Q (exec (P.lift (Compact.ttypes c) >>= f) s r) (exec (P.lift (getTType c) >>= f') s' r) := by
  rcases ttypes_of h0 h1 with h | h
  · rw [h, exec_bind, exec_bind, exec_lift_error, Res.andThen_error]
    exact Agr.ext (.inl rfl)
  · rw [← h, exec_bind, exec_bind]
    rcases hc : getTType c with e | t
    · trivial
    · exact hf t hc

theorem agr_listBegin (cfg : Compact.Cfg) (h : At K st s s') (hv : IsValue st) (r : Bytes) :
    Agr (fun p x t t' => (p = x ∧ 0 ≤ p.2) ∧ At (Inside K st) .CONTAINER_READ t t') (exec (Strict.collectionBegin cfg) s r) (exec (compactReadListBegin cfg) s' r) := by
  unfold Strict.collectionBegin compactReadListBegin
  have : (s.state == State.VALUE_READ || s.state == State.CONTAINER_READ) = true := by
    rw [h.state]
    rcases hv with rfl | rfl <;> rfl
  rw [exec_bind, exec_get, Res.andThen_ok, exec_bind, this, exec_assert_true, Res.andThen_ok]
  refine Agr.bind ((agr_ubyte r).at h) fun b b' s s' r h => ?_
  obtain ⟨⟨rfl, h0, h1⟩, h⟩ := h
  unfold Compact.getTType
  simp only [Compact.pyAnd_15]
  refine lift_ttype (by omega) (by omega) fun t _ => ?_
  have e : pyShr b 4 % 16 = b / 16 := by unfold pyShr; omega
  rw [e]
  have e : pyShr b 4 = b / 16 := rfl
  rw [e]
  have last : ∀ (n : Nat) (s : Compact.St) (s' : CSt) (r : Bytes), (n : Int) < 2 ^ 31 → At K st s s' →
      Agr (fun p x t t' => (p = x ∧ 0 ≤ p.2) ∧ At (Inside K st) .CONTAINER_READ t t')
        (exec (do
          P.lift (checkLength cfg.containerLimit n)
          P.modify fun s => { s with containers := s.state :: s.containers, state := .CONTAINER_READ }
          pure (t, (n : Int))) s r)
        (exec (do P.lift (checkLen n cfg.containerLimit); pure (t, (n : Int))) s' r) := by
    intro n s s' r hn h
    rcases checkLen_iff cfg.containerLimit n hn with ⟨h1, h2⟩ | ⟨e, h1, h2⟩
    · rw [h1, h2]
      refine ⟨⟨⟨rfl, ?_⟩, rfl, h.fid, h.structs, ?_, h.depth, h.tags, h.bool, h.depth'⟩, rfl⟩
      · show 0 ≤ (n : Int)
        omega
      · show s.state :: s.containers = st :: K.containers
        rw [h.state, h.containers]
    · rw [h1, h2]
      trivial
  by_cases h15 : b / 16 = 15
  · rw [if_pos h15, if_pos h15, exec_bind, exec_bind]
    refine Agr.andThen ((agr_size r).at h) fun a n s s' r h => ?_
    obtain ⟨⟨rfl, hn⟩, h⟩ := h
    exact last n s s' r hn h
  · rw [if_neg h15, if_neg h15]
    have e : b / 16 = ((b / 16).toNat : Int) := by omega
    have := last (b / 16).toNat s s' r (by omega) h
    rw [← e] at this
    show Agr _ _ (exec (do P.lift (checkLen (b / 16).toNat cfg.containerLimit); pure (t, ((b / 16).toNat : Int))) s' r)
    rw [← e]
    exact this

theorem agr_mapBegin (cfg : Compact.Cfg) (h : At K st s s') (hv : IsValue st) (r : Bytes) :
    Agr (fun p x t t' => (p = x ∧ 0 ≤ p.2.2) ∧ At (Inside K st) .CONTAINER_READ t t') (exec (Strict.mapBegin cfg) s r) (exec (compactReadMapBegin cfg) s' r) := by
  unfold Strict.mapBegin compactReadMapBegin
  have : (s.state == State.VALUE_READ || s.state == State.CONTAINER_READ) = true := by
    rw [h.state]
    rcases hv with rfl | rfl <;> rfl
  rw [exec_bind, exec_get, Res.andThen_ok, exec_bind, this, exec_assert_true, Res.andThen_ok]
  refine Agr.bind ((agr_size r).at h) fun a n s s' r h => ?_
  obtain ⟨⟨rfl, hn⟩, h⟩ := h
  change (n : Int) < 2 ^ 31 at hn
  rw [Int.ofNat_eq_natCast]
  rcases checkLen_iff cfg.containerLimit n hn with ⟨h1, h2⟩ | ⟨e, h1, h2⟩
  · rw [h1, h2, exec_bind, exec_lift_ok, Res.andThen_ok, exec_bind, exec_lift_ok, Res.andThen_ok]
    have last : ∀ {t : CSt} {s : Compact.St}, At K st s t → At (Inside K st) .CONTAINER_READ { s with containers := s.state :: s.containers, state := .CONTAINER_READ } t := by
      intro t s h
      refine ⟨rfl, h.fid, h.structs, ?_, h.depth, h.tags, h.bool, h.depth'⟩
      show s.state :: s.containers = st :: K.containers
      rw [h.state, h.containers]
    by_cases hz : n = 0
    · subst hz
      rw [if_neg (by omega), if_neg (by omega)]
      exact ⟨⟨⟨rfl, by show (0 : Int) ≤ 0; omega⟩, last h⟩, rfl⟩
    · rw [if_pos (by omega), if_pos hz]
      refine Agr.bind ((agr_ubyte r).at h) fun b b' s s' r h => ?_
      obtain ⟨⟨rfl, h0, h1⟩, h⟩ := h
      unfold Compact.getTType
      simp only [Compact.pyAnd_15]
      have e : pyShr b 4 % 16 = pyShr b 4 := by unfold pyShr; omega
      rw [e]
      have hk0 : 0 ≤ pyShr b 4 := by unfold pyShr; omega
      have hk1 : pyShr b 4 < 16 := by unfold pyShr; omega
      have hv0 : 0 ≤ b % 16 := by omega
      have hv1 : b % 16 < 16 := by omega
      simp only [exec_bind, exec_lift]
      rcases ttypes_of hk0 hk1 with hk | hk
      · rw [hk, Res.andThen_error]
        exact Agr.ext (.inl rfl)
      rcases ttypes_of hv0 hv1 with hv | hv
      · rw [hv]
        rcases hg : getTType (pyShr b 4) with e | k
        · rw [← hk, hg]
          cases Compact.ttypes (b % 16) <;> trivial
        · exact Agr.ext (.inl rfl)
      rw [← hk, ← hv]
      cases getTType (b % 16) with
      | error e =>
        cases getTType (pyShr b 4) <;> trivial
      | ok v =>
        cases getTType (pyShr b 4) with
        | error e => trivial
        | ok k => exact ⟨⟨⟨rfl, by show (0 : Int) ≤ n; omega⟩, last h⟩, rfl⟩
  · rw [h1, h2]
    trivial

/-- The end of `readFieldBegin` in Python -/
def pyTail (c fid : Int) : P Compact.St (Int × Int) := do
  P.modify fun s => { s with lastFid := fid }
  if c = Compact.CompactType.TRUE then
    P.modify fun s => { s with state := .BOOL_READ, boolValue := true }
  else if c = Compact.CompactType.FALSE then
    P.modify fun s => { s with state := .BOOL_READ, boolValue := false }
  else
    P.modify fun s => { s with state := .VALUE_READ }
  let t ← Compact.getTType c
  pure (t, fid)

/-- The end of `readFieldBegin` in the extension -/
def extTail (c t tag : Int) : P CSt (Int × Int) := do
  if c = 1 ∨ c = 2 then P.modify fun s => { s with readBool := some (c == 1) }
  else pure ()
  P.modify fun s => { s with readTags := tag :: s.readTags.tail }
  pure (t, tag)

theorem ttypes_error {c : Int} {e : Exc} (h : getTType c = .error e) : e = .typeError := by
  unfold getTType at h
  grind (splits := 40)

theorem bool_code {c t : Int} (h : getTType c = .ok t) : t = TType.BOOL ↔ c = 1 ∨ c = 2 := by
  unfold getTType TType.BOOL TType.STOP TType.BYTE TType.I16 TType.I32 TType.I64 TType.DOUBLE TType.STRING TType.LIST TType.SET TType.MAP TType.STRUCT TType.UUID at h
  unfold TType.BOOL
  grind (splits := 40)

theorem stop_code {c t : Int} (h : getTType c = .ok t) : t = TType.STOP ↔ c = 0 := by
  unfold getTType TType.BOOL TType.STOP TType.BYTE TType.I16 TType.I32 TType.I64 TType.DOUBLE TType.STRING TType.LIST TType.SET TType.MAP TType.STRUCT TType.UUID at h
  unfold TType.STOP
  grind (splits := 40)

theorem agr_tail {f c t fid tag : Int} (h : At (Loop K st f) .FIELD_READ s s') (hc : getTType c = .ok t) (h0 : 0 ≤ c) (h1 : c < 16) (hz : c ≠ 0) (hf : InRange 16 fid → tag = fid) (r : Bytes) :
    Agr (fun p x t t' => p = x ∧ ((p.1 = TType.STOP ∧ At (Loop K st f) .FIELD_READ t t') ∨ (p.1 ≠ TType.STOP ∧ Ready (Loop K st p.2) p.1 (fieldState p.1) t t')))
      (Res.andThen (exec (pyTail c fid) s r) fun a s' b' => exec (if InRange 16 a.2 then pure a else P.raise .overflowError) s' b') (exec (extTail c t tag) s' r) := by
  have ht : Compact.ttypes (pyAnd c 0x0f) = .ok t := by
    rw [Compact.pyAnd_15, show c % 16 = c by omega]
    rcases ttypes_of h0 h1 with h | h
    · rw [h] at hc
      cases hc
    · rw [← h, hc]
  have hb := bool_code hc
  have hs : t ≠ TType.STOP := fun h => hz ((stop_code hc).1 h)
  have e1 : exec (pyTail c fid) s r = some ((.ok (t, fid), if c = 1 then { s with lastFid := fid, state := .BOOL_READ, boolValue := true }
      else if c = 2 then { s with lastFid := fid, state := .BOOL_READ, boolValue := false } else { s with lastFid := fid, state := .VALUE_READ }), r) := by
    unfold pyTail Compact.getTType
    rw [ht]
    by_cases hc1 : c = 1
    · subst hc1
      rfl
    · by_cases hc2 : c = 2
      · subst hc2
        rfl
      · rw [if_neg (show ¬ c = Compact.CompactType.TRUE from hc1), if_neg (show ¬ c = Compact.CompactType.FALSE from hc2), if_neg hc1, if_neg hc2]
        rfl
  have e2 : exec (extTail c t tag) s' r = some ((.ok (t, tag), if c = 1 ∨ c = 2 then { s' with readBool := some (c == 1), readTags := tag :: s'.readTags.tail }
      else { s' with readTags := tag :: s'.readTags.tail }), r) := by
    unfold extTail
    by_cases hc1 : c = 1 ∨ c = 2
    · rw [if_pos hc1, if_pos hc1]
      rfl
    · rw [if_neg hc1, if_neg hc1]
      rfl
  rw [e1, Res.andThen_ok]
  dsimp only
  by_cases hr : InRange 16 fid
  · rw [if_pos hr, e2, hf hr]
    have hl : s'.readTags.tail = K.tags := by rw [h.tags]; rfl
    refine ⟨⟨rfl, .inr ⟨hs, ?_⟩⟩, rfl⟩
    dsimp only
    rw [hl]
    unfold fieldState Ready
    by_cases hc1 : c = 1
    · subst hc1
      have htb := hb.2 (.inl rfl)
      rw [if_pos htb, if_pos rfl, if_pos (.inl rfl)]
      exact .inr ⟨⟨rfl, rfl, h.structs, h.containers, h.depth, rfl, rfl, h.depth'⟩, rfl, htb⟩
    · by_cases hc2 : c = 2
      · subst hc2
        have htb := hb.2 (.inr rfl)
        rw [if_pos htb, if_neg hc1, if_pos rfl, if_pos (.inr rfl)]
        exact .inr ⟨⟨rfl, rfl, h.structs, h.containers, h.depth, rfl, rfl, h.depth'⟩, rfl, htb⟩
      · have htb : ¬ t = TType.BOOL := fun h => (hb.1 h).elim hc1 hc2
        rw [if_neg htb, if_neg hc1, if_neg hc2, if_neg (fun h => h.elim hc1 hc2)]
        exact .inl ⟨⟨rfl, rfl, h.structs, h.containers, h.depth, rfl, h.bool, h.depth'⟩, .inr (.inl ⟨rfl, htb⟩)⟩
  · rw [if_neg hr]
    exact Agr.py (.inr (.inr rfl))

theorem agr_fieldBegin {f : Int} (cfg : Compact.Cfg) (h : At (Loop K st f) .FIELD_READ s s') (r : Bytes) :
    Agr (fun p x t t' => p = x ∧ ((p.1 = TType.STOP ∧ At (Loop K st f) .FIELD_READ t t') ∨ (p.1 ≠ TType.STOP ∧ Ready (Loop K st p.2) p.1 (fieldState p.1) t t')))
      (exec (Strict.rd cfg).readFieldBegin s r) (exec (compactRd cfg).readFieldBegin s' r) := by
  show Agr _ (exec Strict.fieldBegin s r) (exec compactReadFieldBegin s' r)
  unfold Strict.fieldBegin Compact.readFieldBegin compactReadFieldBegin
  have : (s.state == State.FIELD_READ) = true := by
    rw [h.state]
    rfl
  rw [exec_bind, exec_bind, exec_get, Res.andThen_ok, exec_bind, this, exec_assert_true, Res.andThen_ok, exec_bind, exec_bind]
  have hb := (agr_ubyte r).at h
  generalize exec Compact.readUByte s r = p at hb ⊢
  generalize exec readByte s' r = x at hb ⊢
  rcases p with _ | ⟨⟨e | b, s1⟩, r1⟩
  · exact Agr.none_left
  all_goals
    rcases x with _ | ⟨⟨e' | b', s1'⟩, r1'⟩
    · exact Agr.none_right
  · trivial
  · exact Agr.py hb
  · exact Agr.ext hb
  obtain ⟨⟨⟨rfl, h0, h1⟩, h⟩, rfl⟩ := hb
  simp only [Res.andThen_ok, Compact.pyAnd_15]
  rw [exec_bind, exec_lift]
  rcases ttypes_of (c := b % 16) (by omega) (by omega) with hc | hc
  · rw [hc]
    exact Agr.ext (.inl rfl)
  rcases hg : getTType (b % 16) with e | t
  · exact Agr.ext (.inl (ttypes_error hg))
  rw [Res.andThen_ok]
  by_cases hz : b % 16 = 0
  · have ht := (stop_code hg).2 hz
    rw [if_pos (show b % 16 = TType.STOP from hz), if_pos ht, ht]
    exact ⟨⟨rfl, .inl ⟨rfl, h⟩⟩, rfl⟩
  · have ht : ¬ t = TType.STOP := fun h => hz ((stop_code hg).1 h)
    rw [if_neg (show ¬ b % 16 = TType.STOP from hz), if_neg ht, exec_bind, exec_get, Res.andThen_ok]
    by_cases hd : pyShr b 4 = 0
    · rw [if_pos hd, if_neg (fun h => h hd)]
      show Agr _ (Res.andThen (exec (Compact.readZigZag >>= fun fid => pyTail (b % 16) fid) s1 r1) _) (exec (compactReadI16 >>= fun tag => extTail (b % 16) t tag) s1' r1)
      unfold Compact.readZigZag compactReadI16
      rw [exec_bind, exec_bind, exec_bind, exec_bind]
      have hv := (agr_varint 16 3 (by omega) r1).at h
      change Agr _ _ (exec readVarint16 s1' r1) at hv
      generalize exec Compact.readVarint s1 r1 = p at hv ⊢
      generalize exec readVarint16 s1' r1 = x at hv ⊢
      rcases p with _ | ⟨⟨e | n, s2⟩, r2⟩
      · exact Agr.none_left
      all_goals
        rcases x with _ | ⟨⟨e' | m, s2'⟩, r2'⟩
        · exact Agr.none_right
      · trivial
      · exact Agr.py hv
      · exact Agr.ext hv
      obtain ⟨⟨⟨hn, rfl⟩, h⟩, rfl⟩ := hv
      refine agr_tail h hg (by omega) (by omega) hz (fun hr => ?_) r2
      obtain ⟨h1, h2⟩ := fromZigZag_of (by omega) hn hr
      rw [Nat.mod_eq_of_lt h1, h2]
    · rw [if_neg hd, if_pos hd]
      show Agr _ (Res.andThen (exec (pyTail (b % 16) (s1.lastFid + pyShr b 4)) s1 r1) _) (exec (extTail (b % 16) t (signed 16 (wrap 16 (s1'.readTags.headD 0 + pyShr b 4)))) s1' r1)
      refine agr_tail h hg (by omega) (by omega) hz (fun hr => ?_) r1
      have e1 : s1.lastFid = f := h.fid
      have e2 : s1'.readTags.headD 0 = f := by rw [h.tags]; rfl
      rw [e1] at hr ⊢
      rw [e2]
      exact signed_wrap hr

/-! ### `skip` -/

theorem Ready.val {t : Int} (h : Ready K t st s s') (hb : t ≠ TType.BOOL) (hs : t ≠ TType.STRUCT) : At K st s s' ∧ IsValue st := by
  rcases h with ⟨h, rfl | ⟨rfl, -⟩ | ⟨-, h'⟩⟩ | ⟨-, -, h⟩
  · exact ⟨h, .inr rfl⟩
  · exact ⟨h, .inl rfl⟩
  · exact absurd h' hs
  · exact absurd h hb

theorem Ready.struct (h : Ready K TType.STRUCT st s s') : At K st s s' ∧ (IsValue st ∨ st = .CLEAR) := by
  rcases h with ⟨h, rfl | ⟨rfl, -⟩ | ⟨rfl, -⟩⟩ | ⟨-, -, h⟩
  · exact ⟨h, .inl (.inr rfl)⟩
  · exact ⟨h, .inl (.inl rfl)⟩
  · exact ⟨h, .inr rfl⟩
  · exact absurd h (by decide)

theorem Ready.inside {t : Int} (h : At K .CONTAINER_READ s s') : Ready K t .CONTAINER_READ s s' := .inl ⟨h, .inl rfl⟩

theorem Ready.inc' {t : Int} (h : Ready K t st s s') : Ready (Deeper' K) t st s (HasDepth.setDepth (HasDepth.depth s' + 1) s') := by
  rcases h with ⟨h, h'⟩ | ⟨h, h'⟩
  · refine .inl ⟨⟨h.state, h.fid, h.structs, h.containers, h.depth, h.tags, h.bool, ?_⟩, h'⟩
    show s'.depth + 1 = K.d' + 1
    rw [h.depth']
  · refine .inr ⟨⟨h.state, h.fid, h.structs, h.containers, h.depth, h.tags, h.bool, ?_⟩, h'⟩
    show s'.depth + 1 = K.d' + 1
    rw [h.depth']

theorem At.dec' (h : At (Deeper' K) st s s') : At K st s (decDepth s') := by
  refine ⟨h.state, h.fid, h.structs, h.containers, h.depth, h.tags, h.bool, ?_⟩
  show s'.depth - 1 = K.d'
  have : s'.depth = K.d' + 1 := h.depth'
  omega

theorem At.inc (h : At K st s s') : At (Deeper K) st (HasDepth.setDepth (HasDepth.depth s + 1) s) (HasDepth.setDepth (HasDepth.depth s' + 1) s') := by
  refine ⟨h.state, h.fid, h.structs, h.containers, ?_, h.tags, h.bool, ?_⟩
  · show s.depth + 1 = K.d + 1
    rw [h.depth]
  · show s'.depth + 1 = K.d' + 1
    rw [h.depth']

theorem At.dec (h : At (Deeper K) st s s') : At K st (decDepth s) (decDepth s') := by
  refine ⟨h.state, h.fid, h.structs, h.containers, ?_, h.tags, h.bool, ?_⟩
  · show s.depth - 1 = K.d
    have : s.depth = K.d + 1 := h.depth
    omega
  · show s'.depth - 1 = K.d'
    have : s'.depth = K.d' + 1 := h.depth'
    omega

theorem Agr.drop {α α' : Type} {R : α → α' → Prop} {m : P Compact.St α} {m' : P CSt α'} {r : Bytes}
    (h : Agr (fun a b t t' => R a b ∧ At K st t t') (exec m s r) (exec m' s' r)) :
    Agr (fun _ _ t t' => At K st t t') (exec (do let _ ← m) s r) (exec (do let _ ← m') s' r) :=
  Agr.bind h fun _ _ _ _ _ h => ⟨h.2, rfl⟩

theorem skip_agr (cfg : Compact.Cfg) (fuel : Nat) : (fuel' : Nat) → (K : Frame) → (st : State) → (d : Nat) → (t : Int) → (s : Compact.St) → (s' : CSt) → (r : Bytes) →
    Ready K t st s s' → 64 - K.d' ≤ d →
    Agr (fun _ _ u u' => At K st u u') (exec (Thrift.skip (Strict.rd cfg) fuel d t) s r) (exec (skip (compactRd cfg) fuel' t) s' r)
  | 0, _, _, _, _, _, _, _, _, _ => Agr.none_right
  | fuel' + 1, K, st, d, t, s, s', r, ha, hd => by
    have hdep : HasDepth.depth s' = K.d' := by
      rcases ha with ⟨h, -⟩ | ⟨h, -⟩ <;> exact h.depth'
    rw [skip, exec_bind, exec_incDepth]
    by_cases hlt : HasDepth.depth s' < 64
    · rw [if_pos hlt, Res.andThen_ok]
      refine Agr.tryDecExt (Q := fun _ _ u u' => At (Deeper' K) st u u') ?_ fun _ _ _ _ h => h.dec'
      have ha' := ha.inc'
      generalize HasDepth.setDepth (HasDepth.depth s' + 1) s' = s1 at ha' ⊢
      have hd' : 64 - (Deeper' K).d' ≤ d - 1 := by show 64 - (K.d' + 1) ≤ _; omega
      generalize Deeper' K = K at ha' hd' ⊢
      cases d with
      | zero => omega
      | succ d =>
        have ih : ∀ (K2 : Frame) (st : State) (u : Int), K2.d' = K.d' → ∀ (s : Compact.St) (s1 : CSt) (r : Bytes), Ready K2 u st s s1 →
            Agr (fun _ _ t t' => At K2 st t t') (exec (Thrift.skip (Strict.rd cfg) fuel d u) s r) (exec (skip (compactRd cfg) fuel' u) s1 r) :=
          fun K2 st u hk s s1 r ha => skip_agr cfg fuel fuel' K2 st d u s s1 r ha (by omega)
        have hlist : At K st s s1 → IsValue st → Agr (fun _ _ u u' => At K st u u')
            (exec (do
              let (etype, size) ← Strict.collectionBegin cfg
              P.repeatN_ size.toNat (Thrift.skip (Strict.rd cfg) fuel d etype)
              Compact.readCollectionEnd : P Compact.St Unit) s r)
            (exec (do
              let (etype, len) ← compactReadListBegin cfg
              P.repeatN_ len.toNat (skip (compactRd cfg) fuel' etype)) s1 r) := by
          intro h hv
          refine Agr.bind (agr_listBegin cfg h hv r) fun p x s s1 r hp => ?_
          obtain ⟨⟨rfl, -⟩, h⟩ := hp
          obtain ⟨u, n⟩ := p
          dsimp only
          rw [exec_bind]
          refine Agr.left (Agr.repeatN_ (I := At (Inside K st) .CONTAINER_READ) (fun s s' r ha => ih (Inside K st) .CONTAINER_READ u rfl s s' r (.inside ha)) n.toNat s s1 r h) fun _ _ s s' r h => ?_
          obtain ⟨t, e, h⟩ := collectionEnd h r
          rw [e]
          exact ⟨h, rfl⟩
        rw [Thrift.skip]
        by_cases h : t = TType.BOOL
        · rw [if_pos h, if_pos h]
          subst h
          exact Agr.drop (agr_bool cfg ha' r)
        rw [if_neg h, if_neg h]
        by_cases hst : t = TType.STRUCT
        · subst hst
          obtain ⟨h, hv⟩ := ha'.struct
          show Agr _ (exec (do
              Compact.readStructBegin
              P.whileTrue fuel (Thrift.skipStructBody (Strict.rd cfg) (Thrift.skip (Strict.rd cfg) fuel d)) ()
              Compact.readStructEnd) s r)
            (exec (do
              (compactRd cfg).readStructBegin
              P.whileTrue fuel' (skipStructBody (compactRd cfg) (skip (compactRd cfg) fuel')) ()
              (compactRd cfg).readStructEnd) s1 r)
          obtain ⟨u, u', e1, e2, h⟩ := structBegin h hv cfg r
          rw [exec_bind, exec_bind, e1, e2, Res.andThen_ok, Res.andThen_ok]
          refine Agr.bind (Agr.whileTrue (I := fun _ _ s s' => ∃ f, At (Loop K st f) .FIELD_READ s s') (Q' := fun _ _ s s' => ∃ f, At (Loop K st f) .FIELD_READ s s')
            (fun _ _ s s' r hi => ?_) fuel fuel' () () u u' r ⟨0, h⟩) fun _ _ s s' r hi => ?_
          · obtain ⟨f, hi⟩ := hi
            refine Agr.bind (agr_fieldBegin cfg hi r) fun p x s s' r hp => ?_
            obtain ⟨rfl, hp⟩ := hp
            obtain ⟨v, n⟩ := p
            dsimp only at hp ⊢
            rcases hp with ⟨h0, hp⟩ | ⟨h0, hp⟩
            · rw [if_pos h0, if_pos h0]
              exact ⟨.inr ⟨_, _, rfl, rfl, f, hp⟩, rfl⟩
            · rw [if_neg h0, if_neg h0]
              refine Agr.bind (ih (Loop K st n) (fieldState v) v rfl s s' r hp) fun _ _ s s' r h => ?_
              obtain ⟨w, e, h⟩ := fieldEnd h r
              rw [exec_bind]
              show Agr _ (Res.andThen (exec Compact.readFieldEnd s r) _) _
              rw [e]
              exact ⟨.inl ⟨_, _, rfl, rfl, n, h⟩, rfl⟩
          · obtain ⟨f, hi⟩ := hi
            obtain ⟨w, w', e1, e2, h⟩ := structEnd hi cfg r
            rw [e1, e2]
            exact ⟨h, rfl⟩
        obtain ⟨ha', hv⟩ := ha'.val h hst
        clear h
        by_cases h : t = TType.BYTE
        · rw [if_pos h, if_pos h]
          exact Agr.drop (agr_byte cfg ha' hv r)
        rw [if_neg h, if_neg h]; clear h
        by_cases h : t = TType.I16
        · rw [if_pos h, if_pos h]
          exact Agr.drop (agr_i16 cfg ha' hv r)
        rw [if_neg h, if_neg h]; clear h
        by_cases h : t = TType.I32
        · rw [if_pos h, if_pos h]
          exact Agr.drop (agr_i32 cfg ha' hv r)
        rw [if_neg h, if_neg h]; clear h
        by_cases h : t = TType.I64
        · rw [if_pos h, if_pos h]
          exact Agr.drop (agr_i64 cfg ha' hv r)
        rw [if_neg h, if_neg h]; clear h
        by_cases h : t = TType.DOUBLE
        · rw [if_pos h, if_pos h]
          exact Agr.drop (agr_double cfg ha' hv r)
        rw [if_neg h, if_neg h]; clear h
        by_cases h : t = TType.STRING
        · rw [if_pos h, if_pos h]
          exact agr_skipString cfg ha' hv r
        rw [if_neg h, if_neg h, if_neg hst]; clear h
        by_cases hm : t = TType.MAP
        · rw [if_pos hm, if_neg (by rw [hm]; decide), if_pos hm]
          refine Agr.bind (agr_mapBegin cfg ha' hv r) fun p x s s1 r hp => ?_
          obtain ⟨⟨rfl, -⟩, h⟩ := hp
          obtain ⟨u, v, n⟩ := p
          dsimp only
          rw [exec_bind]
          refine Agr.left (Agr.repeatN_ (I := At (Inside K st) .CONTAINER_READ) (fun s s' r ha => ?_) n.toNat s s1 r h) fun _ _ s s' r h => ?_
          · exact Agr.bind (ih (Inside K st) .CONTAINER_READ u rfl s s' r (.inside ha)) fun _ _ s s' r ha => ih (Inside K st) .CONTAINER_READ v rfl s s' r (.inside ha)
          · obtain ⟨t, e, h⟩ := collectionEnd h r
            show Agr _ (exec Compact.readCollectionEnd s r) _
            rw [e]
            exact ⟨h, rfl⟩
        rw [if_neg hm]
        by_cases hl : t = TType.LIST ∨ t = TType.SET
        · rw [if_pos hl]
          rcases hl with hl | hl
          · rw [if_neg (by rw [hl]; decide), if_pos hl]
            exact hlist ha' hv
          · rw [if_pos hl]
            exact hlist ha' hv
        · rw [if_neg (fun h => hl (.inr h)), if_neg (fun h => hl (.inl h)), if_neg hl, if_neg hm, if_neg hst]
          by_cases hu : t = TType.UUID
          · rw [if_pos hu, if_pos hu]
            exact Agr.drop (agr_uuid cfg ha' hv r)
          · rw [if_neg hu, if_neg hu]
            trivial
    · rw [if_neg hlt, Res.andThen_error]
      exact Agr.ext (.inr (.inl rfl))

/-! ### `decodeValue` -/

theorem Agr.never {α α' : Type} {Q : α → α' → Compact.St → CSt → Prop} {p : Res Compact.St α} {x : Res CSt α'}
    (hp : ∀ a s r, p ≠ some ((.ok a, s), r)) (hx : ∀ a s r, x ≠ some ((.ok a, s), r)) : Agr Q p x := by
  rcases p with _ | ⟨⟨e | a, s⟩, r⟩
  · exact Agr.none_left
  · rcases x with _ | ⟨⟨e' | b, s'⟩, r'⟩
    · trivial
    · trivial
    · exact absurd rfl (hx _ _ _)
  · exact absurd rfl (hp _ _ _)

theorem agr_orTypeError {α α' : Type} {Q : α → α' → Compact.St → CSt → Prop} {p : Res Compact.St α} {m : P CSt α'} {r : Bytes}
    (h : Agr Q p (exec m s' r)) : Agr Q p (exec (orTypeError m) s' r) := by
  unfold exec at h ⊢
  unfold orTypeError
  rw [Prog.run_bind]
  generalize Prog.run memStep (m s') r = x at h ⊢
  rcases x with _ | ⟨⟨e' | b, s'⟩, r'⟩
  · exact Agr.none_right
  · exact Agr.ext (.inl rfl)
  · exact h

theorem decode_scalar (env : Env) (he : env.Decodes) (cfg : Compact.Cfg) (sch : Schema) (t : Ty) (ht : t.hashable = true) (fuel fuel' : Nat) (r : Bytes)
    (h : Ready K t.ttype st s s') :
    Agr (fun a b t t' => a = b ∧ At K st t t') (exec (readVal (Strict.rd cfg) sch .gen fuel t) s r) (exec (decodeValue env (compactRd cfg) sch fuel' t) s' r) := by
  cases t
  case bool =>
    unfold readVal decodeValue
    exact Agr.bind (agr_bool cfg h r) fun a b s s' r h => ⟨⟨by rw [h.1], h.2⟩, rfl⟩
  case byte =>
    unfold readVal decodeValue
    obtain ⟨h, hv⟩ := h.val (by decide) (by decide)
    exact Agr.bind (agr_byte cfg h hv r) fun a b s s' r h => ⟨⟨by rw [h.1], h.2⟩, rfl⟩
  case i16 =>
    unfold readVal decodeValue
    obtain ⟨h, hv⟩ := h.val (by decide) (by decide)
    exact Agr.bind (agr_i16 cfg h hv r) fun a b s s' r h => ⟨⟨by rw [h.1], h.2⟩, rfl⟩
  case i32 =>
    unfold readVal decodeValue
    obtain ⟨h, hv⟩ := h.val (by decide) (by decide)
    exact Agr.bind (agr_i32 cfg h hv r) fun a b s s' r h => ⟨⟨by rw [h.1], h.2⟩, rfl⟩
  case i64 =>
    unfold readVal decodeValue
    obtain ⟨h, hv⟩ := h.val (by decide) (by decide)
    exact Agr.bind (agr_i64 cfg h hv r) fun a b s s' r h => ⟨⟨by rw [h.1], h.2⟩, rfl⟩
  case double =>
    unfold readVal decodeValue
    obtain ⟨h, hv⟩ := h.val (by decide) (by decide)
    exact Agr.bind (agr_double cfg h hv r) fun a b s s' r h => ⟨⟨by rw [h.1], h.2⟩, rfl⟩
  case string =>
    unfold readVal decodeValue
    obtain ⟨h, hv⟩ := h.val (by decide) (by decide)
    exact Agr.bind (agr_string env he cfg h hv r) fun a b s s' r h => ⟨⟨by rw [h.1], h.2⟩, rfl⟩
  case binary =>
    unfold readVal decodeValue
    obtain ⟨h, hv⟩ := h.val (by decide) (by decide)
    exact Agr.bind (agr_readBinary cfg h hv r) fun a b s s' r h => ⟨⟨by rw [h.1], h.2⟩, rfl⟩
  case uuid =>
    unfold readVal decodeValue
    obtain ⟨h, hv⟩ := h.val (by decide) (by decide)
    exact Agr.bind (agr_uuid cfg h hv r) fun a b s s' r h => ⟨⟨by rw [h.1], h.2⟩, rfl⟩
  all_goals cases ht

theorem decode_agr (env : Env) (he : env.Decodes) (cfg : Compact.Cfg) (sch : Schema) (hs : SchemaOK .dyn sch) (fuel' : Nat) :
    ∀ (fuel : Nat) (K : Frame) (st : State) (t : Ty) (s : Compact.St) (s' : CSt) (r : Bytes), 0 ≤ K.d' → K.d = K.d' → Ready K t.ttype st s s' →
    Agr (fun a b t t' => a = b ∧ At K st t t') (exec (readVal (Strict.rd cfg) sch .gen fuel t) s r) (exec (decodeValue env (compactRd cfg) sch fuel' t) s' r) := by
  induction fuel' with
  | zero =>
    intro fuel K st t s s' r h0 hk ha
    by_cases ht : t.hashable = true
    · exact decode_scalar env he cfg sch t ht fuel 0 r ha
    · have : exec (decodeValue env (compactRd cfg) sch 0 t) s' r = none := by
        cases t <;> first | exact absurd rfl ht | rfl
      rw [this]
      exact Agr.none_right
  | succ fuel' ih =>
    intro fuel K st t s s' r h0 hk ha
    by_cases ht : t.hashable = true
    · exact decode_scalar env he cfg sch t ht fuel _ r ha
    cases fuel with
    | zero =>
      have : exec (readVal (Strict.rd cfg) sch .gen 0 t) s r = none := by
        cases t <;> first | exact absurd rfl ht | rfl
      rw [this]
      exact Agr.none_left
    | succ fuel =>
      have ih' : ∀ t s s' r, At (Inside K st) .CONTAINER_READ s s' → Agr (fun a b t t' => a = b ∧ At (Inside K st) .CONTAINER_READ t t')
          (exec (readVal (Strict.rd cfg) sch .gen fuel t) s r)
          (exec (decodeValue env (compactRd cfg) sch fuel' t) s' r) := fun t s s' r ha => ih fuel (Inside K st) .CONTAINER_READ t s s' r h0 hk (.inside ha)
      cases t with
      | list e =>
        rw [readVal, decodeValue]
        obtain ⟨h, hv⟩ := ha.val (show TType.LIST ≠ _ by decide) (show TType.LIST ≠ _ by decide)
        refine Agr.bind (agr_listBegin cfg h hv r) fun p x s s' r hp => ?_
        obtain ⟨⟨rfl, -⟩, h⟩ := hp
        obtain ⟨u, n⟩ := p
        dsimp only
        by_cases hm : n > 0 ∧ u ≠ e.ttype
        · rw [if_pos hm]
          exact Agr.ext (.inl rfl)
        rw [if_neg hm]
        refine Agr.bind (Agr.repeatN (I := At (Inside K st) .CONTAINER_READ) (fun s s' r ha => ih' e s s' r ha) n.toNat s s' r h) fun as bs s s' r h => ?_
        obtain ⟨rfl, h⟩ := h
        obtain ⟨t, e, h⟩ := collectionEnd h r
        rw [exec_bind]
        show Agr _ (Res.andThen (exec Compact.readCollectionEnd s r) _) _
        rw [e]
        exact ⟨⟨rfl, h⟩, rfl⟩
      | set e =>
        rw [readVal, decodeValue]
        obtain ⟨h, hv⟩ := ha.val (show TType.SET ≠ _ by decide) (show TType.SET ≠ _ by decide)
        refine Agr.bind (agr_listBegin cfg h hv r) fun p x s s' r hp => ?_
        obtain ⟨⟨rfl, -⟩, h⟩ := hp
        obtain ⟨u, n⟩ := p
        dsimp only
        by_cases hm : n > 0 ∧ u ≠ e.ttype
        · rw [if_pos hm]
          exact Agr.ext (.inl rfl)
        rw [if_neg hm]
        by_cases hh : e.hashable = true
        · refine Agr.bind (Agr.repeatN (I := At (Inside K st) .CONTAINER_READ) (fun s s' r ha => ?_) n.toNat s s' r h) fun as bs s s' r h => ?_
          · unfold readHashed
            simp only [hh, if_true]
            rw [exec_bind_pure]
            exact ih' e s s' r ha
          · obtain ⟨rfl, h⟩ := h
            obtain ⟨t, e1, h⟩ := collectionEnd h r
            rw [exec_bind, newSet, hh]
            show Agr _ (Res.andThen (exec Compact.readCollectionEnd s r) _) _
            rw [e1]
            exact ⟨⟨rfl, h⟩, rfl⟩
        · by_cases h0 : n.toNat = 0
          · rw [h0]
            have : newSet e [] = .ok (.set (pySet [])) := by
              unfold newSet
              rw [if_pos (by simp)]
            show Agr _ (exec (do Compact.readCollectionEnd; pure (Val.set (pySet []))) s r) (exec (P.lift (newSet e [])) s' r)
            obtain ⟨t, e1, h⟩ := collectionEnd h r
            rw [this, exec_bind, e1]
            exact ⟨⟨rfl, h⟩, rfl⟩
          · refine Agr.never (fun v s1 r1 => ?_) fun v s1 r1 => ?_
            · obtain ⟨m, hm⟩ : ∃ m, n.toNat = m + 1 := ⟨n.toNat - 1, by omega⟩
              rw [hm]
              have : ∀ s r v s1 r1, exec (readHashed (readVal (Strict.rd cfg) sch .gen fuel) e) s r
                  ≠ some ((.ok v, s1), r1) := by
                intro s r v s1 r1
                unfold readHashed
                simp only [hh, Bool.false_eq_true, if_false]
                rw [exec_bind]
                rcases exec (readVal (Strict.rd cfg) sch .gen fuel e) s r with _ | ⟨⟨e | a, s⟩, r⟩ <;> nofun
              have h1 := this s r
              clear this
              show exec (P.bind (P.bind _ _) _) _ _ ≠ _
              rw [exec_Pbind, exec_Pbind]
              generalize exec (readHashed (readVal (Strict.rd cfg) sch .gen fuel) e) s r = x at h1
              rcases x with _ | ⟨⟨e | a, s⟩, r⟩
              · nofun
              · nofun
              · exact absurd rfl (h1 a s r)
            · rw [exec_bind]
              rcases hx : exec (P.repeatN n.toNat (decodeValue env (compactRd cfg) sch fuel' e)) s' r
                with _ | ⟨⟨e | vs, s⟩, r⟩
              · nofun
              · nofun
              · have := repeatN_length _ hx
                rw [Res.andThen_ok, newSet, if_neg]
                · nofun
                · cases vs with
                  | nil => exact absurd this.symm h0
                  | cons v vs => simpa using hh
      | map kt vt =>
        rw [readVal, decodeValue]
        obtain ⟨h, hv⟩ := ha.val (show TType.MAP ≠ _ by decide) (show TType.MAP ≠ _ by decide)
        refine Agr.bind (agr_orTypeError (agr_mapBegin cfg h hv r)) fun p x s s' r hp => ?_
        obtain ⟨⟨rfl, -⟩, h⟩ := hp
        obtain ⟨u, v, n⟩ := p
        dsimp only
        by_cases hm : n > 0 ∧ (u ≠ kt.ttype ∨ v ≠ vt.ttype)
        · rw [if_pos hm]
          exact Agr.ext (.inl rfl)
        rw [if_neg hm]
        refine Agr.bind (Agr.repeatN (I := At (Inside K st) .CONTAINER_READ) (fun s s' r ha => ?_) n.toNat s s' r h) fun as bs s s' r h => ?_
        · refine Agr.bind (ih' kt s s' r ha) fun p x s s' r h1 => ?_
          refine Agr.bind (ih' vt s s' r h1.2) fun p x s s' r h2 => ?_
          by_cases hh : kt.hashable = true
          · rw [if_pos hh, if_pos hh]
            exact ⟨⟨by rw [h1.1, h2.1], h2.2⟩, rfl⟩
          · rw [if_neg hh, if_neg hh]
            trivial
        · obtain ⟨rfl, h⟩ := h
          obtain ⟨t, e, h⟩ := collectionEnd h r
          rw [exec_bind]
          show Agr _ (Res.andThen (exec Compact.readCollectionEnd s r) _) _
          rw [e]
          exact ⟨⟨rfl, h⟩, rfl⟩
      | struct sid =>
        rw [readVal, decodeValue]
        obtain ⟨h, hv⟩ := Ready.struct ha
        rw [exec_bind, exec_incDepth, exec_bind, exec_incDepth]
        have hd : HasDepth.depth s = HasDepth.depth s' := h.depth.trans (hk.trans h.depth'.symm)
        by_cases hlt : HasDepth.depth s' < 64
        · rw [if_pos hlt, if_pos (by rw [hd]; exact hlt), Res.andThen_ok, Res.andThen_ok]
          refine Agr.tryDec (Q := fun a b t t' => a = b ∧ At (Deeper K) st t t') ?_ fun _ _ _ _ h => ⟨h.1, h.2.dec⟩
          have h' := h.inc
          generalize HasDepth.setDepth (HasDepth.depth s + 1) s = s at h' ⊢
          generalize HasDepth.setDepth (HasDepth.depth s' + 1) s' = s' at h' ⊢
          have h0' : 0 ≤ (Deeper K).d' := by show 0 ≤ K.d' + 1; omega
          have hk' : (Deeper K).d = (Deeper K).d' := by show K.d + 1 = K.d' + 1; omega
          clear h ha hd hlt ih' h0 hk
          generalize Deeper K = K at h' h0' hk' ⊢
          unfold readStructCore
          show Agr _ (exec (do
              Compact.readStructBegin
              let attrs ← P.whileTrue fuel (Thrift.readStructBody (Strict.rd cfg) .gen (sch sid) (readVal (Strict.rd cfg) sch .gen fuel)
                (Thrift.skip (Strict.rd cfg) fuel skipDepth)) (initAttrs (sch sid))
              Compact.readStructEnd
              pure (Val.struct attrs)) s r) _
          obtain ⟨u, u', e1, e2, h⟩ := structBegin h' hv cfg r
          rw [exec_bind, exec_bind, e1, e2, Res.andThen_ok, Res.andThen_ok]
          refine Agr.bind (Agr.whileTrue (I := fun a b s s' => a = b ∧ ∃ f, At (Loop K st f) .FIELD_READ s s') (Q' := fun a b s s' => a = b ∧ ∃ f, At (Loop K st f) .FIELD_READ s s')
            (fun as bs s s' r hi => ?_) fuel fuel' _ _ u u' r ⟨rfl, 0, h⟩) fun as bs s s' r hi => ?_
          · obtain ⟨rfl, f, hi⟩ := hi
            refine Agr.bind (agr_fieldBegin cfg hi r) fun p x s s' r hp => ?_
            obtain ⟨rfl, hp⟩ := hp
            obtain ⟨v, n⟩ := p
            dsimp only at hp ⊢
            rcases hp with ⟨h0, hp⟩ | ⟨h0, hp⟩
            · rw [if_pos h0, if_pos h0]
              exact ⟨.inr ⟨_, _, rfl, rfl, rfl, f, hp⟩, rfl⟩
            · rw [if_neg h0, if_neg h0]
              have after : ∀ (bs : List (Option Val)) (s : Compact.St) (s' : CSt) (r : Bytes), At (Loop K st n) (fieldState v) s s' →
                  Agr (fun c c' s s' => (∃ a b, c = .inl a ∧ c' = .inl b ∧ a = b ∧ ∃ f, At (Loop K st f) .FIELD_READ s s') ∨ ∃ a b, c = .inr a ∧ c' = .inr b ∧ a = b ∧ ∃ f, At (Loop K st f) .FIELD_READ s s')
                    (exec (do (Strict.rd cfg).readFieldEnd; pure (.inl bs) : P Compact.St (List (Option Val) ⊕ List (Option Val))) s r) (some ((.ok (.inl bs : List (Option Val) ⊕ List (Option Val)), s'), r)) := by
                intro bs s s' r h
                obtain ⟨w, e, h⟩ := fieldEnd h r
                rw [exec_bind]
                show Agr _ (Res.andThen (exec Compact.readFieldEnd s r) _) _
                rw [e]
                exact ⟨.inl ⟨_, _, rfl, rfl, rfl, n, h⟩, rfl⟩
              have hskip := skip_agr cfg fuel fuel' (Loop K st n) (fieldState v) skipDepth v s s' r hp (by
                show 64 - K.d' ≤ ((64 : Nat) : Int)
                omega)
              rw [specEntry_eq (hs sid).1 ((hs sid).2 rfl)]
              rw [show lookupField .gen (sch sid) n = (sch sid).findIdx? (fun f => f.fid == n) from rfl]
              generalize (sch sid).findIdx? (fun f => f.fid == n) = o
              rcases o with _ | i
              · exact Agr.bind hskip fun _ _ s s' r h => after _ s s' r h
              · dsimp only
                rcases hf : (sch sid)[i]? with _ | f
                · trivial
                · dsimp only
                  by_cases hty : v = f.ty.ttype
                  · rw [if_pos hty, if_neg (fun h => h hty.symm)]
                    refine Agr.bind (ih fuel (Loop K st n) (fieldState v) f.ty s s' r h0' hk' (hty ▸ hp)) fun p x s s' r h => ?_
                    obtain ⟨rfl, h⟩ := h
                    exact after _ s s' r h
                  · rw [if_neg hty, if_pos (fun h => hty h.symm)]
                    exact Agr.bind hskip fun _ _ s s' r h => after _ s s' r h
          · obtain ⟨rfl, f, hi⟩ := hi
            obtain ⟨w, w', e1, e2, h⟩ := structEnd hi cfg r
            rw [exec_bind, exec_bind, e1, e2]
            exact ⟨⟨rfl, h⟩, rfl⟩
        · rw [if_neg hlt, if_neg (by rw [hd]; exact hlt)]
          trivial
      | _ => exact absurd rfl ht

end CompactAgree
end Thrift.Fast
