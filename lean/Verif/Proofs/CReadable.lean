import Verif.Model.CReadable
import Verif.Spec.CReadable
import Verif.Proofs.Simulate
import Verif.Props.Transport
import Verif.Props.Sasl
import Verif.Proofs.HeaderProtocol
/-
The decoder of the C extension over a transport.
-/

namespace Thrift.CReadable
open Spec

section
variable {σ α β : Type}

/-- The method does over every exact transport what it does over a memory buffer. -/
def Whole (m : P σ α) : Prop :=
  ∀ (τ : Type) (step : Nat → τ → Option (Except Exc Bytes × τ)) (R : τ → Bytes → Prop), Exact step R →
    ∀ s t b, R t b →
    match exec m s b with
    | none => (m s).run step t = none
    | some (r, b') => ∃ t', (m s).run step t = some (r, t') ∧ R t' b'

theorem Whole.ret {m : P σ α} (h : ∀ s, ∃ r, m s = .ret r) : Whole m := by
  intro τ step R _ s t b hb
  obtain ⟨r, e⟩ := h s
  unfold exec
  rw [e]
  exact ⟨t, rfl, hb⟩

theorem Whole.pure (a : α) : Whole (Pure.pure a : P σ α) := Whole.ret fun _ => ⟨_, rfl⟩
theorem Whole.Ppure (a : α) : Whole (P.pure a : P σ α) := Whole.ret fun _ => ⟨_, rfl⟩
theorem Whole.raise (e : Exc) : Whole (P.raise e : P σ α) := Whole.ret fun _ => ⟨_, rfl⟩
theorem Whole.lift (r : Except Exc α) : Whole (P.lift r : P σ α) := Whole.ret fun _ => ⟨_, rfl⟩
theorem Whole.get : Whole (P.get : P σ σ) := Whole.ret fun _ => ⟨_, rfl⟩
theorem Whole.set (s : σ) : Whole (P.set s) := Whole.ret fun _ => ⟨_, rfl⟩
theorem Whole.modify (f : σ → σ) : Whole (P.modify f) := Whole.ret fun _ => ⟨_, rfl⟩
theorem Whole.diverge : Whole (P.diverge : P σ α) := fun _ _ _ _ _ _ _ _ => rfl

/-- What is done with the result, value or exception, is whole. -/
theorem Whole.handle {m : P σ α} {k : Except Exc α × σ → Prog (Except Exc β × σ)} (hm : Whole m)
    (hk : ∀ r, Whole (fun s => k (r, s))) : Whole (fun s => (m s).bind k) := by
  intro τ step R hd s t b hb
  have h1 := hm τ step R hd s t b hb
  unfold exec at h1 ⊢
  rw [Prog.run_bind, Prog.run_bind]
  cases h : (m s).run memStep b with
  | none => rw [h] at h1; simp only at h1; rw [h1]
  | some r =>
    obtain ⟨⟨r, s1⟩, b1⟩ := r
    rw [h] at h1
    obtain ⟨t1, e1, hr⟩ := h1
    rw [e1]
    exact hk r τ step R hd s1 t1 b1 hr

theorem Whole.Pbind {m : P σ α} {k : α → P σ β} (hm : Whole m) (hk : ∀ a, Whole (k a)) :
    Whole (P.bind m k) := by
  refine Whole.handle hm fun r => ?_
  cases r with
  | ok a => exact hk a
  | error e => exact Whole.ret fun _ => ⟨_, rfl⟩

theorem Whole.bind {m : P σ α} {k : α → P σ β} (hm : Whole m) (hk : ∀ a, Whole (k a)) :
    Whole (m >>= k) := Whole.Pbind hm hk

theorem Whole.ite {c : Prop} [Decidable c] {m n : P σ α} (hm : Whole m) (hn : Whole n) :
    Whole (if c then m else n) := by
  split <;> assumption

theorem Whole.tryFinally {m : P σ α} {f : σ → σ} (hm : Whole m) : Whole (P.tryFinally m f) :=
  Whole.handle hm fun _ => Whole.ret fun _ => ⟨_, rfl⟩

theorem Whole.orTypeError {m : P σ α} (hm : Whole m) : Whole (Fast.orTypeError m) := by
  refine Whole.handle hm fun r => ?_
  cases r <;> exact Whole.ret fun _ => ⟨_, rfl⟩

theorem Whole.readAll (n : Int) : Whole (P.readAll n : P σ Bytes) := by
  intro τ step R hd s t b hb
  rw [exec_readAll]
  unfold P.readAll
  generalize n.toNat = k
  cases k with
  | zero => exact ⟨t, by simp [P.readAllLoop, P.pure, Prog.run], by simpa using hb⟩
  | succ k =>
    by_cases h : k + 1 ≤ b.length
    · rw [if_pos h]
      obtain ⟨t', e, hr⟩ := hd.gives (k + 1) t b hb h
      refine ⟨t', ?_, hr⟩
      have hl : (b.take (k + 1)).length = k + 1 := by rw [List.length_take]; omega
      simp only [P.readAllLoop, P.bind, P.transRead, Prog.bind, Prog.run, e]
      rw [if_neg (by omega), hl, Nat.sub_self]
      cases k <;> rfl
    · rw [if_neg h]
      obtain ⟨t', e, hr⟩ := hd.eof (k + 1) t b hb (by omega)
      refine ⟨t', ?_, hr⟩
      simp only [P.readAllLoop, P.bind, P.transRead, Prog.bind, Prog.run, e]

theorem Whole.repeatN {m : P σ α} (hm : Whole m) (n : Nat) : Whole (P.repeatN n m) := by
  induction n with
  | zero => exact Whole.Ppure _
  | succ n ih => exact Whole.Pbind hm fun _ => Whole.Pbind ih fun _ => Whole.Ppure _

theorem Whole.repeatN_ {m : P σ Unit} (hm : Whole m) (n : Nat) : Whole (P.repeatN_ n m) := by
  induction n with
  | zero => exact Whole.Ppure _
  | succ n ih => exact Whole.Pbind hm fun _ => ih

theorem Whole.whileTrue {body : α → P σ (α ⊕ β)} (hb : ∀ a, Whole (body a)) (f : Nat) (a : α) :
    Whole (P.whileTrue f body a) := by
  induction f generalizing a with
  | zero => exact Whole.diverge
  | succ f ih =>
    refine Whole.Pbind (hb a) fun r => ?_
    cases r with
    | inl a' => exact ih a'
    | inr b => exact Whole.Ppure _

theorem Whole.incDepth [HasDepth σ] : Whole (incDepth : P σ Unit) :=
  Whole.bind (Whole.modify _) fun _ => Whole.bind Whole.get fun _ =>
    Whole.ite (Whole.bind (Whole.modify _) fun _ => Whole.raise _) (Whole.pure _)

theorem Whole.readBytes (n : Int) : Whole (Fast.readBytes n : P σ Bytes) :=
  Whole.ite (Whole.raise _) (Whole.readAll _)

/-- Every operation of a reader of the extension is whole. -/
structure WholeOps (ops : Fast.Rd σ) : Prop where
  bool : Whole ops.readBool
  i8 : Whole ops.readI8
  i16 : Whole ops.readI16
  i32 : Whole ops.readI32
  i64 : Whole ops.readI64
  double : Whole ops.readDouble
  string : Whole ops.readString
  uuid : Whole ops.readUuid
  listBegin : Whole ops.readListBegin
  mapBegin : Whole ops.readMapBegin
  structBegin : Whole ops.readStructBegin
  structEnd : Whole ops.readStructEnd
  fieldBegin : Whole ops.readFieldBegin
  skipString : Whole ops.skipString
  skipUuid : Whole ops.skipUuid

variable [HasDepth σ]

theorem skip_whole {ops : Fast.Rd σ} (H : WholeOps ops) (fuel : Nat) (tt : Int) : Whole (Fast.skip ops fuel tt) := by
  induction fuel generalizing tt with
  | zero => exact Whole.diverge
  | succ f ih =>
    unfold Fast.skip
    refine Whole.bind Whole.incDepth fun _ => Whole.tryFinally ?_
    refine Whole.ite (Whole.bind H.bool fun _ => Whole.pure _) ?_
    refine Whole.ite (Whole.bind H.i8 fun _ => Whole.pure _) ?_
    refine Whole.ite (Whole.bind H.i16 fun _ => Whole.pure _) ?_
    refine Whole.ite (Whole.bind H.i32 fun _ => Whole.pure _) ?_
    refine Whole.ite (Whole.bind H.i64 fun _ => Whole.pure _) ?_
    refine Whole.ite (Whole.bind H.double fun _ => Whole.pure _) ?_
    refine Whole.ite H.skipString ?_
    refine Whole.ite (Whole.bind H.listBegin fun x => Whole.repeatN_ (ih _) _) ?_
    refine Whole.ite (Whole.bind H.mapBegin fun x => Whole.repeatN_ (Whole.bind (ih _) fun _ => ih _) _) ?_
    refine Whole.ite (Whole.bind H.structBegin fun _ => Whole.bind (Whole.whileTrue
      (fun _ => Whole.bind H.fieldBegin fun x => Whole.ite (Whole.pure _)
        (Whole.bind (ih _) fun _ => Whole.pure _)) _ _) fun _ => H.structEnd) ?_
    exact Whole.ite H.skipUuid (Whole.raise _)

theorem decodeValue_whole {ops : Fast.Rd σ} (H : WholeOps ops) (env : Fast.Env) (sch : Schema) (fuel : Nat) (t : Ty) :
    Whole (Fast.decodeValue env ops sch fuel t) := by
  induction fuel generalizing t with
  | zero =>
    cases t <;> unfold Fast.decodeValue
    · exact Whole.bind H.bool fun _ => Whole.pure _
    · exact Whole.bind H.i8 fun _ => Whole.pure _
    · exact Whole.bind H.i16 fun _ => Whole.pure _
    · exact Whole.bind H.i32 fun _ => Whole.pure _
    · exact Whole.bind H.i64 fun _ => Whole.pure _
    · exact Whole.bind H.double fun _ => Whole.pure _
    · exact Whole.bind H.string fun _ => Whole.pure _
    · exact Whole.bind H.string fun _ => Whole.pure _
    · exact Whole.bind H.uuid fun _ => Whole.pure _
    all_goals exact Whole.diverge
  | succ f ih =>
    cases t <;> try unfold Fast.decodeValue
    · exact Whole.bind H.bool fun _ => Whole.pure _
    · exact Whole.bind H.i8 fun _ => Whole.pure _
    · exact Whole.bind H.i16 fun _ => Whole.pure _
    · exact Whole.bind H.i32 fun _ => Whole.pure _
    · exact Whole.bind H.i64 fun _ => Whole.pure _
    · exact Whole.bind H.double fun _ => Whole.pure _
    · exact Whole.bind H.string fun _ => Whole.pure _
    · exact Whole.bind H.string fun _ => Whole.pure _
    · exact Whole.bind H.uuid fun _ => Whole.pure _
    · exact Whole.bind H.listBegin fun _ => Whole.ite (Whole.raise _)
        (Whole.bind (Whole.repeatN (ih _) _) fun _ => Whole.pure _)
    · exact Whole.bind H.listBegin fun _ => Whole.ite (Whole.raise _)
        (Whole.bind (Whole.repeatN (ih _) _) fun _ => Whole.lift _)
    · exact Whole.bind (Whole.orTypeError H.mapBegin) fun _ => Whole.ite (Whole.raise _)
        (Whole.bind (Whole.repeatN (Whole.bind (ih _) fun _ => Whole.bind (ih _) fun _ =>
          Whole.ite (Whole.pure _) (Whole.raise _)) _) fun _ => Whole.pure _)
    · refine Whole.bind Whole.incDepth fun _ => Whole.tryFinally ?_
      refine Whole.bind H.structBegin fun _ => Whole.bind (Whole.whileTrue (fun attrs => ?_) _ _)
        fun _ => Whole.bind H.structEnd fun _ => Whole.pure _
      refine Whole.bind H.fieldBegin fun x => Whole.ite (Whole.pure _) ?_
      split
      · exact Whole.bind (skip_whole H _ _) fun _ => Whole.pure _
      · split
        · exact Whole.raise _
        · exact Whole.ite (Whole.bind (skip_whole H _ _) fun _ => Whole.pure _)
            (Whole.bind (ih _) fun _ => Whole.pure _)
end

theorem readInt_whole (n : Nat) : Whole (Fast.readInt n) := Whole.bind (Whole.readBytes _) fun _ => Whole.pure _
theorem readByte_whole {σ : Type} : Whole (Fast.readByte : P σ Int) := Whole.bind (Whole.readBytes _) fun _ => Whole.pure _

theorem binary_whole (env : Fast.Env) (cfg : Binary.Cfg) : WholeOps (Fast.binaryRd env cfg) where
  bool := Whole.bind (Whole.readBytes _) fun _ => Whole.pure _
  i8 := readInt_whole _
  i16 := readInt_whole _
  i32 := readInt_whole _
  i64 := readInt_whole _
  double := Whole.bind (Whole.readBytes _) fun _ => Whole.pure _
  string := Whole.bind (readInt_whole _) fun _ => Whole.bind (Whole.lift _) fun _ => Whole.readBytes _
  uuid := Whole.handle (Whole.readAll _) fun r => by cases r <;> exact Whole.ret fun _ => ⟨_, rfl⟩
  listBegin := Whole.bind readByte_whole fun _ => Whole.bind (readInt_whole _) fun _ => Whole.bind (Whole.lift _) fun _ => Whole.pure _
  mapBegin := Whole.bind readByte_whole fun _ => Whole.bind readByte_whole fun _ => Whole.bind (readInt_whole _) fun _ =>
    Whole.bind (Whole.lift _) fun _ => Whole.pure _
  structBegin := Whole.pure _
  structEnd := Whole.pure _
  fieldBegin := Whole.bind readByte_whole fun _ => Whole.ite (Whole.pure _) (Whole.bind (readInt_whole _) fun _ => Whole.pure _)
  skipString := Whole.bind (readInt_whole _) fun _ => Whole.bind (Whole.readBytes _) fun _ => Whole.pure _
  skipUuid := Whole.bind (Whole.readBytes _) fun _ => Whole.pure _

theorem readVarintLoop_whole (bits : Nat) : ∀ (left val shift : Nat), Whole (Fast.readVarintLoop bits left val shift)
  | 0, _, _ => Whole.raise _
  | k + 1, _, _ => Whole.bind (Whole.readBytes _) fun _ => Whole.ite (readVarintLoop_whole bits k _ _) (Whole.pure _)

theorem varint32_whole : Whole Fast.readVarint32 := readVarintLoop_whole _ _ _ _

theorem compact_whole (cfg : Compact.Cfg) : WholeOps (Fast.compactRd cfg) where
  bool := by
    refine Whole.bind Whole.get fun s => ?_
    split
    · exact Whole.bind (Whole.set _) fun _ => Whole.pure _
    · exact Whole.bind (Whole.readBytes _) fun _ => Whole.pure _
  i8 := Whole.bind (Whole.readBytes _) fun _ => Whole.pure _
  i16 := Whole.bind (readVarintLoop_whole _ _ _ _) fun _ => Whole.pure _
  i32 := Whole.bind varint32_whole fun _ => Whole.pure _
  i64 := Whole.bind (readVarintLoop_whole _ _ _ _) fun _ => Whole.pure _
  double := Whole.bind (Whole.readBytes _) fun _ => Whole.pure _
  string := Whole.bind varint32_whole fun _ => Whole.bind (Whole.lift _) fun _ => Whole.ite (Whole.pure _) (Whole.readBytes _)
  uuid := Whole.readBytes 16
  listBegin := by
    refine Whole.bind readByte_whole fun _ => Whole.bind (Whole.lift _) fun _ => ?_
    refine Whole.ite ?_ ?_
    · exact Whole.bind varint32_whole fun _ => Whole.bind (Whole.pure _) fun _ => Whole.bind (Whole.lift _) fun _ => Whole.pure _
    · exact Whole.bind (Whole.pure _) fun _ => Whole.bind (Whole.lift _) fun _ => Whole.pure _
  mapBegin := Whole.bind varint32_whole fun _ => Whole.bind (Whole.lift _) fun _ => Whole.ite
    (Whole.bind readByte_whole fun _ => Whole.bind (Whole.lift _) fun _ => Whole.bind (Whole.lift _) fun _ => Whole.pure _) (Whole.pure _)
  structBegin := Whole.modify _
  structEnd := Whole.modify _
  fieldBegin := by
    refine Whole.bind readByte_whole fun b => Whole.bind (Whole.lift _) fun tt => Whole.ite (Whole.pure _) ?_
    refine Whole.bind Whole.get fun s => ?_
    refine Whole.ite (Whole.bind (Whole.pure _) fun tag => ?_) (Whole.bind (Whole.bind (readVarintLoop_whole _ _ _ _) fun _ => Whole.pure _) fun tag => ?_)
    all_goals
      refine Whole.ite ?_ ?_
      · exact Whole.bind (Whole.modify _) fun _ => Whole.bind (Whole.modify _) fun _ => Whole.pure _
      · exact Whole.bind (Whole.modify _) fun _ => Whole.pure _
  skipString := Whole.bind varint32_whole fun _ => Whole.bind (Whole.readBytes _) fun _ => Whole.pure _
  skipUuid := Whole.bind (Whole.readBytes _) fun _ => Whole.pure _


/-! ### One request -/

section
variable {σ τ : Type} (T : CReadable σ) (net : Nat → τ → Option (Except Exc Bytes × τ))

omit T in
theorem run_Pbind {α β : Type} (m : P σ α) (k : α → P σ β) (s : σ) (t : τ) : ((P.bind m k) s).run net t =
    match (m s).run net t with
    | none => none
    | some ((.ok a, s'), t') => (k a s').run net t'
    | some ((.error e, s'), t') => some ((.error e, s'), t') := by
  unfold P.bind
  rw [Prog.run_bind]
  cases (m s).run net t with
  | none => rfl
  | some y => obtain ⟨⟨r, s'⟩, t'⟩ := y; cases r <;> rfl

theorem over_readBytes (n : Nat) (e : Ext σ) (t : τ) :
    P.over (readBytes T) net n (e, t) =
      (match (readBuffer T n e) with
      | .ret (.ok got, e1) =>
        if got.length = n then some (.ok got, (e1, t))
        else
          match (T.refill got n e1.trans).run net t with
          | none => none
          | some ((.error x, s), t') => some (.error x, ({ trans := s, own := some (e1.buf T) }, t'))
          | some ((.ok _, s), t') =>
            if ((T.buf s).read n).1.length = n then some (.ok ((T.buf s).read n).1, ({ trans := T.setBuf ((T.buf s).read n).2 s }, t'))
            else some (.error .typeError, ({ trans := T.setBuf ((T.buf s).read n).2 s }, t'))
      | _ => none) := by
  have e0 : readBytes T n = P.bind (readBuffer T n) fun got =>
      if got.length = n then P.pure got
      else P.bind (refill T got n) fun _ => P.bind (readBuffer T n) fun got =>
        if got.length = n then P.pure got else P.raise .typeError := rfl
  unfold P.over
  simp only
  rw [e0, run_Pbind]
  have e1 : readBuffer T n e = .ret (.ok ((e.buf T).read n).1,
    match e.own with
    | none => { e with trans := T.setBuf ((T.buf e.trans).read n).2 e.trans }
    | some io => { e with own := some (io.read n).2 }) := rfl
  rw [e1]
  generalize ((e.buf T).read n).1 = got
  generalize (match e.own with
    | none => ({ e with trans := T.setBuf ((T.buf e.trans).read n).2 e.trans } : Ext σ)
    | some io => { e with own := some (io.read n).2 }) = f
  simp only [Prog.run]
  by_cases hl : got.length = n
  · rw [if_pos hl, if_pos hl]; rfl
  · rw [if_neg hl, if_neg hl, run_Pbind]
    have e2 : (refill T got n f).run net t = match (T.refill got n f.trans).run net t with
        | none => none
        | some ((.ok _, s), t') => some ((.ok (), { trans := s, own := none }), t')
        | some ((.error x, s), t') => some ((.error x, { trans := s, own := some (f.buf T) }), t') := by
      unfold refill
      rw [Prog.run_bind]
      cases (T.refill got n f.trans).run net t with
      | none => rfl
      | some y => obtain ⟨⟨r, s⟩, t'⟩ := y; cases r <;> rfl
    rw [e2]
    cases (T.refill got n f.trans).run net t with
    | none => rfl
    | some y =>
      obtain ⟨⟨r, s⟩, t'⟩ := y
      cases r with
      | error x => rfl
      | ok b =>
        simp only
        rw [run_Pbind]
        simp only [readBuffer, Ext.buf, Prog.run]
        by_cases h2 : ((T.buf s).read n).1.length = n
        · rw [if_pos h2, if_pos h2]; rfl
        · rw [if_neg h2, if_neg h2]; rfl

/-- What `cstringio_refill` has to do. -/
structure Refills (R : σ × τ → Bytes → Prop) : Prop where
  get_set : ∀ io s, T.buf (T.setBuf io s) = io
  pre : ∀ {s t b}, R (s, t) b → (T.buf s).unread <+: b
  take : ∀ {s t b n}, R (s, t) b → n ≤ (T.buf s).unread.length → R (T.setBuf ((T.buf s).read n).2 s, t) (b.drop n)
  refill : ∀ {s t b} {n : Nat}, R (s, t) b → (T.buf s).unread.length < n → n ≤ b.length →
    ∃ ret s' t', (T.refill (T.buf s).unread n (T.setBuf ((T.buf s).read n).2 s)).run net t = some ((.ok ret, s'), t') ∧
      n ≤ (T.buf s').unread.length ∧ R (s', t') b

/-- The extension and the transport have the same buffer. -/
def View (R : σ × τ → Bytes → Prop) (x : Ext σ × τ) (b : Bytes) : Prop := x.1.own = none ∧ R (x.1.trans, x.2) b

variable {T net}

theorem prefix_take {u b : Bytes} {n : Nat} (h : u <+: b) (hn : n ≤ u.length) : u.take n = b.take n := by
  obtain ⟨v, rfl⟩ := h
  rw [List.take_append_of_le_length hn]

theorem Refills.gives {R : σ × τ → Bytes → Prop} (H : Refills T net R) : Gives (P.over (readBytes T) net) (View R) := by
  rintro n ⟨⟨s, own⟩, t⟩ b ⟨ho, hR⟩ hn
  simp only at ho hR
  subst ho
  rw [over_readBytes]
  simp only [readBuffer, Ext.buf, BytesIO.read_fst]
  by_cases hl : n ≤ (T.buf s).unread.length
  · rw [if_pos (by rw [List.length_take]; omega)]
    exact ⟨_, by rw [prefix_take (H.pre hR) hl], rfl, H.take hR hl⟩
  · rw [if_neg (by rw [List.length_take]; omega), List.take_of_length_le (by omega)]
    obtain ⟨ret, s', t', e, h1, h2⟩ := H.refill hR (by omega) hn
    rw [e]
    simp only
    rw [if_pos (by rw [List.length_take]; omega)]
    exact ⟨_, by rw [prefix_take (H.pre h2) h1], rfl, H.take h2 h1⟩

/-- What `cstringio_refill` has to do at the end: `Dead` says that nothing is to come. -/
structure Ends (T : CReadable σ) (net : Nat → τ → Option (Except Exc Bytes × τ)) (R : σ × τ → Bytes → Prop) (Dead : σ × τ → Prop) : Prop where
  eof : ∀ {s t b} {n : Nat}, R (s, t) b → b.length < n →
    ∃ s' t', (T.refill (T.buf s).unread n (T.setBuf ((T.buf s).read n).2 s)).run net t = some ((.error .eof, s'), t') ∧ Dead (s', t')
  dead : ∀ {s t} {n : Nat}, Dead (s, t) → 0 < n → ∃ s' t', (T.refill [] n s).run net t = some ((.error .eof, s'), t') ∧ Dead (s', t')

/-- The same, or the transport has failed and the extension has an old buffer, which is used up. -/
def ViewEnd (R : σ × τ → Bytes → Prop) (Dead : σ × τ → Prop) (x : Ext σ × τ) (b : Bytes) : Prop :=
  View R x b ∨ (b = [] ∧ Dead (x.1.trans, x.2) ∧ ∃ io, x.1.own = some io ∧ io.unread = [])

theorem Refills.exact {R : σ × τ → Bytes → Prop} {Dead : σ × τ → Prop} (H : Refills T net R) (K : Ends T net R Dead) :
    Exact (P.over (readBytes T) net) (ViewEnd R Dead) := by
  constructor
  · intro n x b hx hn
    rcases hx with hx | ⟨rfl, hD, io, ho, hio⟩
    · obtain ⟨x', e, h⟩ := H.gives n x b hx hn
      exact ⟨x', e, .inl h⟩
    · obtain ⟨⟨s, own⟩, t⟩ := x
      simp only at hD ho
      subst ho
      obtain rfl : n = 0 := by simpa using hn
      rw [over_readBytes]
      simp only [readBuffer, Ext.buf, BytesIO.read_fst, hio, List.take_nil, List.length_nil, if_true, List.drop_nil]
      exact ⟨_, rfl, .inr ⟨rfl, hD, _, rfl, by rw [BytesIO.read_unread, hio]; rfl⟩⟩
  · rintro n ⟨⟨s, own⟩, t⟩ b hx hn
    rw [over_readBytes]
    rcases hx with ⟨ho, hR⟩ | ⟨rfl, hD, io, ho, hio⟩
    · simp only at ho hR
      subst ho
      have hp := (H.pre hR).length_le
      simp only [readBuffer, Ext.buf, BytesIO.read_fst]
      rw [if_neg (by rw [List.length_take]; omega), List.take_of_length_le (by omega)]
      obtain ⟨s', t', e, h⟩ := K.eof hR hn
      rw [e]
      exact ⟨_, rfl, .inr ⟨rfl, h, _, rfl, by rw [H.get_set, BytesIO.read_unread, List.drop_of_length_le (by omega)]⟩⟩
    · simp only at hD ho
      subst ho
      simp only [readBuffer, Ext.buf, BytesIO.read_fst, hio, List.take_nil, List.length_nil]
      rw [if_neg (by simp at hn; omega)]
      obtain ⟨s', t', e, h⟩ := K.dead (n := n) hD (by simpa using hn)
      rw [e]
      exact ⟨_, rfl, .inr ⟨rfl, h, _, rfl, by rw [BytesIO.read_unread, hio, List.drop_nil]⟩⟩
end

/-! ### The transports -/

section
variable {τ : Type} {net : Nat → τ → Option (Except Exc Bytes × τ)} {rest : τ → Bytes}

theorem memory_refills : Refills memory net InMemory where
  get_set _ _ := rfl
  pre h := by cases h; exact List.prefix_refl _
  take h _ := by cases h; exact BytesIO.read_unread ..
  refill h h1 h2 := by cases h; simp only [memory] at h1 h2; omega

theorem memory_ends : Ends memory net InMemory fun _ => True where
  eof _ _ := ⟨_, _, rfl, trivial⟩
  dead _ _ := ⟨_, _, rfl, trivial⟩

theorem buffered_pre {s : Buffered.St} {t : τ} {b : Bytes} (h : InBuffered rest (s, t) b) : s.rbuf.unread <+: b := ⟨_, h⟩

theorem buffered_take {s : Buffered.St} {t : τ} {b : Bytes} {n : Nat} (h : InBuffered rest (s, t) b) (hn : n ≤ s.rbuf.unread.length) :
    InBuffered rest ({ s with rbuf := (s.rbuf.read n).2 }, t) (b.drop n) := by
  cases h
  simp only [InBuffered, BytesIO.read_unread, List.drop_append_of_le_length hn]

theorem refillRest_until (hd : DeliversUntil net rest) (ret : Bytes) (n : Nat) (s : Buffered.St) (t : τ) (hn : n ≤ (ret ++ rest t).length) :
    ∃ b t', (Buffered.refillRest ret n s).run net t = some ((.ok b, { s with rbuf := BytesIO.of b }), t') ∧ n ≤ b.length ∧ b ++ rest t' = ret ++ rest t := by
  unfold Buffered.refillRest
  by_cases hl : ret.length < n
  · rw [if_pos hl]
    rw [List.length_append] at hn
    obtain ⟨t', e, hr⟩ := run_readAllLoop_until (σ := Buffered.St) hd (n - ret.length) (n - ret.length) (Nat.le_refl _) [] s t (by omega)
    refine ⟨ret ++ (rest t).take (n - ret.length), t', ?_, by simp; omega, by rw [hr, List.append_assoc, List.take_append_drop]⟩
    show ((P.bind (P.readAll _) _) s).run net t = _
    unfold P.bind P.readAll
    rw [Prog.run_bind, Int.toNat_natCast, e]
    rfl
  · rw [if_neg hl]
    exact ⟨ret, t, rfl, by omega, rfl⟩

theorem buffered_refills (hd : DeliversUntil net rest) : Refills buffered net (InBuffered rest) where
  get_set _ _ := rfl
  pre h := buffered_pre h
  take h hn := buffered_take h hn
  refill {s t b n} h h1 h2 := by
    cases h
    simp only [buffered] at h1 h2 ⊢
    have fin : ∀ (ret : Bytes) (s1 : Buffered.St) (t1 : τ), ret ++ rest t1 = s.rbuf.unread ++ rest t →
        ∃ r s' t', (Buffered.refillRest ret n s1).run net t1 = some ((.ok r, s'), t') ∧ n ≤ s'.rbuf.unread.length ∧
          InBuffered rest (s', t') (s.rbuf.unread ++ rest t) := by
      intro ret s1 t1 he
      obtain ⟨b, t', e, g1, g2⟩ := refillRest_until hd ret n s1 t1 (by rw [he]; exact h2)
      exact ⟨b, _, t', e, g1, by simp only [InBuffered, BytesIO.of_unread]; rw [g2, he]⟩
    have hun : ∀ s1 : Buffered.St, s1.rbufSize = s.rbufSize → Buffered.refill s.rbuf.unread n s1 =
        if n < s.rbufSize then Prog.read s.rbufSize fun r =>
          match r with
          | .ok d => Buffered.refillRest (s.rbuf.unread ++ d) n s1
          | .error e => Prog.ret (.error e, s1)
        else Buffered.refillRest s.rbuf.unread n s1 := by
      intro s1 hs1
      show ((if n < s1.rbufSize then _ else _ : P Buffered.St Bytes)) s1 = _
      rw [hs1]
      split
      · show Prog.read _ _ = Prog.read _ _
        congr 1
        funext r
        cases r <;> rfl
      · rfl
    rw [hun { s with rbuf := (s.rbuf.read n).2 } rfl]
    by_cases hr : n < s.rbufSize
    · rw [if_pos hr]
      obtain ⟨m, hm⟩ : ∃ m, s.rbufSize = m + 1 := ⟨s.rbufSize - 1, by omega⟩
      have hne : rest t ≠ [] := by
        intro h0
        rw [h0, List.append_nil] at h2
        omega
      obtain ⟨d, t1, e1, e2, -, -⟩ := hd m t hne
      rw [← hm] at e1
      rw [Prog.run, e1]
      exact fin _ _ t1 (by rw [e2, List.append_assoc])
    · rw [if_neg hr]
      exact fin _ _ t rfl

theorem buffered_ends (hd : Delivers net rest) : Ends buffered net (InBuffered rest) fun x => rest x.2 = [] where
  eof {s t b n} h hn := by
    cases h
    obtain ⟨r, s', t', e, h⟩ := buffered_refill hd s.rbuf.unread n { s with rbuf := (s.rbuf.read n).2 } t
    refine ⟨s', t', ?_⟩
    cases r with
    | ok b =>
      have := congrArg List.length h.2.1
      simp only [List.length_append] at this hn
      have := h.1
      omega
    | error x =>
      obtain ⟨rfl, -, -, h4⟩ := h
      exact ⟨e, h4⟩
  dead {s t n} h hn := by
    obtain ⟨r, s', t', e, h'⟩ := buffered_refill hd [] n s t
    refine ⟨s', t', ?_⟩
    cases r with
    | ok b =>
      have := congrArg List.length h'.2.1
      simp only at h
      rw [h] at this
      simp only [List.length_append, List.length_nil] at this
      have := h'.1
      omega
    | error x =>
      obtain ⟨rfl, -, -, h4⟩ := h'
      exact ⟨e, h4⟩

theorem run_while {σ α β : Type} (body : α → P σ (α ⊕ β)) (f : Nat) (a : α) (s : σ) (t : τ) : (P.whileTrue (f + 1) body a s).run net t =
    match (body a s).run net t with
    | none => none
    | some ((.ok (.inl a'), s'), t') => (P.whileTrue f body a' s').run net t'
    | some ((.ok (.inr b), s'), t') => some ((.ok b, s'), t')
    | some ((.error e, s'), t') => some ((.error e, s'), t') := by
  show ((P.bind (body a) _) s).run net t = _
  rw [run_Pbind]
  cases (body a s).run net t with
  | none => rfl
  | some y =>
    obtain ⟨⟨r, s'⟩, t'⟩ := y
    cases r with
    | error e => rfl
    | ok r => cases r <;> rfl

/-- The body of the loop of the refill functions of framed transports -/
def frameBody {σ : Type} (rf : P σ Unit) (val : σ → Bytes) (n : Nat) (pre : Bytes) : P σ (Bytes ⊕ Bytes) :=
  if pre.length < n then do
    rf
    let s ← P.get
    pure (.inl (pre ++ val s))
  else pure (.inr pre)

theorem frameBody_run {σ : Type} (rf : P σ Unit) (val : σ → Bytes) (n : Nat) (pre : Bytes) (s : σ) (t : τ) : (frameBody rf val n pre s).run net t =
    if pre.length < n then
      match (rf s).run net t with
      | none => none
      | some ((.ok _, s'), t') => some ((.ok (.inl (pre ++ val s')), s'), t')
      | some ((.error e, s'), t') => some ((.error e, s'), t')
    else some ((.ok (.inr pre), s), t) := by
  unfold frameBody
  split
  · show ((P.bind rf _) s).run net t = _
    rw [run_Pbind]
    rcases (rf s).run net t with _ | ⟨⟨_ | _, _⟩, _⟩ <;> rfl
  · rfl

/-- The body of the loop of the refill functions that call `read` -/
def readBody {σ : Type} (read : Nat → P σ Bytes) (n : Nat) (ret : Bytes) : P σ (Bytes ⊕ Bytes) :=
  if ret.length < n then do
    let d ← read (n - ret.length)
    pure (.inl (ret ++ d))
  else pure (.inr ret)

theorem readBody_run {σ : Type} (read : Nat → P σ Bytes) (n : Nat) (pre : Bytes) (s : σ) (t : τ) : (readBody read n pre s).run net t =
    if pre.length < n then
      match (read (n - pre.length) s).run net t with
      | none => none
      | some ((.ok d, s'), t') => some ((.ok (.inl (pre ++ d)), s'), t')
      | some ((.error e, s'), t') => some ((.error e, s'), t')
    else some ((.ok (.inr pre), s), t) := by
  unfold readBody
  split
  · show ((P.bind (read (n - pre.length)) _) s).run net t = _
    rw [run_Pbind]
    rcases (read (n - pre.length) s).run net t with _ | ⟨⟨_ | _, _⟩, _⟩ <;> rfl
  · rfl

/-- The loop of the refill functions of framed transports: `rf` reads a frame, `val` is its content,
`F s t bs` says that the batches `bs` are to come. -/
theorem frame_loop {σ : Type} {rf : P σ Unit} {val : σ → Bytes} {F : σ → τ → List Bytes → Prop}
    (hnext : ∀ s t b bs, F s t (b :: bs) → ∃ s' t', (rf s).run net t = some ((.ok (), s'), t') ∧ val s' = b ∧ F s' t' bs) (n : Nat) :
    ∀ (bs : List Bytes) (fuel : Nat) (pre : Bytes) (s : σ) (t : τ), bs.length < fuel → F s t bs → n ≤ (pre ++ bs.flatten).length →
    ∃ bs1 bs2 s' t', bs = bs1 ++ bs2 ∧ F s' t' bs2 ∧ n ≤ (pre ++ bs1.flatten).length ∧
      (P.whileTrue fuel (frameBody rf val n) pre s).run net t = some ((.ok (pre ++ bs1.flatten), s'), t') := by
  intro bs
  induction bs with
  | nil =>
    intro fuel pre s t hf hF hn
    obtain ⟨fuel, rfl⟩ : ∃ k, fuel = k + 1 := ⟨fuel - 1, by omega⟩
    refine ⟨[], [], s, t, rfl, hF, hn, ?_⟩
    rw [run_while, frameBody_run, if_neg (by simp at hn; omega)]
    simp
  | cons b bs ih =>
    intro fuel pre s t hf hF hn
    obtain ⟨fuel, rfl⟩ : ∃ k, fuel = k + 1 := ⟨fuel - 1, by omega⟩
    by_cases hl : pre.length < n
    · obtain ⟨s', t', e, hv, hF'⟩ := hnext s t b bs hF
      obtain ⟨bs1, bs2, s'', t'', h1, h2, h3, h4⟩ := ih fuel (pre ++ b) s' t' (by simp at hf; omega) hF' (by simpa using hn)
      refine ⟨b :: bs1, bs2, s'', t'', by rw [h1]; rfl, h2, by simpa using h3, ?_⟩
      rw [run_while, frameBody_run, if_pos hl, e]
      simp only [hv]
      rw [List.flatten_cons, ← List.append_assoc]
      exact h4
    · refine ⟨[], b :: bs, s, t, rfl, hF, by simp; omega, ?_⟩
      rw [run_while, frameBody_run, if_neg hl]
      simp

theorem frame_loop_eof {σ : Type} {rf : P σ Unit} {val : σ → Bytes} {F : σ → τ → List Bytes → Prop}
    (hnext : ∀ s t b bs, F s t (b :: bs) → ∃ s' t', (rf s).run net t = some ((.ok (), s'), t') ∧ val s' = b ∧ F s' t' bs)
    (hend : ∀ s t, F s t [] → ∃ s' t', (rf s).run net t = some ((.error .eof, s'), t') ∧ F s' t' []) (n : Nat) :
    ∀ (bs : List Bytes) (fuel : Nat) (pre : Bytes) (s : σ) (t : τ), bs.length < fuel → F s t bs → (pre ++ bs.flatten).length < n →
    ∃ s' t', F s' t' [] ∧
      (P.whileTrue fuel (frameBody rf val n) pre s).run net t = some ((.error .eof, s'), t') := by
  intro bs
  induction bs with
  | nil =>
    intro fuel pre s t hf hF hn
    obtain ⟨fuel, rfl⟩ : ∃ k, fuel = k + 1 := ⟨fuel - 1, by omega⟩
    obtain ⟨s', t', e, hF'⟩ := hend s t hF
    refine ⟨s', t', hF', ?_⟩
    rw [run_while, frameBody_run, if_pos (by simpa using hn), e]
  | cons b bs ih =>
    intro fuel pre s t hf hF hn
    obtain ⟨fuel, rfl⟩ : ∃ k, fuel = k + 1 := ⟨fuel - 1, by omega⟩
    obtain ⟨s', t', e, hv, hF'⟩ := hnext s t b bs hF
    obtain ⟨s'', t'', h2, h4⟩ := ih fuel (pre ++ b) s' t' (by simp at hf; omega) hF' (by simpa using hn)
    refine ⟨s'', t'', h2, ?_⟩
    rw [run_while, frameBody_run, if_pos (by simp at hn; omega), e]
    simp only [hv]
    exact h4

/-! `TFramedTransport` -/

def FramesToCome (rest : τ → Bytes) (_ : Framed.St) (t : τ) (bs : List Bytes) : Prop := (∀ f ∈ bs, f.length < 2 ^ 31) ∧ rest t = frames bs

theorem framed_next (hd : DeliversUntil net rest) (s : Framed.St) (t : τ) (b : Bytes) (bs : List Bytes) (h : FramesToCome rest s t (b :: bs)) :
    ∃ s' t', (Framed.readFrame s).run net t = some ((.ok (), s'), t') ∧ s'.rbuf.value = b ∧ FramesToCome rest s' t' bs := by
  obtain ⟨h1, h2⟩ := h
  have hl : b.length < 2 ^ 31 := h1 b (by simp)
  have hx : exec Framed.readFrame s (rest t) = some ((.ok (), { s with rbuf := BytesIO.of b }), frames bs) := by
    rw [h2, show frames (b :: bs) = frame b ++ frames bs from rfl]
    unfold Framed.readFrame frame
    rw [exec_bind, List.append_assoc]
    show (Res.andThen (exec (P.readAll ((4 : Nat) : Int)) s _) _) = _
    rw [exec_readAll_append 4 s _ _ (beInt_length _ _), Res.andThen_ok, exec_bind,
      unpackS_beInt (by omega) (inRange32_of_lt hl), exec_readAll_append _ s _ _ rfl, Res.andThen_ok]
    rfl
  obtain ⟨t', e, hr⟩ := Framed.readFrame_steady.upTo τ net rest hd s t _ _ _ hx
  exact ⟨_, t', e, rfl, fun f hf => h1 f (by simp [hf]), hr⟩

theorem framed_end (hd : Delivers net rest) (s : Framed.St) (t : τ) (h : FramesToCome rest s t []) :
    ∃ s' t', (Framed.readFrame s).run net t = some ((.error .eof, s'), t') ∧ FramesToCome rest s' t' [] := by
  have hs := Framed.readFrame_steady.any τ net rest hd s t
  rw [h.2] at hs
  obtain ⟨t', e, hr⟩ := hs
  exact ⟨s, t', e, by simp, hr⟩

theorem framed_take {fuel : Nat} {s : Framed.St} {t : τ} {b : Bytes} {n : Nat} (h : InFramed rest fuel (s, t) b) (hn : n ≤ s.rbuf.unread.length) :
    InFramed rest fuel ({ s with rbuf := (s.rbuf.read n).2 }, t) (b.drop n) := by
  obtain ⟨bs, h1, h2, h3, rfl⟩ := h
  exact ⟨bs, h1, h2, h3, by simp only [BytesIO.read_unread, List.drop_append_of_le_length hn]⟩

theorem framed_refill_run (fuel : Nat) (pre : Bytes) (n : Nat) (s : Framed.St) (t : τ) : (Framed.refill fuel pre n s).run net t =
    match (P.whileTrue fuel (frameBody Framed.readFrame (fun s => s.rbuf.value) n) pre s).run net t with
    | none => none
    | some ((.ok r, s'), t') => some ((.ok r, { s' with rbuf := BytesIO.of r }), t')
    | some ((.error e, s'), t') => some ((.error e, s'), t') := by
  show ((P.bind (P.whileTrue fuel (frameBody Framed.readFrame (fun s => s.rbuf.value) n) pre) _) s).run net t = _
  rw [run_Pbind]
  rcases (P.whileTrue fuel (frameBody Framed.readFrame (fun s => s.rbuf.value) n) pre s).run net t with _ | ⟨⟨_ | _, _⟩, _⟩ <;> rfl

theorem framed_refills (hd : DeliversUntil net rest) (fuel : Nat) : Refills (framed fuel) net (InFramed rest fuel) where
  get_set _ _ := rfl
  pre h := by obtain ⟨bs, _, _, _, rfl⟩ := h; exact List.prefix_append _ _
  take h hn := framed_take h hn
  refill {s t b n} h h1 h2 := by
    obtain ⟨bs, g1, g2, g3, rfl⟩ := h
    obtain ⟨bs1, bs2, s', t', rfl, k2, k3, k4⟩ := frame_loop (framed_next hd) n bs fuel s.rbuf.unread { s with rbuf := (s.rbuf.read n).2 } t g2 ⟨g1, g3⟩ h2
    refine ⟨s.rbuf.unread ++ bs1.flatten, { s' with rbuf := BytesIO.of (s.rbuf.unread ++ bs1.flatten) }, t', ?_, k3, bs2, k2.1, ?_, k2.2, ?_⟩
    · show (Framed.refill fuel _ n _).run net t = _
      rw [framed_refill_run]
      rw [show ((framed fuel).buf s) = s.rbuf from rfl, show (framed fuel).setBuf (s.rbuf.read n).2 s = { s with rbuf := (s.rbuf.read n).2 } from rfl, k4]
    · simp only [List.length_append] at g2; omega
    · simp only [BytesIO.of_unread, List.append_assoc, List.flatten_append]

theorem framed_ends (hd : Delivers net rest) (fuel : Nat) : Ends (framed fuel) net (InFramed rest fuel) fun x => 0 < fuel ∧ rest x.2 = [] where
  eof {s t b n} h hn := by
    obtain ⟨bs, g1, g2, g3, rfl⟩ := h
    obtain ⟨s', t', k1, k2⟩ := frame_loop_eof (framed_next hd.until) (framed_end hd) n bs fuel s.rbuf.unread { s with rbuf := (s.rbuf.read n).2 } t g2 ⟨g1, g3⟩ hn
    refine ⟨s', t', ?_, by omega, k1.2⟩
    show (Framed.refill fuel _ n _).run net t = _
    rw [framed_refill_run]
    rw [show ((framed fuel).buf s) = s.rbuf from rfl, show (framed fuel).setBuf (s.rbuf.read n).2 s = { s with rbuf := (s.rbuf.read n).2 } from rfl, k2]
  dead {s t n} h hn := by
    obtain ⟨s', t', k1, k2⟩ := frame_loop_eof (framed_next hd.until) (framed_end hd) n [] fuel [] s t h.1 ⟨by simp, h.2⟩ (by simpa using hn)
    refine ⟨s', t', ?_, h.1, k1.2⟩
    show (Framed.refill fuel _ n _).run net t = _
    rw [framed_refill_run, k2]

/-! `TSaslClientTransport` -/

section
variable {μ ω : Type} (c : Sasl.Mech μ)

def BatchesToCome (rest : τ → Bytes) (s : Sasl.St μ ω) (t : τ) (bs : List Bytes) : Prop := ∃ es, Sasl.Unwraps c s.mech bs es ∧ rest t = frames es

variable {c}

theorem sasl_next (hd : DeliversUntil net rest) (s : Sasl.St μ ω) (t : τ) (b : Bytes) (bs : List Bytes) (h : BatchesToCome c rest s t (b :: bs)) :
    ∃ s' t', (Sasl.readFrame c s).run net t = some ((.ok (), s'), t') ∧ s'.rbuf.value = b ∧ BatchesToCome c rest s' t' bs := by
  obtain ⟨es, h1, h2⟩ := h
  cases h1 with
  | @next _ m1 _ e _ es hu hl h3 =>
    have hx := Sasl.exec_readFrame c s (frames es) hl hu
    rw [show frame e ++ frames es = rest t from h2.symm] at hx
    obtain ⟨t', e', hr⟩ := (Sasl.readFrame_steady c).upTo τ net rest hd s t _ _ _ hx
    exact ⟨_, t', e', rfl, es, h3, hr⟩

theorem sasl_end (hd : Delivers net rest) (s : Sasl.St μ ω) (t : τ) (h : BatchesToCome c rest s t []) :
    ∃ s' t', (Sasl.readFrame c s).run net t = some ((.error .eof, s'), t') ∧ BatchesToCome c rest s' t' [] := by
  obtain ⟨es, h1, h2⟩ := h
  cases h1 with
  | done m =>
    have hs := (Sasl.readFrame_steady c).any τ net rest hd s t
    rw [h2] at hs
    obtain ⟨t', e, hr⟩ := hs
    exact ⟨s, t', e, [], .done _, hr⟩

theorem sasl_refill_run (fuel : Nat) (pre : Bytes) (n : Nat) (s : Sasl.St μ ω) (t : τ) : (saslRefill c fuel pre n s).run net t =
    match (P.whileTrue fuel (frameBody (Sasl.readFrame c) (fun s => s.rbuf.value) n) pre s).run net t with
    | none => none
    | some ((.ok r, s'), t') => some ((.ok r, { s' with rbuf := BytesIO.of r }), t')
    | some ((.error e, s'), t') => some ((.error e, s'), t') := by
  show ((P.bind (P.whileTrue fuel (frameBody (Sasl.readFrame c) (fun s => s.rbuf.value) n) pre) _) s).run net t = _
  rw [run_Pbind]
  rcases (P.whileTrue fuel (frameBody (Sasl.readFrame c) (fun s => s.rbuf.value) n) pre s).run net t with _ | ⟨⟨_ | _, _⟩, _⟩ <;> rfl

theorem sasl_refills (hd : DeliversUntil net rest) (fuel : Nat) : Refills (sasl (ω := ω) c fuel) net (InSasl c rest fuel) where
  get_set _ _ := rfl
  pre h := by obtain ⟨bs, _, _, _, _, rfl⟩ := h; exact List.prefix_append _ _
  take h hn := by
    obtain ⟨bs, es, h1, h2, h3, rfl⟩ := h
    simp only [sasl] at hn
    exact ⟨bs, es, h1, h2, h3, by simp only [sasl, BytesIO.read_unread, List.drop_append_of_le_length hn]⟩
  refill {s t b n} h h1 h2 := by
    obtain ⟨bs, es, g1, g2, g3, rfl⟩ := h
    obtain ⟨bs1, bs2, s', t', rfl, ⟨es2, k2, k5⟩, k3, k4⟩ := frame_loop (sasl_next hd) n bs fuel s.rbuf.unread { s with rbuf := (s.rbuf.read n).2 } t g2 ⟨es, g1, g3⟩ h2
    refine ⟨s.rbuf.unread ++ bs1.flatten, { s' with rbuf := BytesIO.of (s.rbuf.unread ++ bs1.flatten) }, t', ?_, k3, bs2, es2, k2, ?_, k5, ?_⟩
    · show (saslRefill c fuel _ n _).run net t = _
      rw [sasl_refill_run]
      rw [show ((sasl c fuel).buf s) = s.rbuf from rfl, show (sasl c fuel).setBuf (s.rbuf.read n).2 s = { s with rbuf := (s.rbuf.read n).2 } from rfl, k4]
    · simp only [List.length_append] at g2; omega
    · simp only [BytesIO.of_unread, List.append_assoc, List.flatten_append]

theorem sasl_ends (hd : Delivers net rest) (fuel : Nat) : Ends (sasl (ω := ω) c fuel) net (InSasl c rest fuel) fun x => 0 < fuel ∧ rest x.2 = [] where
  eof {s t b n} h hn := by
    obtain ⟨bs, es, g1, g2, g3, rfl⟩ := h
    obtain ⟨s', t', ⟨es', k1, k3⟩, k2⟩ := frame_loop_eof (sasl_next (c := c) hd.until) (sasl_end hd) n bs fuel s.rbuf.unread { s with rbuf := (s.rbuf.read n).2 } t g2 ⟨es, g1, g3⟩ hn
    refine ⟨s', t', ?_, by omega, by cases k1; exact k3⟩
    show (saslRefill c fuel _ n _).run net t = _
    rw [sasl_refill_run]
    rw [show ((sasl c fuel).buf s) = s.rbuf from rfl, show (sasl c fuel).setBuf (s.rbuf.read n).2 s = { s with rbuf := (s.rbuf.read n).2 } from rfl, k2]
  dead {s t n} h hn := by
    obtain ⟨s', t', ⟨es', k1, k3⟩, k2⟩ := frame_loop_eof (sasl_next (c := c) hd.until) (sasl_end hd) n [] fuel [] s t h.1 ⟨[], .done _, h.2⟩ (by simpa using hn)
    refine ⟨s', t', ?_, h.1, by cases k1; exact k3⟩
    show (saslRefill c fuel _ n _).run net t = _
    rw [sasl_refill_run, k2]
end

/-! What is in the buffer -/

theorem buffer_refills {σ : Type} {T : CReadable σ} (hT : ∀ io s, T.buf (T.setBuf io s) = io) (t0 : τ) : Refills T net (InBuffer T t0) where
  get_set := hT
  pre h := by cases h.1; exact List.prefix_refl _
  take h _ := by
    obtain ⟨rfl, rfl⟩ := h
    exact ⟨by simp only [hT, BytesIO.read_unread], rfl⟩
  refill h h1 h2 := by
    obtain ⟨rfl, rfl⟩ := h
    simp only at h1 h2
    omega

/-! `THeaderTransport` without frames -/

theorem header_refill_run (z : Zlib) (fuel : Nat) (pre : Bytes) (n : Nat) (s : Header.St) (t : τ) : (headerRefill z fuel pre n s).run net t =
    match (P.whileTrue fuel (readBody (Header.read z) n) pre s).run net t with
    | none => none
    | some ((.ok r, s'), t') => some ((.ok r, { s' with rbuf := BytesIO.of r }), t')
    | some ((.error e, s'), t') => some ((.error e, s'), t') := by
  show ((P.bind (P.whileTrue fuel (readBody (Header.read z) n) pre) _) s).run net t = _
  rw [run_Pbind]
  rcases (P.whileTrue fuel (readBody (Header.read z) n) pre s).run net t with _ | ⟨⟨_ | _, _⟩, _⟩ <;> rfl

theorem unframed_loop (hd : DeliversUntil net rest) (z : Zlib) (n : Nat) : ∀ (fuel : Nat) (pre : Bytes) (s : Header.St) (t : τ),
    HeaderProtocol.Unframed s → s.rbuf.unread = [] → n ≤ (pre ++ rest t).length → n - pre.length < fuel →
    ∃ d s' t', (P.whileTrue fuel (readBody (Header.read z) n) pre s).run net t = some ((.ok (pre ++ d), s'), t') ∧
      HeaderProtocol.Unframed s' ∧ n ≤ (pre ++ d).length ∧ d ++ rest t' = rest t := by
  intro fuel
  induction fuel with
  | zero => intro pre s t _ _ _ h; omega
  | succ fuel ih =>
    intro pre s t hu h0 hn hf
    by_cases hl : pre.length < n
    · have hr := HeaderProtocol.read_unframed z net (n - pre.length) s t hu (by rw [h0]; simp; omega)
      have hne : rest t ≠ [] := by
        intro h
        rw [h, List.append_nil] at hn
        omega
      obtain ⟨p, t1, e, h1, h2, h3⟩ := hd (n - pre.length - 1) t hne
      rw [show n - pre.length - 1 + 1 = n - pre.length by omega] at e
      rw [h0, List.length_nil, Nat.sub_zero, e] at hr
      simp only [List.nil_append] at hr
      have hrun : (Header.read z (n - pre.length) s).run net t = some ((.ok p, { s with rbuf := (s.rbuf.read (n - pre.length : Nat)).2 }), t1) := by
        unfold P.over at hr
        simp only at hr
        cases hq : (Header.read z (n - pre.length) s).run net t with
        | none => rw [hq] at hr; simp at hr
        | some y =>
          obtain ⟨⟨r, s'⟩, t'⟩ := y
          rw [hq] at hr
          simp only [Option.some.injEq, Prod.mk.injEq] at hr
          obtain ⟨rfl, rfl, rfl⟩ := hr
          rfl
      have hpos := List.length_pos_iff.2 h3
      obtain ⟨d, s', t', k1, k2, k3, k4⟩ := ih (pre ++ p) { s with rbuf := (s.rbuf.read (n - pre.length : Nat)).2 } t1 hu
        (by simp only; rw [BytesIO.read_unread, h0, List.drop_nil]) (by rw [List.append_assoc, ← h1]; exact hn) (by rw [List.length_append]; omega)
      refine ⟨p ++ d, s', t', ?_, k2, by simpa using k3, by rw [h1, List.append_assoc, k4]⟩
      rw [run_while, readBody_run, if_pos hl, hrun]
      simp only
      rw [← List.append_assoc]
      exact k1
    · refine ⟨[], s, t, by rw [run_while, readBody_run, if_neg hl]; simp, hu, by simp; omega, rfl⟩

theorem unframed_refills (hd : DeliversUntil net rest) (z : Zlib) (fuel : Nat) : Refills (header z fuel) net (InUnframed rest fuel) where
  get_set _ _ := rfl
  pre h := by obtain ⟨_, rfl, _⟩ := h; exact List.prefix_append _ _
  take h hn := by
    obtain ⟨hu, rfl, hf⟩ := h
    refine ⟨hu, ?_, by simp only [List.length_drop] at hf ⊢; omega⟩
    simp only [header] at hn ⊢
    rw [BytesIO.read_unread, List.drop_append_of_le_length hn]
  refill {s t b n} h h1 h2 := by
    obtain ⟨hu, rfl, hf⟩ := h
    simp only [header] at h1 h2 hf
    obtain ⟨d, s', t', k1, k2, k3, k4⟩ := unframed_loop hd z n fuel s.rbuf.unread { s with rbuf := (s.rbuf.read n).2 } t hu
      (by simp only; rw [BytesIO.read_unread, List.drop_of_length_le (by omega)]) h2 (by omega)
    refine ⟨s.rbuf.unread ++ d, { s' with rbuf := BytesIO.of (s.rbuf.unread ++ d) }, t', ?_, k3, k2, ?_, hf⟩
    · show (headerRefill z fuel _ n _).run net t = _
      rw [header_refill_run]
      rw [show ((header z fuel).buf s) = s.rbuf from rfl, show (header z fuel).setBuf (s.rbuf.read n).2 s = { s with rbuf := (s.rbuf.read n).2 } from rfl, k1]
    · simp only [BytesIO.of_unread]
      rw [List.append_assoc, k4]

/-! `TZlibTransport`, when a piece is enough -/

section
variable {ζ δ : Type} (z : ZlibT.Codec ζ δ)

theorem inflateInto_run {s : ZlibT.St ζ δ} {piece out : Bytes} {zr : δ}
    (h : z.decompress (z.tail s.zr ++ piece) (s.max - s.decompressed) s.zr = (.ok out, zr)) (ht : z.tail zr = []) (h0 : s.rbuf.unread = []) (hne : out ≠ []) :
    ∃ s1, ZlibT.inflateInto z piece s = (.ok true, s1) ∧ s1.rbuf = BytesIO.of out ∧ s1.max = s.max := by
  unfold ZlibT.inflateInto
  simp only [h]
  rw [if_neg (by simpa using ht)]
  simp only [show (s.rbuf.read (-1)).1 = [] from h0, List.nil_append]
  have : ¬ ([] : Bytes).length + out.length = 0 := by
    simpa using hne
  rw [if_neg this]
  exact ⟨_, rfl, rfl, rfl⟩

theorem zlib_read_run {net : Nat → τ → Option (Except Exc Bytes × τ)} {s s1 : ZlibT.St ζ δ} {t t' : τ} {piece : Bytes} (fuel n : Nat)
    (h0 : s.rbuf.unread = []) (hn : net n t = some (.ok piece, t'))
    (hi : ZlibT.inflateInto z piece { s with rbuf := (s.rbuf.read n).2 } = (.ok true, s1)) :
    (ZlibT.read z (fuel + 1) n s).run net t = some ((.ok (s1.rbuf.unread.take n), { s1 with rbuf := (s1.rbuf.read n).2 }), t') := by
  unfold ZlibT.read
  rw [run_Pbind]
  simp only [ZlibT.take, Prog.run, BytesIO.read_fst, h0, List.take_nil, List.length_nil]
  rw [if_neg (by omega), run_Pbind]
  unfold ZlibT.fill
  rw [run_Pbind]
  have hc : (ZlibT.readComp z n { s with rbuf := (s.rbuf.read n).2 }).run net t = some ((.ok true, s1), t') := by
    simp only [ZlibT.readComp, P.bind, P.transRead, Prog.bind, Prog.run, hn, hi]
  rw [hc]
  simp only [if_true, P.pure, Prog.run, ZlibT.take, BytesIO.read_fst]

theorem zlibRest_done {net : Nat → τ → Option (Except Exc Bytes × τ)} (fuel : Nat) (ret : Bytes) (n : Nat) (s : ZlibT.St ζ δ) (t : τ) (hn : n ≤ ret.length) :
    (zlibRest z (fuel + 1) ret n s).run net t = some ((.ok ret, { s with rbuf := BytesIO.of ret }), t) := by
  show ((P.bind (P.whileTrue (fuel + 1) (readBody (ZlibT.read z (fuel + 1)) n) ret) _) s).run net t = _
  rw [run_Pbind, run_while, readBody_run, if_neg (by omega)]
  rfl

/-- One piece, of which 4096 bytes are taken -/
theorem zlib_refill_run {net : Nat → τ → Option (Except Exc Bytes × τ)} {s : ZlibT.St ζ δ} {t t' : τ} {piece out : Bytes} {zr : δ} (fuel n : Nat) (pre : Bytes)
    (hlt : n < 4096) (h0 : s.rbuf.unread = []) (hnet : net 4096 t = some (.ok piece, t'))
    (h : z.decompress (z.tail s.zr ++ piece) (s.max - s.decompressed) s.zr = (.ok out, zr)) (ht : z.tail zr = []) (hne : out ≠ [])
    (hn : n ≤ pre.length + (out.take 4096).length) :
    ∃ s', (zlibRefill z (fuel + 1) pre n s).run net t = some ((.ok (pre ++ out.take 4096), s'), t') ∧ s'.rbuf = BytesIO.of (pre ++ out.take 4096) := by
  obtain ⟨s1, h1, h2, -⟩ := inflateInto_run z (s := { s with rbuf := (s.rbuf.read (4096 : Nat)).2 }) (piece := piece) h ht
    (by simp only; rw [BytesIO.read_unread, h0]; rfl) hne
  have hr := zlib_read_run z (net := net) fuel 4096 h0 hnet h1
  refine ⟨{ s1 with rbuf := BytesIO.of (pre ++ out.take 4096) }, ?_, rfl⟩
  · unfold zlibRefill
    rw [if_pos (show n < DEFAULT_BUFFSIZE from hlt)]
    show ((P.bind (ZlibT.read z (fuel + 1) 4096) _) s).run net t = _
    rw [run_Pbind, hr]
    simp only
    rw [h2, BytesIO.of_unread, zlibRest_done z _ _ _ _ _ (by rw [List.length_append]; exact hn)]

theorem zlib_refills (net : Nat → τ → Option (Except Exc Bytes × τ)) (fuel : Nat) : Refills (zlib z (fuel + 1)) net (InZlib z net) where
  get_set _ _ := rfl
  pre h := by
    obtain ⟨_, h | ⟨_, _, _, _, _, _, _, h⟩⟩ := h
    · rw [← h]; exact List.prefix_refl _
    · rw [← h]; exact List.prefix_append _ _
  take {s t b n} h hn := by
    obtain ⟨hl, h | ⟨piece, t', out, zr, h1, h2, h3, h⟩⟩ := h
    · refine ⟨by rw [List.length_drop]; omega, .inl ?_⟩
      rw [← h]
      exact BytesIO.read_unread ..
    · refine ⟨by rw [List.length_drop]; omega, .inr ⟨piece, t', out, zr, h1, h2, h3, ?_⟩⟩
      rw [← h]
      simp only [zlib] at hn ⊢
      rw [BytesIO.read_unread, List.drop_append_of_le_length hn]
  refill {s t b n} h h1 h2 := by
    obtain ⟨hl, h | ⟨piece, t', out, zr, g1, g2, g3, h⟩⟩ := h
    · simp only at h
      simp only [zlib, h] at h1
      omega
    · simp only at h g1 g2
      have hlen := congrArg List.length h
      rw [List.length_append] at hlen
      simp only [zlib] at h1
      have ho : out.take 4096 = out := List.take_of_length_le (by omega)
      obtain ⟨s', k1, k2⟩ := zlib_refill_run z (s := { s with rbuf := (s.rbuf.read n).2 }) fuel n s.rbuf.unread (by omega)
        (by simp only; rw [BytesIO.read_unread, List.drop_of_length_le (by omega)]) g1 g2 g3 (by rintro rfl; simp at hlen; omega) (by rw [ho]; omega)
      rw [ho, h] at k1 k2
      exact ⟨b, s', t', k1, by show n ≤ s'.rbuf.unread.length; rw [k2, BytesIO.of_unread]; exact h2, hl, .inl (by simp only; rw [k2, BytesIO.of_unread])⟩
end
end

end Thrift.CReadable
