import Verif.Proofs.Whole
import Verif.Model.Json
/-
A reading method of `TJSONProtocol` that returns a value was given every byte it asked for.
-/

namespace Thrift.Json

/-- Once the buffer returned less than was asked for, nothing is left, neither in the buffer nor in the
lookahead reader. -/
def Dry (s : St) (b : Bytes) (h : Bool) : Prop := h = true → b = [] ∧ (s.hasData = true → s.data = [])

/-- The buffer gave everything it was asked for. -/
def Fresh (_ : St) (_ : Bytes) (h : Bool) : Prop := h = false

theorem Fresh.dry {s : St} {b : Bytes} {h : Bool} (hf : Fresh s b h) : Dry s b h := fun e => by
  rw [show h = false from hf] at e
  cases e

/-- What is known after reading or peeking. -/
def Got (x : Bytes) (s : St) (b : Bytes) (h : Bool) : Prop := Dry s b h ∧ (h = true → x = [])

theorem got_of {x : Bytes} {s : St} {b : Bytes} {h : Bool} (hg : Got x s b h) (hx : x ≠ []) : Fresh s b h := by
  cases h with
  | false => rfl
  | true => exact absurd (hg.2 rfl) hx

theorem ht_read : HT Dry readerRead (fun x s b h => Got x s b h ∧ s.hasData = false) := by
  unfold readerRead
  refine HT.bind (Q := fun s0 s b h => s0 = s ∧ Dry s b h) (HT.get fun s b h hd => ⟨rfl, hd⟩) fun s0 => ?_
  refine HT.ite (fun hh => ?_) fun hh => ?_
  · refine HT.bind (Q := fun _ s b h => (Got s0.data s b h) ∧ s.hasData = false) (HT.set ?_) fun _ => HT.pure fun _ _ _ h => h
    rintro s b h ⟨rfl, hd⟩
    exact ⟨⟨fun e => ⟨(hd e).1, by simp⟩, fun e => (hd e).2 hh⟩, rfl⟩
  · refine HT.bind (Q := fun x s b h => s0 = s ∧ (h = true → b = [] ∧ x = [])) (HT.transRead ?_) fun x => ?_
    · rintro s b h ⟨rfl, hd⟩
      refine ⟨rfl, fun e => ?_⟩
      simp only [Bool.or_eq_true, decide_eq_true_eq] at e
      rcases e with e | e
      · rw [(hd e).1]; simp
      · have : b = [] := List.length_eq_zero_iff.mp (by omega)
        rw [this]; simp
    · refine HT.bind (Q := fun _ s b h => Got x s b h ∧ s.hasData = false) (HT.modify ?_) fun _ => HT.pure fun _ _ _ h => h
      rintro s b h ⟨rfl, hd⟩
      exact ⟨⟨fun e => ⟨(hd e).1, by simpa using fun h' => absurd h' (by simpa using hh)⟩, fun e => (hd e).2⟩, by simpa using hh⟩

theorem ht_peek : HT Dry readerPeek Got := by
  unfold readerPeek
  refine HT.bind (Q := fun s0 s b h => s0 = s ∧ Dry s b h) (HT.get fun s b h hd => ⟨rfl, hd⟩) fun s0 => ?_
  refine HT.ite (fun hh => ?_) fun hh => ?_
  · refine HT.pure ?_
    rintro s b h ⟨rfl, hd⟩
    exact ⟨hd, fun e => (hd e).2 hh⟩
  · refine HT.bind (Q := fun x s b h => s0 = s ∧ (h = true → b = [] ∧ x = [])) (HT.transRead ?_) fun x => ?_
    · rintro s b h ⟨rfl, hd⟩
      refine ⟨rfl, fun e => ?_⟩
      simp only [Bool.or_eq_true, decide_eq_true_eq] at e
      rcases e with e | e
      · rw [(hd e).1]; simp
      · have : b = [] := List.length_eq_zero_iff.mp (by omega)
        rw [this]; simp
    · refine HT.bind (Q := fun _ s b h => Got x s b h) (HT.modify ?_) fun _ => HT.pure fun _ _ _ h => h
      rintro s b h ⟨rfl, hd⟩
      exact ⟨fun e => ⟨(hd e).1, fun _ => (hd e).2⟩, fun e => (hd e).2⟩

/-- Returns only if everything was given. -/
abbrev Strict {α : Type} (m : P St α) : Prop := HT Dry m (fun _ => Fresh)

theorem Strict.keeps {α : Type} {m : P St α} (h : Strict m) : Keeps m := HT.pre h fun _ _ _ hf => Fresh.dry hf

/-- Leaves the situation as it is. -/
abbrev Lax {α : Type} (m : P St α) : Prop := HT Dry m (fun _ => Dry)

theorem Strict.lax {α : Type} {m : P St α} (h : Strict m) : Lax m := HT.mono h fun _ _ _ _ hf => Fresh.dry hf

theorem Strict.ofLax {α β : Type} {m : P St α} {k : α → P St β} (h : Lax m) (hk : ∀ a, Strict (k a)) : Strict (m >>= k) :=
  HT.bind h hk

/-- After everything was given, what follows keeps it so. -/
theorem Strict.bind {α β : Type} {m : P St α} {k : α → P St β} (h : Strict m) (hk : ∀ a, Keeps (k a)) : Strict (m >>= k) :=
  HT.bind h hk

theorem keeps_lift {α : Type} {r : Except Exc α} : Keeps (P.lift r : P St α) := HT.lift fun _ _ _ _ _ h => h
theorem keeps_modify {f : St → St} : Keeps (P.modify f : P St Unit) := HT.modify fun _ _ _ h => h

theorem strict_syntax (c : UInt8) : Strict (readSyntaxChar c) := by
  unfold readSyntaxChar
  refine HT.bind ht_read fun x => HT.ite (fun hx => HT.pure fun s b h hg => got_of hg.1 (by simp [hx])) fun _ => HT.raise

theorem lax_ctx : Lax ctxRead := by
  unfold ctxRead
  refine HT.bind (Q := fun _ => Dry) (HT.get fun s b h hd => hd) fun s0 => ?_
  have hm : HT Dry (P.modify advanceTop) (fun _ => Dry) := HT.modify fun s b h hd => hd
  cases (advance (top s0.stack)).1 with
  | none => exact hm
  | some c => exact HT.bind (strict_syntax c).lax fun _ => hm

theorem keeps_pop : Keeps popR := by
  unfold popR
  refine HT.bind (Q := fun _ => Fresh) (HT.get fun s b h hd => hd) fun s0 => ?_
  split
  · exact HT.raise
  · exact HT.set fun _ _ _ h => h

theorem ord_ne_nil {x : Bytes} {o : Nat} (h : ord x = .ok o) : x ≠ [] := by
  intro e
  rw [e] at h
  cases h

theorem ht_ord {x : Bytes} : HT (fun s b h => Got x s b h) (P.lift (ord x)) (fun _ => Fresh) :=
  HT.lift fun _ e _ _ _ hg => got_of hg (ord_ne_nil e)

section
variable (cfg : Cfg)

theorem strict_utf8 (fuel : Nat) (a : Bytes × Nat) : Strict (P.whileTrue fuel (utf8Body cfg) a) := by
  refine HT.whileTrue (I := fun _ => Dry) (Q := fun _ => Fresh) (fun a => ?_) fuel a
  unfold utf8Body
  refine HT.bind ht_peek fun x => HT.bind ht_ord fun o => HT.ite (fun _ => ?_) fun _ => HT.pure fun _ _ _ h => h
  refine HT.bind (HT.pre ht_read fun _ _ _ h => Fresh.dry h) fun c => ?_
  refine HT.bind (HT.pre ht_ord fun _ _ _ h => h.1) fun x => ?_
  refine HT.bind (Q := fun _ => Fresh) (HT.lift fun _ _ _ _ _ h => h) fun _ => HT.pure fun _ _ _ h => Fresh.dry h

/-- The outcome of an iteration: go on in any situation, return only if everything was given. -/
def Next (r : Acc ⊕ PyStr) : St → Bytes → Bool → Prop :=
  match r with
  | .inl _ => Dry
  | .inr _ => Fresh

theorem ht_append (a : Acc) (cs : PyStr) : HT Dry (appendChar cfg a cs) Next := by
  unfold appendChar
  refine HT.bind (Q := fun _ => Dry) (HT.lift fun _ _ _ _ _ h => h) fun _ => HT.ite (fun _ => HT.raise) fun _ => ?_
  exact HT.pure fun _ _ _ h => h

theorem ht_unicode (a : Acc) : HT (fun s b h => Dry s b h ∧ s.hasData = false) (unicodeEscape cfg a) Next := by
  unfold unicodeEscape
  refine HT.bind (Q := fun _ => Dry) (HT.transRead ?_) fun raw => ?_
  · rintro s b h ⟨hd, hh⟩ e
    refine ⟨?_, fun e' => by rw [hh] at e'; cases e'⟩
    simp only [Bool.or_eq_true, decide_eq_true_eq] at e
    rcases e with e | e
    · rw [(hd e).1]; simp
    · exact List.drop_eq_nil_of_le (by omega)
  refine HT.bind (Q := fun _ => Dry) (HT.lift fun _ _ _ _ _ h => h) fun text => ?_
  dsimp only
  cases pyInt16 text with
  | none => exact HT.raise
  | some code =>
    refine HT.ite (fun _ => HT.ite (fun _ => HT.raise) fun _ => HT.pure fun _ _ _ h => h) fun _ => ?_
    refine HT.ite (fun _ => HT.ite (fun _ => HT.raise) fun _ => ?_) fun _ => ?_
    · exact HT.bind (Q := fun _ => Dry) (HT.lift fun _ _ _ _ _ h => h) fun _ => ht_append cfg _ _
    · exact HT.bind (Q := fun _ => Dry) (HT.lift fun _ _ _ _ _ h => h) fun _ => ht_append cfg _ _

theorem ht_string (fuel : Nat) (a : Acc) : HT Dry (stringBody cfg fuel a) Next := by
  unfold stringBody
  refine HT.bind ht_read fun x => ?_
  dsimp only
  refine HT.ite (fun hx => HT.pure fun s b h hg => got_of hg.1 (by simp [hx])) fun _ => ?_
  refine HT.bind (HT.pre ht_ord fun _ _ _ h => h.1) fun o => HT.ite (fun _ => ?_) fun _ => ?_
  · refine HT.bind (HT.pre ht_read fun _ _ _ h => Fresh.dry h) fun y => ?_
    refine HT.bind (Q := fun _ s b h => Dry s b h ∧ s.hasData = false)
      (HT.lift fun _ e _ _ _ hg => ⟨hg.1.1, hg.2⟩) fun o => HT.ite (fun _ => ht_unicode cfg _) fun _ => ?_
    split
    · exact HT.raise
    · exact HT.pre (ht_append cfg _ _) fun _ _ _ h => h.1
  · refine HT.bind (HT.pre (strict_utf8 cfg fuel _) fun _ _ _ h => Fresh.dry h) fun r => ?_
    refine HT.bind (Q := fun _ => Dry) (HT.lift fun _ _ _ _ _ h => Fresh.dry h) fun _ => ht_append cfg _ _

theorem strict_stringBody (fuel : Nat) : Strict (readStringBody cfg fuel) := by
  unfold readStringBody
  refine HT.bind (strict_syntax 34).lax fun _ => ?_
  exact HT.whileTrue (I := fun _ => Dry) (Q := fun _ => Fresh) (fun a => (ht_string cfg fuel a).mono
    fun r _ _ _ h => by cases r <;> exact h) fuel _

theorem strict_string (fuel : Nat) : Strict (readJSONString cfg fuel) :=
  Strict.ofLax lax_ctx fun _ => strict_stringBody cfg fuel

theorem strict_numeric (fuel : Nat) : Strict (readNumericChars cfg fuel) := by
  unfold readNumericChars
  refine HT.bind (Q := fun _ => Fresh) (HT.whileTrue (I := fun _ => Dry) (Q := fun _ => Fresh) (fun a => ?_) fuel _)
    fun _ => keeps_lift
  unfold numericBody
  refine HT.bind ht_peek fun x => HT.ite (fun hx => ?_) fun _ => ?_
  · exact HT.pure fun _ _ _ h => got_of h (fun e => by rw [e] at hx; cases hx)
  · refine HT.bind (HT.pre ht_read fun _ _ _ h => h.1) fun y => ?_
    refine HT.bind (Q := fun _ => Dry) (HT.lift fun _ _ _ _ _ h => h.1.1) fun _ => HT.pure fun _ _ _ h => h

theorem lax_quotes : Lax readQuotes := by
  unfold readQuotes
  refine HT.bind (Q := fun _ => Dry) (HT.get fun s b h hd => hd) fun s0 => HT.ite (fun _ => (strict_syntax 34).lax) fun _ => ?_
  exact HT.pure fun _ _ _ h => h

theorem keeps_quotes : Keeps readQuotes := by
  unfold readQuotes
  refine HT.bind (Q := fun _ => Fresh) (HT.get fun s b h hd => hd) fun s0 => HT.ite (fun _ => (strict_syntax 34).keeps) fun _ => ?_
  exact HT.pure fun _ _ _ h => h

theorem strict_integer (fuel : Nat) : Strict (readJSONInteger cfg fuel) := by
  unfold readJSONInteger
  refine Strict.ofLax lax_ctx fun _ => Strict.ofLax lax_quotes fun _ => (strict_numeric cfg fuel).bind fun _ => ?_
  refine keeps_quotes.bind fun _ => ?_
  split
  · exact Keeps.pure
  · exact Keeps.raise

theorem strict_double (py : Floats) (fuel : Nat) : Strict (readJSONDouble py cfg fuel) := by
  unfold readJSONDouble
  refine Strict.ofLax lax_ctx fun _ => ?_
  refine HT.bind ht_peek fun x => HT.pre (A := Dry) ?_ fun _ _ _ h => h.1
  have hfin : ∀ text, Keeps (match py.parse text with
      | some x => pure x
      | none => P.raise TProtocolException.INVALID_DATA : P St UInt64) := by
    intro text
    split
    · exact Keeps.pure
    · exact Keeps.raise
  refine HT.ite (fun _ => (strict_stringBody cfg fuel).bind hfin) fun _ => ?_
  refine HT.bind (Q := fun _ => Dry) (HT.get fun s b h hd => hd) fun s0 => ?_
  have hrest := (strict_numeric cfg fuel).bind hfin
  exact HT.ite (fun _ => HT.bind (strict_syntax 34).lax fun _ => hrest) fun _ => hrest

theorem strict_base64 (fuel : Nat) : Strict (readJSONBase64 cfg fuel) := by
  unfold readJSONBase64
  exact (strict_string cfg fuel).bind fun _ => keeps_lift

theorem strict_objectStart : Strict readJSONObjectStart := by
  unfold readJSONObjectStart
  exact Strict.ofLax lax_ctx fun _ => (strict_syntax 123).bind fun _ => keeps_modify

theorem strict_arrayStart : Strict readJSONArrayStart := by
  unfold readJSONArrayStart
  exact Strict.ofLax lax_ctx fun _ => (strict_syntax 91).bind fun _ => keeps_modify

theorem strict_objectEnd : Strict readJSONObjectEnd := by
  unfold readJSONObjectEnd
  exact (strict_syntax 125).bind fun _ => keeps_pop

theorem strict_arrayEnd : Strict readJSONArrayEnd := by
  unfold readJSONArrayEnd
  exact (strict_syntax 93).bind fun _ => keeps_pop

theorem strict_type (fuel : Nat) : Strict (readType cfg fuel) := by
  unfold readType
  exact (strict_string cfg fuel).bind fun _ => keeps_lift

theorem strict_fieldBegin (fuel : Nat) : Strict (readFieldBegin cfg fuel) := by
  unfold readFieldBegin
  refine HT.bind ht_peek fun x => HT.ite (fun hx => HT.pure fun s b h hg => got_of hg (by simp [hx])) fun _ => ?_
  refine HT.pre (A := Dry) ?_ fun _ _ _ h => h.1
  exact (strict_integer cfg fuel).bind fun _ => strict_objectStart.keeps.bind fun _ =>
    (strict_type cfg fuel).keeps.bind fun _ => Keeps.pure

theorem strict_mapBegin (fuel : Nat) : Strict (readMapBegin cfg fuel) := by
  unfold readMapBegin
  exact strict_arrayStart.bind fun _ => (strict_type cfg fuel).keeps.bind fun _ => (strict_type cfg fuel).keeps.bind fun _ =>
    (strict_integer cfg fuel).keeps.bind fun _ => strict_objectStart.keeps.bind fun _ => Keeps.pure

theorem strict_collection (fuel : Nat) : Strict (readCollectionBegin cfg fuel) := by
  unfold readCollectionBegin
  exact strict_arrayStart.bind fun _ => (strict_type cfg fuel).keeps.bind fun _ =>
    (strict_integer cfg fuel).keeps.bind fun _ => Keeps.pure

theorem strict_mapEnd : Strict readMapEnd := by
  unfold readMapEnd
  exact strict_objectEnd.bind fun _ => strict_arrayEnd.keeps

theorem strict_uuid (fuel : Nat) : Strict (readUuid cfg fuel) := by
  unfold readUuid
  refine (strict_string cfg fuel).bind fun _ => ?_
  split
  · exact Keeps.pure
  · exact Keeps.raise

theorem keepsOps (py : Floats) (fuel : Nat) : KeepsOps (rd py cfg fuel) where
  structBegin := strict_objectStart.keeps
  structEnd := strict_objectEnd.keeps
  fieldBegin := (strict_fieldBegin cfg fuel).keeps
  fieldEnd := strict_objectEnd.keeps
  mapBegin := (strict_mapBegin cfg fuel).keeps
  mapEnd := strict_mapEnd.keeps
  listBegin := (strict_collection cfg fuel).keeps
  listEnd := strict_arrayEnd.keeps
  setBegin := (strict_collection cfg fuel).keeps
  setEnd := strict_arrayEnd.keeps
  bool := (strict_integer cfg fuel).keeps.bind fun _ => Keeps.pure
  byte := (strict_integer cfg fuel).keeps
  i16 := (strict_integer cfg fuel).keeps
  i32 := (strict_integer cfg fuel).keeps
  i64 := (strict_integer cfg fuel).keeps
  double := (strict_double cfg py fuel).keeps
  string := (strict_string cfg fuel).keeps
  binary := (strict_base64 cfg fuel).keeps
  uuid := (strict_uuid cfg fuel).keeps

end

end Thrift.Json
