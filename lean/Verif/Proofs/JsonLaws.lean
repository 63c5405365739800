import Verif.Proofs.JsonRead
/-
The reading methods of `TJSONProtocol` implement the language of tokens.
-/

namespace Thrift.Json
open Spec Spec.Json

/-- What may follow in state `s`. The flag `hasData` of a description marks that a closing brace must come
next. -/
def Follow (s : St) (rest : Bytes) : Prop :=
  (s.hasData = true → rest.head? = some 125) ∧ Ends s.stack rest

/-- Outside of everything nothing is read ahead. -/
def OkP (s : St) (p : Bool) : Prop := top s.stack = .base → p = false

/-- `m` consumes the bytes `b` and returns `a`, over any transport, if what follows may follow. -/
def Holds {α : Type} (m : P St α) (s : St) (b : Bytes) (a : α) (s' : St) : Prop :=
  (∀ rest, Follow s' rest → Follow s (b ++ rest)) ∧
  ∀ rest p, Follow s' rest → OkP s p →
    ∃ p', OkP s' p' ∧ Steps m ⟨s.stack, s.depth, b ++ rest, p⟩ a ⟨s'.stack, s'.depth, rest, p'⟩

theorem Holds.bind {α β : Type} {m : P St α} {k : α → P St β} {s s1 s2 : St} {b1 b2 : Bytes} {a : α} {c : β}
    (h1 : Holds m s b1 a s1) (h2 : Holds (k a) s1 b2 c s2) : Holds (m >>= k) s (b1 ++ b2) c s2 := by
  refine ⟨fun rest hr => ?_, fun rest p hr hp => ?_⟩
  · rw [List.append_assoc]
    exact h1.1 _ (h2.1 _ hr)
  · obtain ⟨p1, hp1, e1⟩ := h1.2 (b2 ++ rest) p (h2.1 _ hr) hp
    obtain ⟨p2, hp2, e2⟩ := h2.2 rest p1 hr hp1
    rw [List.append_assoc]
    exact ⟨p2, hp2, Steps.bind e1 e2⟩

theorem Holds.pure {α : Type} (a : α) (s : St) : Holds (Pure.pure a) s [] a s :=
  ⟨fun _ h => h, fun _ p _ hp => ⟨p, hp, Steps.pure _ _⟩⟩

theorem Holds.lift_ok {α : Type} (a : α) (s : St) : Holds (P.lift (.ok a)) s [] a s :=
  ⟨fun _ h => h, fun _ p _ hp => ⟨p, hp, Steps.lift_ok _ _⟩⟩

theorem Holds.map {α β : Type} {m : P St α} {k : α → P St β} {s s1 : St} {b : Bytes} {a : α} {c : β}
    (h1 : Holds m s b a s1) (h2 : k a = Pure.pure c) : Holds (m >>= k) s b c s1 := by
  rw [← List.append_nil b]
  exact Holds.bind h1 (by rw [h2]; exact Holds.pure c s1)

theorem Holds.bindLift {α β : Type} {m : P St α} {k : α → P St β} {s s1 : St} {b : Bytes} {a : α} {c : β}
    (h1 : Holds m s b a s1) (h2 : k a = P.lift (.ok c)) : Holds (m >>= k) s b c s1 := by
  rw [← List.append_nil b]
  exact Holds.bind h1 (by rw [h2]; exact Holds.lift_ok c s1)

/-- The decoding relation of the JSON protocol. -/
def jsonRel : DecRel St where
  holds := Holds
  pure := Holds.pure
  bind := Holds.bind
  incDepth s h := ⟨fun _ h => h, fun _ p _ hp => ⟨p, hp, Steps.incDepth h⟩⟩
  tryDec h := ⟨fun rest hr => h.1 rest hr, fun rest p hr hp => by
    obtain ⟨p', hp', e⟩ := h.2 rest p hr hp
    exact ⟨p', hp', e.tryFinally⟩⟩

/-- A bracket or a string or a number begins with a byte that ends a number. -/
def NotDigit : Prim → Prop
  | .opn b _ => isNumeric [b] = false
  | .cls b => isNumeric [b] = false
  | _ => True

theorem ends_prim (stk : List Ctx) (x : Prim) (hx : NotDigit x) (rest : Bytes) :
    Ends stk (primBytes stk x ++ rest) := by
  intro h1 h2
  cases stk with
  | nil => exact absurd rfl h1
  | cons c cs =>
    cases x with
    | cls b => exact ⟨b, rest, rfl, hx⟩
    | num d =>
      cases c with
      | base => exact absurd rfl h1
      | list first => cases first with
        | true => exact absurd rfl h2
        | false => exact ⟨44, _, rfl, rfl⟩
      | pair first colon => cases first with
        | true => exact ⟨34, _, rfl, rfl⟩
        | false => cases colon with
          | true => exact ⟨58, _, rfl, rfl⟩
          | false => exact ⟨44, _, rfl, rfl⟩
    | str d =>
      cases c with
      | base => exact absurd rfl h1
      | list first => cases first with
        | true => exact absurd rfl h2
        | false => exact ⟨44, _, rfl, rfl⟩
      | pair first colon => cases first with
        | true => exact ⟨34, _, rfl, rfl⟩
        | false => cases colon with
          | true => exact ⟨58, _, rfl, rfl⟩
          | false => exact ⟨44, _, rfl, rfl⟩
    | opn b d =>
      cases c with
      | base => exact absurd rfl h1
      | list first => cases first with
        | true => exact absurd rfl h2
        | false => exact ⟨44, _, rfl, rfl⟩
      | pair first colon => cases first with
        | true => exact ⟨b, _, rfl, hx⟩
        | false => cases colon with
          | true => exact ⟨58, _, rfl, rfl⟩
          | false => exact ⟨44, _, rfl, rfl⟩

/-- The state after a piece. -/
def after (s : St) (x : Prim) : St := { s with stack := primStep s.stack x, hasData := false }

theorem follow_prim {s : St} (h : s.hasData = false) {x : Prim} (hx : NotDigit x) (rest : Bytes) :
    Follow s (primBytes s.stack x ++ rest) :=
  ⟨fun e => by (rw [h] at e; cases e), ends_prim _ _ hx _⟩

variable (py : Floats) (cfg : Cfg) (fuel : Nat)

theorem holds_int {s : St} (h : s.hasData = false) (hb : top s.stack ≠ .base) (i : Int)
    (hf : Fits cfg.stringLimit fuel (intDigits i).length) :
    Holds (readJSONInteger cfg fuel) s (primBytes s.stack (.num (intDigits i))) i (after s (.num (intDigits i))) := by
  refine ⟨fun rest _ => follow_prim h (x := .num (intDigits i)) trivial rest, fun rest p hr _ => ⟨ahead s.stack, ?_, ?_⟩⟩
  · intro e
    exact absurd e (bump_ne_base hb).1
  · exact steps_integer cfg fuel s.stack s.depth i rest p hb hr.2 hf

theorem holds_double {s : St} (h : s.hasData = false) (hb : top s.stack ≠ .base) (x : UInt64)
    (hn : Rfc8259.Number (py.fmt17 x)) (hp : py.parse (toPy (py.fmt17 x)) = some x)
    (hf : Fits cfg.stringLimit fuel (py.fmt17 x).length) :
    Holds (readJSONDouble py cfg fuel) s (primBytes s.stack (.num (py.fmt17 x))) x (after s (.num (py.fmt17 x))) := by
  refine ⟨fun rest _ => follow_prim h (x := .num (py.fmt17 x)) trivial rest, fun rest p hr _ => ⟨ahead s.stack, ?_, ?_⟩⟩
  · intro e
    exact absurd e (bump_ne_base hb).1
  · exact steps_double cfg py fuel s.stack s.depth x rest p hn hp hb hr.2 hf

theorem holds_str {s : St} (h : s.hasData = false) (x : PyStr) (hs : ∀ c ∈ x, Scalar c)
    (hf : Fits cfg.stringLimit fuel (escaped x).length) :
    Holds (readJSONString cfg fuel) s (primBytes s.stack (.str x)) x (after s (.str x)) :=
  ⟨fun rest _ => follow_prim h (x := .str x) trivial rest, fun rest p _ _ =>
    ⟨false, fun _ => rfl, steps_string cfg fuel s.stack s.depth x rest p hs hf⟩⟩

theorem holds_objectStart {s : St} (h : s.hasData = false) :
    Holds readJSONObjectStart s (primBytes s.stack (.opn 123 (.pair true true))) ()
      (after s (.opn 123 (.pair true true))) :=
  ⟨fun rest _ => follow_prim h (x := .opn 123 (.pair true true)) rfl rest, fun rest p _ _ =>
    ⟨false, fun _ => rfl, steps_objectStart s.stack s.depth rest p⟩⟩

theorem holds_arrayStart {s : St} (h : s.hasData = false) :
    Holds readJSONArrayStart s (primBytes s.stack (.opn 91 (.list true))) () (after s (.opn 91 (.list true))) :=
  ⟨fun rest _ => follow_prim h (x := .opn 91 (.list true)) rfl rest, fun rest p _ _ =>
    ⟨false, fun _ => rfl, steps_arrayStart s.stack s.depth rest p⟩⟩

theorem holds_objectEnd {s : St} (h : s.stack ≠ []) :
    Holds readJSONObjectEnd s (primBytes s.stack (.cls 125)) () (after s (.cls 125)) := by
  refine ⟨fun rest _ => ⟨fun _ => rfl, ends_prim s.stack (.cls 125) rfl rest⟩, fun rest p _ _ => ⟨false, fun _ => rfl, ?_⟩⟩
  cases hs : s.stack with
  | nil => exact absurd hs h
  | cons c cs =>
    simp only [after, hs, primStep, List.tail_cons, primBytes, List.cons_append, List.nil_append]
    exact steps_objectEnd c cs s.depth rest p

theorem holds_arrayEnd {s : St} (h : s.stack ≠ []) (hc : s.hasData = false) :
    Holds readJSONArrayEnd s (primBytes s.stack (.cls 93)) () (after s (.cls 93)) := by
  refine ⟨fun rest _ => follow_prim hc (x := .cls 93) rfl rest, fun rest p _ _ => ⟨false, fun _ => rfl, ?_⟩⟩
  cases hs : s.stack with
  | nil => exact absurd hs h
  | cons c cs =>
    simp only [after, hs, primStep, List.tail_cons, primBytes, List.cons_append, List.nil_append]
    exact steps_arrayEnd c cs s.depth rest p

theorem holds_type {s : St} (h : s.hasData = false) {tt : Int} (ht : IsTType tt)
    (hf : Fits cfg.stringLimit fuel (escaped (nameOf tt)).length) :
    Holds (readType cfg fuel) s (primBytes s.stack (.str (nameOf tt))) tt (after s (.str (nameOf tt))) := by
  unfold readType
  exact Holds.bindLift (holds_str cfg fuel h (nameOf tt) (nameOf_scalar ht) hf) (by rw [typeOf_nameOf ht])

/-- Looking at the next byte. -/
theorem holds_peek {β : Type} {k : Bytes → P St β} {s s' : St} {c : UInt8} {b : Bytes} {r : β}
    (hb : top s.stack ≠ .base) (h : Holds (k [c]) s (c :: b) r s') : Holds (readerPeek >>= k) s (c :: b) r s' := by
  refine ⟨h.1, fun rest p hr hp => ?_⟩
  obtain ⟨p', hp', e⟩ := h.2 rest true hr (fun e => absurd e hb)
  exact ⟨p', hp', Steps.bind (steps_peek s.stack s.depth c (b ++ rest) p) e⟩

/-- The first byte of a number where a member begins. -/
theorem member_head (a b : Bool) (r : List Ctx) (d : Bytes) :
    ∃ c y, primBytes (.pair a b :: r) (.num d) = c :: y ∧ c ≠ 125 := by
  cases a with
  | true => exact ⟨34, d ++ [34], rfl, by decide⟩
  | false => cases b with
    | true => exact ⟨58, _, rfl, by decide⟩
    | false => exact ⟨44, _, rfl, by decide⟩

theorem holds_fieldBegin {s : St} (h : s.hasData = false) {a b : Bool} {r : List Ctx}
    (hs : s.stack = .pair a b :: r) {tt : Int} (ht : IsTType tt) (fid : Int)
    (hf1 : Fits cfg.stringLimit fuel (intDigits fid).length)
    (hf2 : Fits cfg.stringLimit fuel (escaped (nameOf tt)).length) :
    Holds (readFieldBegin cfg fuel) s
      (primsBytes s.stack [.num (intDigits fid), .opn 123 (.pair true true), .str (nameOf tt)]) (tt, fid)
      { s with stack := primsStep s.stack [.num (intDigits fid), .opn 123 (.pair true true), .str (nameOf tt)] } := by
  have hb : top s.stack ≠ .base := by rw [hs]; simp [top]
  obtain ⟨c, y, hy, hc⟩ := member_head a b r (intDigits fid)
  have main : Holds (do
      let id ← readJSONInteger cfg fuel
      readJSONObjectStart
      let ttype ← readType cfg fuel
      pure (ttype, id) : P St (Int × Int)) s
      (primsBytes s.stack [.num (intDigits fid), .opn 123 (.pair true true), .str (nameOf tt)]) (tt, fid)
      { s with stack := primsStep s.stack [.num (intDigits fid), .opn 123 (.pair true true), .str (nameOf tt)] } := by
    simp only [primsBytes, primsStep, List.append_nil]
    refine Holds.bind (holds_int cfg fuel h hb fid hf1) ?_
    refine Holds.bind (holds_objectStart rfl) ?_
    have e : { s with stack := primStep (primStep (primStep s.stack (.num (intDigits fid)))
        (.opn 123 (.pair true true))) (.str (nameOf tt)) } =
        after (after (after s (.num (intDigits fid))) (.opn 123 (.pair true true))) (.str (nameOf tt)) := by
      simp only [after, h]
    rw [e]
    exact Holds.map (holds_type cfg fuel rfl ht hf2) rfl
  have e : primsBytes s.stack [.num (intDigits fid), .opn 123 (.pair true true), .str (nameOf tt)] =
      c :: (y ++ primsBytes (primStep s.stack (.num (intDigits fid))) [.opn 123 (.pair true true), .str (nameOf tt)]) := by
    rw [primsBytes, hs, hy]
    rfl
  unfold readFieldBegin
  rw [e] at main ⊢
  refine holds_peek hb ?_
  rw [if_neg (by simpa using hc)]
  exact main

theorem holds_fieldStop {s : St} (h : s.hasData = false) (hb : top s.stack ≠ .base) :
    Holds (readFieldBegin cfg fuel) s [] (TType.STOP, 0) { s with hasData := true } := by
  refine ⟨fun rest hr => ⟨fun e => by (rw [h] at e; cases e), hr.2⟩, fun rest p hr _ => ⟨true, fun e => absurd e hb, ?_⟩⟩
  cases rest with
  | nil => have := hr.1 rfl; cases this
  | cons c r =>
    have := hr.1 rfl
    simp only [List.head?_cons, Option.some.injEq] at this
    subst this
    unfold readFieldBegin
    refine Steps.bind (steps_peek s.stack s.depth 125 r p) ?_
    rw [if_pos rfl]
    exact Steps.pure _ _

theorem holds_collection {s : St} (h : s.hasData = false) {e : Int} (he : IsTType e) (n : Int)
    (hf1 : Fits cfg.stringLimit fuel (escaped (nameOf e)).length)
    (hf2 : Fits cfg.stringLimit fuel (intDigits n).length) :
    Holds (readCollectionBegin cfg fuel) s
      (primsBytes s.stack [.opn 91 (.list true), .str (nameOf e), .num (intDigits n)]) (e, n)
      { s with stack := primsStep s.stack [.opn 91 (.list true), .str (nameOf e), .num (intDigits n)] } := by
  unfold readCollectionBegin
  have e : { s with stack := primsStep s.stack [.opn 91 (.list true), .str (nameOf e), .num (intDigits n)] } =
      after (after (after s (.opn 91 (.list true))) (.str (nameOf e))) (.num (intDigits n)) := by
    simp only [after, h, primsStep]
  rw [e]
  simp only [primsBytes, List.append_nil]
  refine Holds.bind (holds_arrayStart h) ?_
  refine Holds.bind (holds_type cfg fuel rfl he hf1) ?_
  exact Holds.map (holds_int cfg fuel rfl (by simp [after, primStep, bump, setTop, top, advance]) n hf2) rfl

theorem holds_mapBegin {s : St} (h : s.hasData = false) {k v : Int} (hk : IsTType k) (hv : IsTType v) (n : Int)
    (hf1 : Fits cfg.stringLimit fuel (escaped (nameOf k)).length)
    (hf2 : Fits cfg.stringLimit fuel (escaped (nameOf v)).length)
    (hf3 : Fits cfg.stringLimit fuel (intDigits n).length) :
    Holds (readMapBegin cfg fuel) s
      (primsBytes s.stack [.opn 91 (.list true), .str (nameOf k), .str (nameOf v), .num (intDigits n),
        .opn 123 (.pair true true)]) (k, v, n)
      { s with stack := primsStep s.stack [.opn 91 (.list true), .str (nameOf k), .str (nameOf v), .num (intDigits n), .opn 123 (.pair true true)] } := by
  unfold readMapBegin
  have e : { s with stack := primsStep s.stack [.opn 91 (.list true), .str (nameOf k), .str (nameOf v), .num (intDigits n), .opn 123 (.pair true true)] } =
      after (after (after (after (after s (.opn 91 (.list true))) (.str (nameOf k))) (.str (nameOf v)))
        (.num (intDigits n))) (.opn 123 (.pair true true)) := by
    simp only [after, h, primsStep]
  rw [e]
  simp only [primsBytes, List.append_nil]
  refine Holds.bind (holds_arrayStart h) ?_
  refine Holds.bind (holds_type cfg fuel rfl hk hf1) ?_
  refine Holds.bind (holds_type cfg fuel rfl hv hf2) ?_
  refine Holds.bind (holds_int cfg fuel rfl (by simp [after, primStep, bump, setTop, top, advance]) n hf3) ?_
  exact Holds.map (holds_objectStart rfl) rfl

theorem holds_mapEnd {s : St} (h : s.hasData = false) {a b : Ctx} {r : List Ctx} (hs : s.stack = a :: b :: r) :
    Holds readMapEnd s (primsBytes s.stack [.cls 125, .cls 93]) ()
      { s with stack := primsStep s.stack [.cls 125, .cls 93] } := by
  unfold readMapEnd
  have e : { s with stack := primsStep s.stack [.cls 125, .cls 93] } = after (after s (.cls 125)) (.cls 93) := by
    simp only [after, h, primsStep]
  rw [e]
  simp only [primsBytes, List.append_nil]
  exact Holds.bind (holds_objectEnd (by rw [hs]; simp)) (holds_arrayEnd (by simp [after, primStep, hs]) rfl)

theorem holds_base64 {s : St} (h : s.hasData = false) (b : Bytes)
    (hf : Fits cfg.stringLimit fuel (escaped (toPy (b64encode b))).length) :
    Holds (readJSONBase64 cfg fuel) s (primBytes s.stack (.str (toPy (b64encode b)))) b
      (after s (.str (toPy (b64encode b)))) := by
  unfold readJSONBase64
  refine Holds.bindLift (holds_str cfg fuel h _ (toPy_scalar (b64encode_plain b)) hf) ?_
  have : (toPy (b64encode b)).length % 4 = 0 := by
    unfold toPy
    rw [List.length_map]
    exact b64encode_length b
  simp only [this, ne_eq, not_true_eq_false, if_false, b64decode_encode]

theorem holds_uuid {s : St} (h : s.hasData = false) {u : Bytes} (hu : u.length = 16)
    (hf : Fits cfg.stringLimit fuel (escaped (Json.uuidText u)).length) :
    Holds (readUuid cfg fuel) s (primBytes s.stack (.str (Json.uuidText u))) u
      (after s (.str (Json.uuidText u))) := by
  unfold readUuid
  exact Holds.map (holds_str cfg fuel h _ (uuidText_scalar u) hf) (by rw [parseUuid_text u hu])

/-- The state of a protocol object as the language sees it. -/
def Sees (s : St) (q : Q) : Prop := s.stack = q.stack ∧ s.hasData = q.closing

/-- A token of one piece. -/
theorem reads_one {p : Nat → Prop} {fd : UInt64 → Prop} {α : Type} {m : P St α} {s : St} {q : (lang py p fd).Q} {T : Tok} {x : Prim} {a : α}
    (hT : tokPrims py T = [x]) (hs : Sees s q) (hc : ((lang py p fd).step q T).closing = false)
    (h : Holds m s (primBytes s.stack x) a (after s x)) :
    ReadsTo jsonRel (lang py p fd) Sees m s q [T] a := by
  obtain ⟨h1, h2⟩ := hs
  refine ⟨after s x, ?_, ⟨?_, ?_⟩, rfl⟩
  · have e : (lang py p fd).enc q [T] = primBytes s.stack x := by
      change primsBytes q.stack (tokPrims py T) ++ [] = _
      rw [hT, ← h1]
      simp [primsBytes]
    rw [e]
    exact h
  · change primStep s.stack x = primsStep q.stack (tokPrims py T)
    rw [hT, ← h1]
    rfl
  · exact hc.symm

/-- A token of several pieces. -/
theorem reads_many {p : Nat → Prop} {fd : UInt64 → Prop} {α : Type} {m : P St α} {s : St} {q : (lang py p fd).Q} {T : Tok} {a : α}
    (hs : Sees s q) (hd : s.hasData = false) (hc : ((lang py p fd).step q T).closing = false)
    (h : Holds m s (primsBytes s.stack (tokPrims py T)) a { s with stack := primsStep s.stack (tokPrims py T) }) :
    ReadsTo jsonRel (lang py p fd) Sees m s q [T] a := by
  obtain ⟨h1, h2⟩ := hs
  refine ⟨{ s with stack := primsStep s.stack (tokPrims py T) }, ?_, ⟨?_, ?_⟩, rfl⟩
  · have e : (lang py p fd).enc q [T] = primsBytes s.stack (tokPrims py T) := by
      change primsBytes q.stack (tokPrims py T) ++ [] = _
      rw [← h1, List.append_nil]
    rw [e]
    exact h
  · change primsStep s.stack (tokPrims py T) = primsStep q.stack (tokPrims py T)
    rw [h1]
  · exact hd.trans hc.symm

/-- The reading methods implement the language. -/
theorem reader_laws (hpy : Faithful py.fmt17 py.parse) :
    ReaderLaws jsonRel (lang py (Fits cfg.stringLimit fuel) Finite) (rd py cfg fuel) Sees (fun _ => True) where
  depth s q d h := h
  structBegin s q hR hok :=
    reads_one py rfl hR rfl (holds_objectStart (by
      rw [hR.2]; cases h : Q.closing q with | false => rfl | true => exact absurd (hok.2.2 h) (by simp)))
  structEnd s q hR hok := reads_one py rfl hR rfl (holds_objectEnd (by rw [hR.1]; exact hok.2.1))
  fieldBegin s q tt fid hR hok := by
    obtain ⟨⟨hT, hfit, -⟩, ⟨a, b, r, hq⟩, hcl⟩ := hok
    have hd : s.hasData = false := by
      rw [hR.2]; cases h : Q.closing q with | false => rfl | true => exact absurd (hcl h) (by simp)
    exact reads_many py hR hd rfl (holds_fieldBegin cfg fuel hd (hR.1.trans hq) hT.1 fid
      (hfit (.num (intDigits fid)) (by simp [tokPrims])) (hfit (.str (nameOf tt)) (by simp [tokPrims])))
  boolField s q fid b hR hok := by
    obtain ⟨⟨hT, hfit, -⟩, ⟨a, c, r, hq⟩, hcl⟩ := hok
    have hd : s.hasData = false := by
      rw [hR.2]; cases h : Q.closing q with | false => rfl | true => exact absurd (hcl h) (by simp)
    have h1 := holds_fieldBegin cfg fuel hd (hR.1.trans hq) (tt := TType.BOOL) (isTType_ttype .bool) fid
      (hfit (.num (intDigits fid)) (by simp [tokPrims])) (hfit (.str (nameOf TType.BOOL)) (by simp [tokPrims]))
    generalize hs1 : ({ s with stack := primsStep s.stack [.num (intDigits fid), .opn 123 (.pair true true), .str (nameOf TType.BOOL)] } : St) = s1 at h1
    refine ⟨_, _, s1, after s1 (.num (intDigits (if b then 1 else 0))), ?_, h1,
      Holds.map (holds_int cfg fuel (s := s1) (by rw [← hs1]; exact hd) ?_ (if b then 1 else 0)
        (hfit (.num (intDigits (if b then 1 else 0))) (by simp [tokPrims]))) ?_, ⟨?_, ?_⟩, ?_⟩
    · change primsBytes q.stack _ = _
      rw [← hs1, ← hR.1]
      simp only [tokPrims, primsBytes, primsStep, List.append_nil, List.append_assoc]
    · rw [← hs1, hR.1, hq]
      simp [primsStep, primStep, bump, setTop, top, advance]
    · cases b <;> rfl
    · change _ = primsStep q.stack _
      rw [← hs1, ← hR.1]
      rfl
    · rfl
    · rw [← hs1]
      rfl
  fieldEnd s q hR hok := reads_one py rfl hR rfl (holds_objectEnd (by rw [hR.1]; exact hok.2.1))
  fieldStop s q hR hok := by
    have hd : s.hasData = false := by
      rw [hR.2]; cases h : Q.closing q with | false => rfl | true => exact absurd (hok.2.2 h) (by simp)
    exact ⟨0, { s with hasData := true }, holds_fieldStop cfg fuel hd (by rw [hR.1]; exact hok.2.1),
      ⟨hR.1, rfl⟩, rfl⟩
  mapBegin s q k v n hR hok := by
    obtain ⟨⟨hT, hfit, -⟩, -, hcl⟩ := hok
    have hd : s.hasData = false := by
      rw [hR.2]; cases h : Q.closing q with | false => rfl | true => exact absurd (hcl h) (by simp)
    exact ⟨k, v, reads_many py hR hd rfl (holds_mapBegin cfg fuel hd hT.1 hT.2.1 n
      (hfit (.str (nameOf k)) (by simp [tokPrims])) (hfit (.str (nameOf v)) (by simp [tokPrims]))
      (hfit (.num (intDigits n)) (by simp [tokPrims]))), fun _ => ⟨rfl, rfl⟩⟩
  mapEnd s q hR hok := by
    obtain ⟨-, ⟨a, b, r, hq⟩, hcl⟩ := hok
    have hd : s.hasData = false := by
      rw [hR.2]; cases h : Q.closing q with | false => rfl | true => exact absurd (hcl h) (by simp)
    exact reads_many py hR hd rfl (holds_mapEnd hd (hR.1.trans hq))
  listBegin s q e n hR hok := by
    obtain ⟨⟨hT, hfit, -⟩, -, hcl⟩ := hok
    have hd : s.hasData = false := by
      rw [hR.2]; cases h : Q.closing q with | false => rfl | true => exact absurd (hcl h) (by simp)
    exact reads_many py hR hd rfl (holds_collection cfg fuel hd hT.1 n
      (hfit (.str (nameOf e)) (by simp [tokPrims])) (hfit (.num (intDigits n)) (by simp [tokPrims])))
  listEnd s q hR hok := reads_one py rfl hR rfl (holds_arrayEnd (by rw [hR.1]; exact hok.2.1) (by
      rw [hR.2]; cases h : Q.closing q with | false => rfl | true => exact absurd (hok.2.2 h) (by simp)))
  setBegin s q e n hR hok := by
    obtain ⟨⟨hT, hfit, -⟩, -, hcl⟩ := hok
    have hd : s.hasData = false := by
      rw [hR.2]; cases h : Q.closing q with | false => rfl | true => exact absurd (hcl h) (by simp)
    exact reads_many py hR hd rfl (holds_collection cfg fuel hd hT.1 n
      (hfit (.str (nameOf e)) (by simp [tokPrims])) (hfit (.num (intDigits n)) (by simp [tokPrims])))
  setEnd s q hR hok := reads_one py rfl hR rfl (holds_arrayEnd (by rw [hR.1]; exact hok.2.1) (by
      rw [hR.2]; cases h : Q.closing q with | false => rfl | true => exact absurd (hok.2.2 h) (by simp)))
  bool s q b hR hok := reads_one py rfl hR rfl (Holds.map (holds_int cfg fuel (by
      rw [hR.2]; cases h : Q.closing q with | false => rfl | true => exact absurd (hok.2.2 h) (by simp))
      (by rw [hR.1]; exact hok.2.1) (if b then 1 else 0) (hok.1.2.1 (.num (intDigits (if b then 1 else 0))) (by simp [tokPrims]))) (by cases b <;> rfl))
  byte s q i hR hok := reads_one py rfl hR rfl (holds_int cfg fuel (by
      rw [hR.2]; cases h : Q.closing q with | false => rfl | true => exact absurd (hok.2.2 h) (by simp))
      (by rw [hR.1]; exact hok.2.1) i (hok.1.2.1 (.num (intDigits i)) (by simp [tokPrims])))
  i16 s q i hR hok := reads_one py rfl hR rfl (holds_int cfg fuel (by
      rw [hR.2]; cases h : Q.closing q with | false => rfl | true => exact absurd (hok.2.2 h) (by simp))
      (by rw [hR.1]; exact hok.2.1) i (hok.1.2.1 (.num (intDigits i)) (by simp [tokPrims])))
  i32 s q i hR hok := reads_one py rfl hR rfl (holds_int cfg fuel (by
      rw [hR.2]; cases h : Q.closing q with | false => rfl | true => exact absurd (hok.2.2 h) (by simp))
      (by rw [hR.1]; exact hok.2.1) i (hok.1.2.1 (.num (intDigits i)) (by simp [tokPrims])))
  i64 s q i hR hok := reads_one py rfl hR rfl (holds_int cfg fuel (by
      rw [hR.2]; cases h : Q.closing q with | false => rfl | true => exact absurd (hok.2.2 h) (by simp))
      (by rw [hR.1]; exact hok.2.1) i (hok.1.2.1 (.num (intDigits i)) (by simp [tokPrims])))
  double s q x hR hok := reads_one py rfl hR rfl (holds_double py cfg fuel (by
      rw [hR.2]; cases h : Q.closing q with | false => rfl | true => exact absurd (hok.2.2 h) (by simp))
      (by rw [hR.1]; exact hok.2.1) x (hpy.number x (hok.1.2.2 x rfl)) (hpy.parse x (hok.1.2.2 x rfl))
      (hok.1.2.1 (.num (py.fmt17 x)) (by simp [tokPrims])))
  str s q x hR hok := reads_one py rfl hR rfl (holds_str cfg fuel (by
      rw [hR.2]; cases h : Q.closing q with | false => rfl | true => exact absurd (hok.2.2 h) (by simp))
      x hok.1.1.1.1 (hok.1.2.1 (.str x) (by simp [tokPrims])))
  bin s q x hR hok := reads_one py rfl hR rfl (holds_base64 cfg fuel (by
      rw [hR.2]; cases h : Q.closing q with | false => rfl | true => exact absurd (hok.2.2 h) (by simp))
      x (hok.1.2.1 (.str (toPy (b64encode x))) (by simp [tokPrims])))
  binText s q x hR hok _ := ⟨_, reads_one py rfl hR rfl (holds_str cfg fuel (by
      rw [hR.2]; cases h : Q.closing q with | false => rfl | true => exact absurd (hok.2.2 h) (by simp))
      _ (toPy_scalar (b64encode_plain x)) (hok.1.2.1 (.str (toPy (b64encode x))) (by simp [tokPrims])))⟩
  uuid s q x hR hok := reads_one py rfl hR rfl (holds_uuid cfg fuel (by
      rw [hR.2]; cases h : Q.closing q with | false => rfl | true => exact absurd (hok.2.2 h) (by simp))
      hok.1.1 (hok.1.2.1 (.str (Json.uuidText x)) (by simp [tokPrims])))

end Thrift.Json
