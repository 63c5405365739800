import Verif.Proofs.JsonText
/-
JSON as a language of tokens, and the writing methods of `TJSONProtocol`.
-/

namespace Thrift.Json
open Spec Spec.Json

/-! ### Characters of strings -/

theorem utf8_append (a b : PyStr) : utf8 (a ++ b) = utf8 a ++ utf8 b := by
  unfold utf8; rw [List.flatMap_append]

theorem utf8_cons (c : Nat) (s : PyStr) : utf8 (c :: s) = utf8 [c] ++ utf8 s :=
  utf8_append [c] s

theorem ofNat_val {c : Nat} (h : Scalar c) : (Char.ofNat c).val.toNat = c := by
  have hv : c.isValidChar := by unfold Scalar at h; unfold Nat.isValidChar; omega
  unfold Char.ofNat
  rw [dif_pos hv]
  unfold Char.ofNatAux
  rfl

theorem utf8_ascii {c : Nat} (h : c < 0x80) : utf8 [c] = [UInt8.ofNat c] := by
  have hs : Scalar c := by unfold Scalar; omega
  unfold utf8
  simp only [List.flatMap_cons, List.flatMap_nil, List.append_nil]
  unfold String.utf8EncodeChar
  simp only [ofNat_val hs]
  rw [if_pos (by omega)]

theorem utf8_high {c : Nat} (hs : Scalar c) (h : 0x80 ≤ c) : utf8 [c] ≠ [] ∧ ∀ x ∈ utf8 [c], 0x80 ≤ x.toNat := by
  unfold utf8
  simp only [List.flatMap_cons, List.flatMap_nil, List.append_nil]
  unfold String.utf8EncodeChar
  simp only [ofNat_val hs]
  rw [if_neg (by omega)]
  unfold Scalar at hs
  repeat' split
  all_goals
    refine ⟨by simp, ?_⟩
    intro x hx
    simp only [List.mem_cons, List.not_mem_nil, or_false] at hx
    rcases hx with rfl | rfl | rfl | rfl <;> simp only [UInt8.toNat_ofNat'] <;> omega

theorem escapedChar_eq (c : Nat) : utf8 (escape c) = escapedChar c := by
  by_cases h : c < 0x80
  · have : ∀ c < 0x80, utf8 (escape c) = escapedChar c := by decide +kernel
    exact this c h
  · unfold escape
    rw [if_neg (by omega), if_neg (by omega), if_neg (by omega), if_neg (by omega), if_neg (by omega),
      if_neg (by omega), if_neg (by omega)]
    unfold escapedChar
    have e : [(0x22, 0x22), (0x5C, 0x5C), (0x08, 0x62), (0x0C, 0x66), (0x0A, 0x6E), (0x0D, 0x72),
        (0x09, 0x74)].find? (fun x : Nat × UInt8 => x.1 == c) = none := by
      rw [List.find?_eq_none]
      intro x hx
      simp only [List.mem_cons, List.not_mem_nil, or_false] at hx
      rcases hx with rfl | rfl | rfl | rfl | rfl | rfl | rfl <;> (simp only [beq_iff_eq]; omega)
    rw [e]

/-- A character that is not escaped. -/
theorem escapedChar_plain {c : Nat} (h : c ≠ 34 ∧ c ≠ 92 ∧ c ≠ 8 ∧ c ≠ 12 ∧ c ≠ 10 ∧ c ≠ 13 ∧ c ≠ 9) :
    escapedChar c = utf8 [c] := by
  rw [← escapedChar_eq]
  unfold escape
  rw [if_neg (by omega), if_neg (by omega), if_neg (by omega), if_neg (by omega), if_neg (by omega),
      if_neg (by omega), if_neg (by omega)]

theorem escape_scalar {c : Nat} (h : Scalar c) : ∀ d ∈ escape c, Scalar d := by
  intro d hd
  unfold escape at hd
  unfold Scalar at *
  repeat' split at hd
  all_goals
    simp only [List.mem_cons, List.not_mem_nil, or_false] at hd
    rcases hd with rfl | rfl <;> omega

theorem utf8_escape (s : PyStr) : utf8 (s.flatMap escape) = escaped s := by
  induction s with
  | nil => rfl
  | cons c s ih =>
    unfold escaped at *
    rw [List.flatMap_cons, utf8_append, ih, escapedChar_eq, List.flatMap_cons]

theorem encode_string {s : PyStr} (h : ∀ c ∈ s, Scalar c) :
    utf8Encode (34 :: (s.flatMap escape ++ [34])) = .ok (quoted (escaped s)) := by
  rw [utf8Encode_eq, utf8_cons, utf8_append, utf8_escape]
  · rfl
  · intro c hc
    rcases List.mem_cons.mp hc with rfl | hc
    · decide
    rcases List.mem_append.mp hc with hc | hc
    · obtain ⟨d, hd, hc⟩ := List.mem_flatMap.mp hc
      exact escape_scalar (h d hd) c hc
    · simp only [List.mem_singleton] at hc
      subst hc; decide

theorem escaped_cons (c : Nat) (s : PyStr) : escaped (c :: s) = escapedChar c ++ escaped s := rfl

theorem escaped_append (a b : PyStr) : escaped (a ++ b) = escaped a ++ escaped b := by
  unfold escaped; rw [List.flatMap_append]

theorem escaped_plain {b : Bytes} (h : ∀ x ∈ b, Plain x) : escaped (toPy b) = b := by
  induction b with
  | nil => rfl
  | cons x b ih =>
    have hx := h x (by simp)
    unfold Plain at hx
    have e : toPy (x :: b) = x.toNat :: toPy b := rfl
    rw [e, escaped_cons, ih (fun y hy => h y (by simp [hy])), escapedChar_plain (by omega), utf8_ascii (by omega),
      UInt8.ofNat_toNat]
    rfl

theorem toPy_scalar {b : Bytes} (h : ∀ x ∈ b, Plain x) : ∀ c ∈ toPy b, Scalar c := by
  intro c hc
  obtain ⟨x, hx, rfl⟩ := List.mem_map.mp hc
  have := h x hx
  unfold Plain at this
  unfold Scalar
  omega

theorem numeric_plain {x : UInt8} (h : isNumeric [x] = true) : Plain x := by
  have : ∀ x : Fin 256, isNumeric [UInt8.ofNat x.val] = true → Plain (UInt8.ofNat x.val) := by decide +kernel
  have h' := this ⟨x.toNat, x.toNat_lt⟩
  simp only [UInt8.ofNat_toNat] at h'
  exact h' h

theorem digit_numeric {x : UInt8} (h : Rfc8259.Digit x) : isNumeric [x] = true := by
  unfold Rfc8259.Digit at h
  have h1 : (48 : UInt8) ≤ x := by rw [UInt8.le_iff_toNat_le]; exact h.1
  have h2 : x ≤ (57 : UInt8) := by rw [UInt8.le_iff_toNat_le]; exact h.2
  simp [isNumeric, h1, h2]

theorem number_numeric {b : Bytes} (h : Rfc8259.Number b) : ∀ x ∈ b, isNumeric [x] = true := by
  obtain ⟨minus, int, frac, exp, rfl, hm, hi, hf, he⟩ := h
  intro x hx
  simp only [List.mem_append] at hx
  rcases hx with hx | hx | hx | hx
  · rcases hm with rfl | rfl
    · simp at hx
    · simp only [List.mem_singleton] at hx; subst hx; rfl
  · exact digit_numeric (hi.1.2 x hx)
  · rcases hf with rfl | ⟨d, rfl, hd⟩
    · simp at hx
    · rcases List.mem_cons.mp hx with rfl | hx
      · rfl
      · exact digit_numeric (hd.2 x hx)
  · rcases he with rfl | ⟨e, sign, d, rfl, h1, h2, hd⟩
    · simp at hx
    · simp only [List.mem_cons, List.mem_append] at hx
      rcases hx with rfl | hx | hx
      · rcases h1 with rfl | rfl <;> rfl
      · rcases h2 with rfl | rfl | rfl
        · simp at hx
        · simp only [List.mem_singleton] at hx; subst hx; rfl
        · simp only [List.mem_singleton] at hx; subst hx; rfl
      · exact digit_numeric (hd.2 x hx)

theorem number_ne {b : Bytes} (h : Rfc8259.Number b) : b ≠ [] := by
  obtain ⟨minus, int, frac, exp, rfl, -, hi, -, -⟩ := h
  intro e
  simp only [List.append_eq_nil_iff] at e
  exact hi.1.1 e.2.1

/-! ### Names of types -/

/-- The name of a wire type. -/
def nameOf (tt : Int) : PyStr :=
  match typeName tt with
  | .ok n => n
  | .error _ => []

theorem typeName_ok {tt : Int} (h : IsTType tt) : typeName tt = .ok (nameOf tt) := by
  rcases h.cases with h | h | h | h | h | h | h | h | h | h | h | h <;> subst h <;> rfl

theorem typeOf_nameOf {tt : Int} (h : IsTType tt) : typeOf (nameOf tt) = .ok tt := by
  rcases h.cases with h | h | h | h | h | h | h | h | h | h | h | h <;> subst h <;> rfl

theorem nameOf_scalar {tt : Int} (h : IsTType tt) : ∀ c ∈ nameOf tt, Scalar c := by
  rcases h.cases with h | h | h | h | h | h | h | h | h | h | h | h <;> subst h <;> decide

theorem nameOf_ttype (t : Ty) : escaped (nameOf t.ttype) = Spec.Json.typeName t := by
  cases t <;> (simp only [Ty.ttype, Spec.Json.typeName]; decide +kernel)

/-! ### Pieces of text -/

/-- The pieces of a document: a number, a string, an opening and a closing bracket. -/
inductive Prim where
  | num (d : Bytes)
  | str (s : PyStr)
  | opn (b : UInt8) (c : Ctx)
  | cls (b : UInt8)

/-- The separator before the next item. -/
def sep (stk : List Ctx) : Bytes := (advance (top stk)).1.toList

/-- The contexts after the next item. -/
def bump (stk : List Ctx) : List Ctx := setTop stk (advance (top stk)).2

def primBytes (stk : List Ctx) : Prim → Bytes
  | .num d => sep stk ++ (if escapeNum (top (bump stk)) then quoted d else d)
  | .str s => sep stk ++ quoted (escaped s)
  | .opn b _ => sep stk ++ [b]
  | .cls b => [b]

def primStep (stk : List Ctx) : Prim → List Ctx
  | .num _ => bump stk
  | .str _ => bump stk
  | .opn _ c => c :: bump stk
  | .cls _ => stk.tail

def primsBytes : List Ctx → List Prim → Bytes
  | _, [] => []
  | stk, p :: ps => primBytes stk p ++ primsBytes (primStep stk p) ps

def primsStep : List Ctx → List Prim → List Ctx
  | stk, [] => stk
  | stk, p :: ps => primsStep (primStep stk p) ps

/-- The size of a piece that counts against the limit. -/
def primFits (p : Nat → Prop) : Prim → Prop
  | .num d => p d.length
  | .str s => p (escaped s).length
  | _ => True

/-- The pieces of a token. -/
def tokPrims (py : Floats) : Tok → List Prim
  | .structBegin => [.opn 123 (.pair true true)]
  | .structEnd => [.cls 125]
  | .fieldBegin tt fid => [.num (intDigits fid), .opn 123 (.pair true true), .str (nameOf tt)]
  | .boolField fid b => [.num (intDigits fid), .opn 123 (.pair true true), .str (nameOf TType.BOOL),
      .num (intDigits (if b then 1 else 0))]
  | .fieldEnd => [.cls 125]
  | .fieldStop => []
  | .mapBegin k v n => [.opn 91 (.list true), .str (nameOf k), .str (nameOf v), .num (intDigits n),
      .opn 123 (.pair true true)]
  | .mapEnd => [.cls 125, .cls 93]
  | .listBegin e n => [.opn 91 (.list true), .str (nameOf e), .num (intDigits n)]
  | .listEnd => [.cls 93]
  | .setBegin e n => [.opn 91 (.list true), .str (nameOf e), .num (intDigits n)]
  | .setEnd => [.cls 93]
  | .bool b => [.num (intDigits (if b then 1 else 0))]
  | .byte i => [.num (intDigits i)]
  | .i16 i => [.num (intDigits i)]
  | .i32 i => [.num (intDigits i)]
  | .i64 i => [.num (intDigits i)]
  | .double x => [.num (py.fmt17 x)]
  | .str s => [.str s]
  | .bin b => [.str (toPy (b64encode b))]
  | .uuid u => [.str (Json.uuidText u)]

/-- What a token must satisfy by itself. -/
def TokFit (py : Floats) (p : Nat → Prop) (fd : UInt64 → Prop) (T : Tok) : Prop :=
  TokOK none none T ∧ (∀ x ∈ tokPrims py T, primFits p x) ∧ (∀ x, T = .double x → fd x)

/-- The contexts, and whether the end of a struct must come next. -/
structure Q where
  stack : List Ctx
  closing : Bool

/-- Where a token may stand. A number must be inside something, so that its end can be seen. -/
def posOk (q : Q) : Tok → Prop
  | .structEnd => q.stack ≠ []
  | .fieldBegin _ _ | .boolField _ _ => ∃ a b r, q.stack = .pair a b :: r
  | .fieldStop => top q.stack ≠ .base
  | .fieldEnd | .listEnd | .setEnd => q.stack ≠ []
  | .mapEnd => ∃ a b r, q.stack = a :: b :: r
  | .bool _ | .byte _ | .i16 _ | .i32 _ | .i64 _ | .double _ => top q.stack ≠ .base
  | _ => True

/-- JSON as a language of tokens. -/
def lang (py : Floats) (p : Nat → Prop) (fd : UInt64 → Prop) : Lang where
  Q := Q
  ok q T := TokFit py p fd T ∧ posOk q T ∧ (q.closing = true → T = .structEnd)
  step q T := ⟨primsStep q.stack (tokPrims py T), match T with | .fieldStop => true | _ => false⟩
  bytes q T := primsBytes q.stack (tokPrims py T)

/-! ### Writing -/

theorem ctxWrite_eq (s : St) (out : Bytes) :
    ctxWrite s out = (.ok (), { s with stack := bump s.stack }, out ++ sep s.stack) := by
  unfold ctxWrite sep bump
  simp only [W.bind_eq, W.get_eq]
  cases h : (advance (top s.stack)).1 with
  | none => simp [advanceTop]
  | some c => simp [advanceTop]

theorem writeJSONString_eq {text : PyStr} (h : ∀ c ∈ text, Scalar c) (s : St) (out : Bytes) :
    writeJSONString text s out =
      (.ok (), { s with stack := primStep s.stack (.str text) }, out ++ primBytes s.stack (.str text)) := by
  unfold writeJSONString
  simp [W.bind_eq, ctxWrite_eq, encode_string h, primStep, primBytes]

theorem writeJSONNumber_eq (d : Bytes) (s : St) (out : Bytes) :
    writeJSONNumber d s out =
      (.ok (), { s with stack := primStep s.stack (.num d) }, out ++ primBytes s.stack (.num d)) := by
  unfold writeJSONNumber
  simp only [W.bind_eq, ctxWrite_eq, W.get_eq]
  simp only [primStep, primBytes]
  split <;> simp [quoted, W.bind_eq]

theorem writeJSONBase64_eq (b : Bytes) (s : St) (out : Bytes) :
    writeJSONBase64 b s out =
      (.ok (), { s with stack := primStep s.stack (.str (toPy (b64encode b))) },
        out ++ primBytes s.stack (.str (toPy (b64encode b)))) := by
  unfold writeJSONBase64
  simp [W.bind_eq, ctxWrite_eq, primStep, primBytes, escaped_plain (b64encode_plain b), quoted]

theorem writeJSONObjectStart_eq (s : St) (out : Bytes) :
    writeJSONObjectStart s out =
      (.ok (), { s with stack := primStep s.stack (.opn 123 (.pair true true)) },
        out ++ primBytes s.stack (.opn 123 (.pair true true))) := by
  unfold writeJSONObjectStart
  simp [W.bind_eq, ctxWrite_eq, primStep, primBytes, push]

theorem writeJSONArrayStart_eq (s : St) (out : Bytes) :
    writeJSONArrayStart s out =
      (.ok (), { s with stack := primStep s.stack (.opn 91 (.list true)) },
        out ++ primBytes s.stack (.opn 91 (.list true))) := by
  unfold writeJSONArrayStart
  simp [W.bind_eq, ctxWrite_eq, primStep, primBytes, push]

theorem writeJSONObjectEnd_eq {s : St} (h : s.stack ≠ []) (out : Bytes) :
    writeJSONObjectEnd s out =
      (.ok (), { s with stack := primStep s.stack (.cls 125) }, out ++ primBytes s.stack (.cls 125)) := by
  unfold writeJSONObjectEnd popW
  cases hs : s.stack with
  | nil => exact absurd hs h
  | cons c cs => simp [W.bind_eq, hs, primStep, primBytes]

theorem writeJSONArrayEnd_eq {s : St} (h : s.stack ≠ []) (out : Bytes) :
    writeJSONArrayEnd s out =
      (.ok (), { s with stack := primStep s.stack (.cls 93) }, out ++ primBytes s.stack (.cls 93)) := by
  unfold writeJSONArrayEnd popW
  cases hs : s.stack with
  | nil => exact absurd hs h
  | cons c cs => simp [W.bind_eq, hs, primStep, primBytes]

theorem checkIntegerLimits_ok {bits : Nat} {i : Int} (h : InRange bits i)
    (hb : bits = 8 ∨ bits = 16 ∨ bits = 32 ∨ bits = 64) : checkIntegerLimits i bits = .ok () := by
  unfold InRange at h
  unfold checkIntegerLimits
  rcases hb with rfl | rfl | rfl | rfl <;> simp at h ⊢ <;> omega

theorem writeChecked_eq {bits : Nat} {i : Int} (h : InRange bits i)
    (hb : bits = 8 ∨ bits = 16 ∨ bits = 32 ∨ bits = 64) (s : St) (out : Bytes) :
    writeChecked bits i s out =
      (.ok (), { s with stack := primStep s.stack (.num (intDigits i)) },
        out ++ primBytes s.stack (.num (intDigits i))) := by
  unfold writeChecked writeInt
  simp only [W.bind_eq, W.lift_eq, checkIntegerLimits_ok h hb, writeJSONNumber_eq]

theorem writeFieldBegin_eq {tt : Int} (h : IsTType tt) (fid : Int) (s : St) (out : Bytes) :
    writeFieldBegin tt fid s out =
      (.ok (), { s with stack := primsStep s.stack [.num (intDigits fid), .opn 123 (.pair true true), .str (nameOf tt)] },
        out ++ primsBytes s.stack [.num (intDigits fid), .opn 123 (.pair true true), .str (nameOf tt)]) := by
  unfold writeFieldBegin writeInt
  simp only [W.bind_eq, W.lift_eq, writeJSONNumber_eq, writeJSONObjectStart_eq, typeName_ok h,
    writeJSONString_eq (nameOf_scalar h), primsStep, primsBytes, List.append_assoc, List.append_nil]

theorem writeListBegin_eq {e : Int} (h : IsTType e) (n : Int) (s : St) (out : Bytes) :
    writeListBegin e n s out =
      (.ok (), { s with stack := primsStep s.stack [.opn 91 (.list true), .str (nameOf e), .num (intDigits n)] },
        out ++ primsBytes s.stack [.opn 91 (.list true), .str (nameOf e), .num (intDigits n)]) := by
  unfold writeListBegin writeInt
  simp only [W.bind_eq, W.lift_eq, writeJSONNumber_eq, writeJSONArrayStart_eq, typeName_ok h,
    writeJSONString_eq (nameOf_scalar h), primsStep, primsBytes, List.append_assoc, List.append_nil]

theorem writeMapBegin_eq {k v : Int} (hk : IsTType k) (hv : IsTType v) (n : Int) (s : St) (out : Bytes) :
    writeMapBegin k v n s out =
      (.ok (), { s with stack := primsStep s.stack [.opn 91 (.list true), .str (nameOf k), .str (nameOf v), .num (intDigits n), .opn 123 (.pair true true)] },
        out ++ primsBytes s.stack [.opn 91 (.list true), .str (nameOf k), .str (nameOf v), .num (intDigits n),
          .opn 123 (.pair true true)]) := by
  unfold writeMapBegin writeInt
  simp only [W.bind_eq, W.lift_eq, writeJSONNumber_eq, writeJSONArrayStart_eq, writeJSONObjectStart_eq,
    typeName_ok hk, typeName_ok hv, writeJSONString_eq (nameOf_scalar hk), writeJSONString_eq (nameOf_scalar hv),
    primsStep, primsBytes, List.append_assoc, List.append_nil]

theorem uuidText_scalar (u : Bytes) : ∀ c ∈ Json.uuidText u, Scalar c := by
  intro c hc
  rcases uuidText_chars u c hc with rfl | ⟨k, hk, rfl⟩
  · decide
  · have := (hexChar_lt k hk).1
    unfold Scalar; omega

theorem one {m : W St Unit} {s : St} {out : Bytes} {p : Prim}
    (h : m s out = (.ok (), { s with stack := primStep s.stack p }, out ++ primBytes s.stack p)) :
    ∃ s', m s out = (.ok (), s', out ++ primsBytes s.stack [p]) ∧
      (s'.stack = primsStep s.stack [p] ∧ s'.hasData = s.hasData ∧ s'.data = s.data) ∧ s'.depth = s.depth :=
  ⟨{ s with stack := primStep s.stack p }, by rw [h]; simp only [primsBytes, List.append_nil], ⟨rfl, rfl, rfl⟩, rfl⟩

/-- The writing methods implement the language. -/
theorem writer_laws (py : Floats) (p : Nat → Prop) (fd : UInt64 → Prop) (h0 : Bool) (d0 : Bytes) :
    WriterLaws (lang py p fd) (wr py) (fun s q => s.stack = Q.stack q ∧ s.hasData = h0 ∧ s.data = d0) where
  depth s q d h := h
  tok T s q out hok hR := by
    obtain ⟨⟨hT, -, -⟩, hpos, -⟩ := hok
    obtain ⟨hR, rfl, rfl⟩ := hR
    change s.stack = q.stack at hR
    change ∃ s', wrTok (wr py) T s out = (.ok (), s', out ++ primsBytes q.stack (tokPrims py T)) ∧
      (s'.stack = primsStep q.stack (tokPrims py T) ∧ s'.hasData = s.hasData ∧ s'.data = s.data) ∧ s'.depth = s.depth
    rw [← hR]
    have hne : q.stack ≠ [] → s.stack ≠ [] := fun h => by rw [hR]; exact h
    cases T <;> simp only [TokOK] at hT <;> simp only [wrTok, wr, tokPrims]
    case structBegin => exact one (writeJSONObjectStart_eq s out)
    case structEnd => exact one (writeJSONObjectEnd_eq (hne hpos) out)
    case fieldBegin tt fid => exact ⟨_, writeFieldBegin_eq hT.1 fid s out, ⟨rfl, rfl, rfl⟩, rfl⟩
    case boolField fid b =>
      refine ⟨{ s with stack := primsStep s.stack [.num (intDigits fid), .opn 123 (.pair true true),
        .str (nameOf TType.BOOL), .num (intDigits (if b then 1 else 0))] }, ?_, ⟨rfl, rfl, rfl⟩, rfl⟩
      simp only [W.bind_eq, writeFieldBegin_eq (isTType_ttype .bool), show TType.BOOL = Ty.bool.ttype from rfl,
        writeInt, writeJSONNumber_eq]
      simp only [primsStep, primsBytes, List.append_assoc, List.append_nil]
    case fieldEnd => exact one (writeJSONObjectEnd_eq (hne hpos) out)
    case fieldStop => exact ⟨s, by simp [primsBytes], ⟨rfl, rfl, rfl⟩, rfl⟩
    case mapBegin k v n => exact ⟨_, writeMapBegin_eq hT.1 hT.2.1 n s out, ⟨rfl, rfl, rfl⟩, rfl⟩
    case mapEnd =>
      obtain ⟨a, b, r, h⟩ := hpos
      rw [← hR] at h
      refine ⟨{ s with stack := primsStep s.stack [.cls 125, .cls 93] }, ?_, ⟨rfl, rfl, rfl⟩, rfl⟩
      unfold writeMapEnd
      simp only [W.bind_eq]
      rw [writeJSONObjectEnd_eq (by rw [h]; simp)]
      simp only
      rw [writeJSONArrayEnd_eq (by simp [h, primStep])]
      simp only [primsStep, primsBytes, List.append_assoc, List.append_nil]
    case listBegin e n => exact ⟨_, writeListBegin_eq hT.1 n s out, ⟨rfl, rfl, rfl⟩, rfl⟩
    case listEnd => exact one (writeJSONArrayEnd_eq (hne hpos) out)
    case setBegin e n => exact ⟨_, writeListBegin_eq hT.1 n s out, ⟨rfl, rfl, rfl⟩, rfl⟩
    case setEnd => exact one (writeJSONArrayEnd_eq (hne hpos) out)
    case bool b => exact one (writeJSONNumber_eq _ s out)
    case byte i => exact one (writeChecked_eq hT (by simp) s out)
    case i16 i => exact one (writeChecked_eq hT (by simp) s out)
    case i32 i => exact one (writeChecked_eq hT (by simp) s out)
    case i64 i => exact one (writeChecked_eq hT (by simp) s out)
    case double x => exact one (writeJSONNumber_eq _ s out)
    case str x => exact one (writeJSONString_eq hT.1.1 s out)
    case bin x => exact one (writeJSONBase64_eq _ s out)
    case uuid x => exact one (writeJSONString_eq (uuidText_scalar x) s out)

end Thrift.Json
