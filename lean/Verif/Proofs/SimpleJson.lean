import Verif.Model.SimpleJson
import Verif.Spec.SimpleJson
import Verif.Proofs.JsonGrammar
/-
What `TSimpleJSONProtocol` writes for a well-typed value.
-/

namespace Thrift.SimpleJson
open Json Spec Spec.Json

/-- Where a value of type `t` may stand: a scalar not as a name. -/
def ValueHere (t : Ty) (stk : List Ctx) : Prop := t.hashable = true → escapeNum (top (bump stk)) = false

/-- The program writes `b` and leaves the contexts `stk'`. -/
def Puts (m : W St Unit) (stk stk' : List Ctx) (d : Int) (b : Bytes) : Prop :=
  ∀ s out, s.stack = stk → s.depth = d → m s out = (.ok (), { s with stack := stk' }, out ++ b)

theorem Puts.bind {m n : W St Unit} {a b c : List Ctx} {d : Int} {x y : Bytes} (h1 : Puts m a b d x)
    (h2 : Puts n b c d y) : Puts (do m; n) a c d (x ++ y) := by
  intro s out hs hd
  rw [W.bind_eq, h1 s out hs hd]
  simp only
  rw [h2 { s with stack := b } _ rfl hd, List.append_assoc]

theorem Puts.pure {a : List Ctx} {d : Int} : Puts (Pure.pure ()) a a d [] := by
  intro s out hs _
  subst hs
  simp

theorem Puts.of_eq {m : W St Unit} {a b b' : List Ctx} {d : Int} {x x' : Bytes} (h : Puts m a b d x) (e1 : b = b')
    (e2 : x = x') : Puts m a b' d x' := by subst e1; subst e2; exact h

theorem puts_number (n : Bytes) (stk : List Ctx) (d : Int) :
    Puts (writeJSONNumber n) stk (bump stk) d (sep stk ++ if escapeNum (top (bump stk)) then quoted n else n) := by
  intro s out hs _
  subst hs
  rw [writeJSONNumber_eq]
  rfl

theorem puts_string {t : PyStr} (h : ∀ c ∈ t, Scalar c) (stk : List Ctx) (d : Int) :
    Puts (writeJSONString t) stk (bump stk) d (sep stk ++ quoted (escaped t)) := by
  intro s out hs _
  subst hs
  rw [writeJSONString_eq h]
  rfl

theorem puts_base64 (b : Bytes) (stk : List Ctx) (d : Int) :
    Puts (writeJSONBase64 b) stk (bump stk) d (sep stk ++ quoted (base64 b)) := by
  intro s out hs _
  subst hs
  rw [writeJSONBase64_eq, ← escaped_base64]
  rfl

theorem puts_checked {bits : Nat} {i : Int} (h : InRange bits i)
    (hb : bits = 8 ∨ bits = 16 ∨ bits = 32 ∨ bits = 64) (stk : List Ctx) (d : Int) :
    Puts (writeChecked bits i) stk (bump stk) d
      (sep stk ++ if escapeNum (top (bump stk)) then quoted (decimal i) else decimal i) := by
  intro s out hs _
  subst hs
  rw [writeChecked_eq h hb, intDigits_eq]
  rfl

theorem puts_openObject (stk : List Ctx) (d : Int) :
    Puts writeJSONObjectStart stk (.pair true true :: bump stk) d (sep stk ++ [123]) := by
  intro s out hs _
  subst hs
  rw [writeJSONObjectStart_eq]
  rfl

theorem puts_openArray (stk : List Ctx) (d : Int) :
    Puts writeJSONArrayStart stk (.list true :: bump stk) d (sep stk ++ [91]) := by
  intro s out hs _
  subst hs
  rw [writeJSONArrayStart_eq]
  rfl

theorem puts_closeObject (c : Ctx) (stk : List Ctx) (d : Int) : Puts writeJSONObjectEnd (c :: stk) stk d [125] := by
  intro s out hs _
  rw [writeJSONObjectEnd_eq (by rw [hs]; simp), hs]
  rfl

theorem puts_closeArray (c : Ctx) (stk : List Ctx) (d : Int) : Puts writeJSONArrayEnd (c :: stk) stk d [93] := by
  intro s out hs _
  rw [writeJSONArrayEnd_eq (by rw [hs]; simp), hs]
  rfl

theorem puts_bracket {m : W St Unit} {a b : List Ctx} {d : Int} {x : Bytes} (hd : d < 64) (h : Puts m a b (d + 1) x) :
    Puts (do incDepthW; W.tryFinally m decDepth) a b d x := by
  intro s out hs hdep
  have h0 : HasDepth.depth s < 64 := by change s.depth < 64; omega
  rw [W.bind_ok (incDepthW_ok h0 out)]
  unfold W.tryFinally
  rw [show HasDepth.setDepth (HasDepth.depth s + 1) s = { s with depth := s.depth + 1 } from rfl,
    h { s with depth := s.depth + 1 } out hs (by change s.depth + 1 = _; omega)]
  simp [decDepth, HasDepth.depth, HasDepth.setDepth]

/-- Items of an array; with the flag, all of them, otherwise those after the first. -/
def items : Bool → List J → Bytes
  | true, x :: xs => render x ++ renderItems xs
  | _, xs => renderItems xs

theorem render_arr' (xs : List J) : render (.arr xs) = 91 :: (items true xs ++ [93]) := by
  cases xs <;> simp [render, items, renderItems]

theorem items_cons (a : Bool) (r : List Ctx) (x : J) (xs : List J) :
    items a (x :: xs) = sep (.list a :: r) ++ (render x ++ items false xs) := by
  cases a <;> simp [items, renderItems, sep, advance, top]

section
variable (py : Floats) (names : FieldNames) (sch : Schema) (mode : Mode)

theorem puts_key (a : Val) (t : Ty) (stk : List Ctx) (d : Int) (hwt : WT sch t a) (hh : t.hashable = true)
    (hk : KeyAt stk) :
    Puts (writeVal py names sch mode t a) stk (bump stk) d (sep stk ++ quoted (keyText py.fmt a)) := by
  unfold KeyAt at hk
  cases a <;> cases t <;> simp only [WT] at hwt <;> simp [Ty.hashable] at hh <;> simp only [writeVal, keyText, writeInt]
  case bool.bool b =>
    refine (puts_number _ stk d).of_eq rfl ?_
    rw [if_pos hk, intDigits_eq, bool_digits]
  case double.double x => exact (puts_number _ stk d).of_eq rfl (by rw [if_pos hk])
  case str.string s => exact puts_string hwt.1 stk d
  case bin.binary b => exact puts_base64 b stk d
  case uuid.uuid u =>
    refine (puts_string (uuidText_scalar u) stk d).of_eq rfl ?_
    rw [escaped_uuid]
  all_goals exact (puts_checked hwt (by simp) stk d).of_eq rfl (by rw [if_pos hk])

theorem writeVal_gen (sid : Nat) (as : List (Option Val)) (hm : mode = .gen) (h : requiredSet (sch sid) as = true) :
    writeVal py names sch mode (.struct sid) (.struct as) = (do
      incDepthW
      W.tryFinally (do
        writeJSONObjectStart
        writeFields py names sch mode (names sid) (sch sid) as
        writeJSONObjectEnd) decDepth) := by
  subst hm
  simp only [writeVal, h, if_true]

theorem writeVal_dyn (sid : Nat) (as : List (Option Val)) (hm : mode = .dyn) (h : ∀ f ∈ sch sid, 0 ≤ f.fid) :
    writeVal py names sch mode (.struct sid) (.struct as) = (do
      writeJSONObjectStart
      writeFields py names sch mode (names sid) (sch sid) as
      writeJSONObjectEnd) := by
  subst hm
  have hsees : writerSees .dyn (sch sid) = true := by
    unfold writerSees
    cases hh : sch sid with
    | nil => rfl
    | cons f fs => simp only [decide_eq_true_eq]; exact h _ (by rw [hh]; simp)
  simp only [writeVal, hsees, if_true]

/-- One name for each field, in characters that can be written. -/
def NamesFit : Prop := ∀ sid, (names sid).length = (sch sid).length ∧ ∀ n ∈ names sid, ∀ c ∈ n, Scalar c

variable (hs : SchemaOK mode sch) (hn : NamesFit names sch)
include hs hn

mutual
theorem puts_value : (v : Val) → (t : Ty) → (stk : List Ctx) → (d : Int) → WT sch t v →
    (mode = .gen → d + structDepth v ≤ 64) → ValueHere t stk →
    Puts (writeVal py names sch mode t v) stk (bump stk) d (sep stk ++ render (SimpleJson.tree py.fmt names sch t v)) := by
  intro v t stk d hwt hd ha
  cases v with
  | list vs =>
    cases t <;> simp only [WT] at hwt
    rename_i e
    simp only [writeVal, SimpleJson.tree, render_arr']
    obtain ⟨a, h2⟩ := puts_elems vs e true (bump stk) d hwt.2 (by simpa only [structDepth] using hd)
    exact ((puts_openArray stk d).bind (h2.bind (puts_closeArray _ _ d))).of_eq rfl (by simp)
  | set vs =>
    cases t <;> simp only [WT] at hwt
    rename_i e
    simp only [writeVal, SimpleJson.tree, render_arr']
    obtain ⟨a, h2⟩ := puts_elems vs e true (bump stk) d hwt.2.2 (by simpa only [structDepth] using hd)
    exact ((puts_openArray stk d).bind (h2.bind (puts_closeArray _ _ d))).of_eq rfl (by simp)
  | map kvs =>
    cases t <;> simp only [WT] at hwt
    rename_i k v
    simp only [writeVal, SimpleJson.tree, render_obj]
    obtain ⟨a, h2⟩ := puts_pairs kvs k v true (bump stk) d hwt.2.2 hwt.2.1 (by simpa only [structDepth] using hd)
    exact ((puts_openObject stk d).bind (h2.bind (puts_closeObject _ _ d))).of_eq rfl (by simp)
  | struct as =>
    cases t <;> simp only [WT] at hwt
    rename_i sid
    simp only [SimpleJson.tree, render_obj]
    rcases hm : mode with _ | _
    · rw [← hm, writeVal_gen py names sch mode sid as hm (requiredSet_of_WTf hwt)]
      have hd' := hd hm
      simp only [structDepth] at hd'
      obtain ⟨a, h2⟩ := puts_fields as (sch sid) (names sid) true (bump stk) (d + 1) hwt (hn sid).1 (hn sid).2
        (fun _ => by omega)
      refine puts_bracket (by omega) ?_
      exact ((puts_openObject stk _).bind (h2.bind (puts_closeObject _ _ _))).of_eq rfl (by simp)
    · rw [← hm, writeVal_dyn py names sch mode sid as hm ((hs sid).2 hm)]
      obtain ⟨a, h2⟩ := puts_fields as (sch sid) (names sid) true (bump stk) d hwt (hn sid).1 (hn sid).2
        (fun h => by rw [hm] at h; cases h)
      exact ((puts_openObject stk d).bind (h2.bind (puts_closeObject _ _ d))).of_eq rfl (by simp)
  | bool b =>
    cases t <;> simp only [WT] at hwt
    simp only [writeVal, writeInt, SimpleJson.tree, render]
    refine (puts_number _ stk d).of_eq rfl ?_
    rw [if_neg (by rw [ha rfl]; simp), intDigits_eq, bool_digits]
  | double x =>
    cases t <;> simp only [WT] at hwt
    simp only [writeVal, SimpleJson.tree, render]
    exact (puts_number _ stk d).of_eq rfl (by rw [if_neg (by rw [ha rfl]; simp)])
  | str x =>
    cases t <;> simp only [WT] at hwt
    simp only [writeVal, SimpleJson.tree, render]
    exact puts_string hwt.1 stk d
  | bin x =>
    cases t <;> simp only [WT] at hwt
    simp only [writeVal, SimpleJson.tree, render]
    exact puts_base64 x stk d
  | uuid x =>
    cases t <;> simp only [WT] at hwt
    simp only [writeVal, SimpleJson.tree, render]
    exact (puts_string (uuidText_scalar x) stk d).of_eq rfl (by rw [escaped_uuid])
  | int i =>
    cases t <;> simp only [WT] at hwt <;> simp only [writeVal, SimpleJson.tree, render] <;>
      exact (puts_checked hwt (by simp) stk d).of_eq rfl (by rw [if_neg (by rw [ha rfl]; simp)])
theorem puts_elems : (vs : List Val) → (e : Ty) → (a : Bool) → (r : List Ctx) → (d : Int) → WTs sch e vs →
    (mode = .gen → d + structDepths vs ≤ 64) →
    ∃ a', Puts (writeElems py names sch mode e vs) (.list a :: r) (.list a' :: r) d
      (items a (SimpleJson.trees py.fmt names sch e vs)) := by
  intro vs e a r d hwt hd
  cases vs with
  | nil =>
    refine ⟨a, ?_⟩
    simp only [writeElems, SimpleJson.trees]
    exact Puts.pure.of_eq rfl (by cases a <;> simp [items, renderItems])
  | cons v vs =>
    simp only [WTs] at hwt
    simp only [structDepths] at hd
    obtain ⟨a', h2⟩ := puts_elems vs e false r d hwt.2 (fun h => by have := hd h; omega)
    refine ⟨a', ?_⟩
    simp only [writeElems, SimpleJson.trees]
    have h1 := puts_value v e (.list a :: r) d hwt.1 (fun h => by have := hd h; omega)
      (fun _ => by cases a <;> rfl)
    have e' : bump (.list a :: r) = .list false :: r := by cases a <;> rfl
    rw [e'] at h1
    exact (h1.bind h2).of_eq rfl (by rw [items_cons a r]; simp)
theorem puts_pairs : (kvs : List (Val × Val)) → (k v : Ty) → (a : Bool) → (r : List Ctx) → (d : Int) →
    WTp sch k v kvs → k.hashable = true → (mode = .gen → d + structDepthp kvs ≤ 64) →
    ∃ a', Puts (writePairs py names sch mode k v kvs) (.pair a a :: r) (.pair a' a' :: r) d
      (members a (SimpleJson.treep py.fmt names sch v kvs)) := by
  intro kvs k v a r d hwt hh hd
  match kvs with
  | [] =>
    refine ⟨a, ?_⟩
    simp only [writePairs, SimpleJson.treep]
    exact Puts.pure.of_eq rfl (by cases a <;> simp [members, renderMembers])
  | (x, y) :: kvs =>
    simp only [WTp] at hwt
    simp only [structDepthp] at hd
    obtain ⟨a', h3⟩ := puts_pairs kvs k v false r d hwt.2.2 hh (fun h => by have := hd h; omega)
    refine ⟨a', ?_⟩
    simp only [writePairs, SimpleJson.treep]
    have h1 := puts_key py names sch mode x k (.pair a a :: r) d hwt.1 hh (by cases a <;> rfl)
    have e1 : bump (.pair a a :: r) = .pair false true :: r := by cases a <;> rfl
    rw [e1] at h1
    have h2 := puts_value y v (.pair false true :: r) d hwt.2.1 (fun h => by have := hd h; omega)
      (fun _ => rfl)
    have e2 : bump (.pair false true :: r) = .pair false false :: r := rfl
    rw [e2] at h2
    refine (h1.bind (h2.bind h3)).of_eq rfl ?_
    rw [members_cons a r]
    simp [sep, advance, top]
theorem puts_fields : (as : List (Option Val)) → (fs : List Field) → (ns : List PyStr) → (a : Bool) →
    (r : List Ctx) → (d : Int) → WTf sch fs as → ns.length = fs.length → (∀ n ∈ ns, ∀ c ∈ n, Scalar c) →
    (mode = .gen → d + structDepthf as ≤ 64) →
    ∃ a', Puts (writeFields py names sch mode ns fs as) (.pair a a :: r) (.pair a' a' :: r) d
      (members a (SimpleJson.treef py.fmt names sch ns fs as)) := by
  intro as fs ns a r d hwt hlen hsc hd
  match fs, as, ns with
  | [], [], ns =>
    refine ⟨a, ?_⟩
    have e1 : writeFields py names sch mode ns [] [] = Pure.pure () := by cases ns <;> simp only [writeFields]
    have e2 : SimpleJson.treef py.fmt names sch ns [] [] = [] := by cases ns <;> simp only [SimpleJson.treef]
    rw [e1, e2]
    exact Puts.pure.of_eq rfl (by cases a <;> simp [members, renderMembers])
  | [], _ :: _, _ => simp only [WTf] at hwt
  | _ :: _, [], _ => simp only [WTf] at hwt
  | _ :: _, _, [] => simp at hlen
  | f :: fs, none :: as, n :: ns =>
    simp only [WTf] at hwt
    simp only [structDepthf] at hd
    simp only [writeFields, SimpleJson.treef]
    exact puts_fields as fs ns a r d hwt.2 (by simpa using hlen) (fun m hm => hsc m (by simp [hm])) hd
  | f :: fs, some v :: as, n :: ns =>
    simp only [WTf] at hwt
    simp only [structDepthf] at hd
    obtain ⟨a', h3⟩ := puts_fields as fs ns false r d hwt.2 (by simpa using hlen)
      (fun m hm => hsc m (by simp [hm])) (fun h => by have := hd h; omega)
    refine ⟨a', ?_⟩
    simp only [writeFields, SimpleJson.treef]
    have h1 := puts_string (hsc n (by simp)) (.pair a a :: r) d
    have e1 : bump (.pair a a :: r) = .pair false true :: r := by cases a <;> rfl
    rw [e1] at h1
    have h2 := puts_value v f.ty (.pair false true :: r) d hwt.1 (fun h => by have := hd h; omega)
      (fun _ => rfl)
    have e2 : bump (.pair false true :: r) = .pair false false :: r := rfl
    rw [e2] at h2
    refine (h1.bind (h2.bind h3)).of_eq rfl ?_
    rw [members_cons a r]
    simp [sep, advance, top]
end
end

/-- Pairs whose keys are not scalars: every key is written as the JSON value that stands for it. -/
theorem puts_compound (py : Floats) (names : FieldNames) (sch : Schema) (mode : Mode) (hs : SchemaOK mode sch)
    (hn : NamesFit names sch) (k v : Ty) (hk : k.hashable = false) (r : List Ctx) (d : Int) :
    (kvs : List (Val × Val)) → (a : Bool) → WTp sch k v kvs → (mode = .gen → d + structDepthp kvs ≤ 64) →
    ∃ a' b, Puts (writePairs py names sch mode k v kvs) (.pair a a :: r) (.pair a' a' :: r) d b ∧
      ∀ x y l, kvs = (x, y) :: l → ∃ b', b = sep (.pair a a :: r) ++ (render (SimpleJson.tree py.fmt names sch k x) ++ b')
  | [], a, _, _ => by
    refine ⟨a, [], ?_, fun x y l h => by cases h⟩
    simp only [writePairs]
    exact Puts.pure
  | (x, y) :: kvs, a, hwt, hd => by
    simp only [WTp] at hwt
    simp only [structDepthp] at hd
    obtain ⟨a', b, h3, -⟩ := puts_compound py names sch mode hs hn k v hk r d kvs false hwt.2.2
      (fun h => by have := hd h; omega)
    have h1 := puts_value py names sch mode hs hn x k (.pair a a :: r) d hwt.1 (fun h => by have := hd h; omega)
      (fun h => by rw [hk] at h; cases h)
    have e1 : bump (.pair a a :: r) = .pair false true :: r := by cases a <;> rfl
    rw [e1] at h1
    have h2 := puts_value py names sch mode hs hn y v (.pair false true :: r) d hwt.2.1
      (fun h => by have := hd h; omega) (fun _ => rfl)
    have e2 : bump (.pair false true :: r) = .pair false false :: r := rfl
    rw [e2] at h2
    have h4 := h1.bind (h2.bind h3)
    refine ⟨a', _, by simp only [writePairs]; exact h4, ?_⟩
    · intro x' y' l e
      cases e
      exact ⟨_, by rw [List.append_assoc]⟩

/-! ### The grammar -/

/-- What follows an opening brace: a blank, a quotation mark or the closing brace. -/
def AfterBrace (x : UInt8) : Prop := x = 0x20 ∨ x = 0x09 ∨ x = 0x0A ∨ x = 0x0D ∨ x = 34 ∨ x = 125

theorem blank_head {w : Bytes} (h : Rfc8259.Blank w) {x : UInt8} {r l : Bytes} (e : w ++ x :: l = r)
    (hx : x = 34 ∨ x = 125) : ∃ y r', r = y :: r' ∧ AfterBrace y := by
  subst e
  cases w with
  | nil => exact ⟨x, l, rfl, by rcases hx with rfl | rfl <;> simp [AfterBrace]⟩
  | cons y w =>
    refine ⟨y, _, rfl, ?_⟩
    rcases h y (by simp) with rfl | rfl | rfl | rfl <;> simp [AfterBrace]

theorem members_head {b : Bytes} (h : Rfc8259.Members b) : ∃ y r', b = y :: r' ∧ AfterBrace y := by
  have key : ∀ b, Rfc8259.Member b → ∃ y r', b = y :: r' ∧ AfterBrace y := by
    intro b h
    cases h with
    | mk w k w' v hw hk hw' hv => exact blank_head hw rfl (.inl rfl)
  cases h with
  | one b h => exact key _ h
  | more b rest h _ =>
    obtain ⟨y, r', rfl, hy⟩ := key _ h
    exact ⟨y, _, rfl, hy⟩

theorem value_brace {x : UInt8} {b : Bytes} (h : Rfc8259.Value (123 :: x :: b)) : AfterBrace x := by
  generalize e : 123 :: x :: b = v at h
  cases h with
  | tru => cases e
  | fls => cases e
  | null => cases e
  | number d hd =>
    subst e
    have := number_numeric hd 123 (by simp)
    exact absurd this (by decide)
  | string d _ => cases e
  | emptyArray w _ => cases e
  | array d _ => cases e
  | emptyObject w hw =>
    injection e with _ e
    obtain ⟨y, r', e', hy⟩ := blank_head hw (x := 125) (l := []) rfl (.inr rfl)
    rw [← e] at e'
    injection e' with e' _
    rw [e']; exact hy
  | object d hd =>
    injection e with _ e
    obtain ⟨y, r', rfl, hy⟩ := members_head hd
    injection e with e _
    rw [e]; exact hy

theorem value_ne {b : Bytes} (h : Rfc8259.Value b) : b ≠ [] := by
  cases h with
  | number d hd => exact number_ne hd
  | _ => simp

theorem text_brace {x : UInt8} {b : Bytes} (h : Rfc8259.Text (123 :: x :: b)) : AfterBrace x := by
  generalize e : 123 :: x :: b = v at h
  cases h with
  | mk w v w' hw hv hw' =>
    cases w with
    | cons y w =>
      injection e with e _
      have := hw y (by simp)
      rw [← e] at this
      exact absurd this (by decide)
    | nil =>
      match v, hv, e with
      | [], hv, _ => exact absurd rfl (value_ne hv)
      | [y], hv, e =>
        injection e with e _
        subst e
        generalize e : [(123 : UInt8)] = v at hv
        cases hv with
        | tru => cases e
        | fls => cases e
        | null => cases e
        | number d hd =>
          subst e
          have := number_numeric hd 123 (by simp)
          exact absurd this (by decide)
        | string d _ => cases e
        | emptyArray w _ => cases e
        | array d _ => cases e
        | emptyObject w hw =>
          injection e with _ e
          cases w <;> cases e
        | object d hd =>
          injection e with _ e
          cases d <;> cases e
      | y :: z :: v, hv, e =>
        injection e with e1 e
        injection e with e2 e
        subst e1; subst e2
        exact value_brace hv

section
variable (fmt : UInt64 → Bytes) (names : Nat → List PyStr) (sch : Schema)
  (hfmt : ∀ x, Finite x → Rfc8259.Number (fmt x)) (hn : ∀ sid, ∀ n ∈ names sid, ∀ c ∈ n, 0x20 ≤ c ∧ c < 0x7F)
include hfmt hn

mutual
theorem tree_lexical : (v : Val) → (t : Ty) → WT sch t v → Doubles Finite v → Strings Clean v →
    Lexical (SimpleJson.tree fmt names sch t v) := by
  intro v t hwt hd hs
  cases v with
  | bool b => cases t <;> simp only [WT] at hwt <;> (simp only [SimpleJson.tree, Lexical]; exact number_bool b)
  | int i => cases t <;> simp only [WT] at hwt <;> (simp only [SimpleJson.tree, Lexical]; exact number_decimal i)
  | double x => cases t <;> simp only [WT] at hwt <;> (simp only [SimpleJson.tree, Lexical]; exact hfmt x hd)
  | str s => cases t <;> simp only [WT] at hwt <;> (simp only [SimpleJson.tree, Lexical]; exact chars_escaped hwt.1 hs)
  | bin b => cases t <;> simp only [WT] at hwt <;> (simp only [SimpleJson.tree, Lexical]; exact chars_base64 b)
  | uuid u => cases t <;> simp only [WT] at hwt <;> (simp only [SimpleJson.tree, Lexical]; exact chars_uuid u)
  | list vs =>
    cases t <;> simp only [WT] at hwt
    simp only [Doubles] at hd
    simp only [Strings] at hs
    simp only [SimpleJson.tree, Lexical]
    exact trees_lexical vs _ hwt.2 hd hs
  | set vs =>
    cases t <;> simp only [WT] at hwt
    simp only [Doubles] at hd
    simp only [Strings] at hs
    simp only [SimpleJson.tree, Lexical]
    exact trees_lexical vs _ hwt.2.2 hd hs
  | map kvs =>
    cases t <;> simp only [WT] at hwt
    simp only [Doubles] at hd
    simp only [Strings] at hs
    simp only [SimpleJson.tree, Lexical]
    exact treep_lexical kvs _ _ hwt.2.2 hd hs
  | struct as =>
    cases t <;> simp only [WT] at hwt
    simp only [Doubles] at hd
    simp only [Strings] at hs
    simp only [SimpleJson.tree, Lexical]
    exact treef_lexical as _ _ hwt hd hs (hn _)
theorem trees_lexical : (vs : List Val) → (e : Ty) → WTs sch e vs → Doubless Finite vs → Stringss Clean vs →
    LexicalItems (SimpleJson.trees fmt names sch e vs) := by
  intro vs e hwt hd hs
  cases vs with
  | nil => simp only [SimpleJson.trees, LexicalItems]
  | cons v vs =>
    simp only [WTs] at hwt
    simp only [Doubless] at hd
    simp only [Stringss] at hs
    simp only [SimpleJson.trees, LexicalItems]
    exact ⟨tree_lexical v e hwt.1 hd.1 hs.1, trees_lexical vs e hwt.2 hd.2 hs.2⟩
theorem treep_lexical : (kvs : List (Val × Val)) → (k v : Ty) → WTp sch k v kvs → Doublesp Finite kvs →
    Stringsp Clean kvs → LexicalMembers (SimpleJson.treep fmt names sch v kvs) := by
  intro kvs k v hwt hd hs
  match kvs with
  | [] => simp only [SimpleJson.treep, LexicalMembers]
  | (a, b) :: kvs =>
    simp only [WTp] at hwt
    simp only [Doublesp] at hd
    simp only [Stringsp] at hs
    simp only [SimpleJson.treep, LexicalMembers]
    exact ⟨key_chars fmt sch hfmt a k hwt.1 hd.1 hs.1, tree_lexical b v hwt.2.1 hd.2.1 hs.2.1,
      treep_lexical kvs k v hwt.2.2 hd.2.2 hs.2.2⟩
theorem treef_lexical : (as : List (Option Val)) → (fs : List Field) → (ns : List PyStr) → WTf sch fs as →
    Doublesf Finite as → Stringsf Clean as → (∀ n ∈ ns, ∀ c ∈ n, 0x20 ≤ c ∧ c < 0x7F) →
    LexicalMembers (SimpleJson.treef fmt names sch ns fs as) := by
  intro as fs ns hwt hd hs hns
  match ns, fs, as with
  | [], _, _ => simp only [SimpleJson.treef, LexicalMembers]
  | _ :: _, [], _ => simp only [SimpleJson.treef, LexicalMembers]
  | _ :: _, _ :: _, [] => simp only [SimpleJson.treef, LexicalMembers]
  | n :: ns, f :: fs, none :: as =>
    simp only [WTf] at hwt
    simp only [Doublesf] at hd
    simp only [Stringsf] at hs
    simp only [SimpleJson.treef]
    exact treef_lexical as fs ns hwt.2 hd hs fun m hm => hns m (by simp [hm])
  | n :: ns, f :: fs, some v :: as =>
    simp only [WTf] at hwt
    simp only [Doublesf] at hd
    simp only [Stringsf] at hs
    simp only [SimpleJson.treef, LexicalMembers]
    exact ⟨chars_escaped (fun c hc => by have := hns n (by simp) c hc; unfold Scalar; omega)
        (fun c hc => .inl (hns n (by simp) c hc).1),
      tree_lexical v f.ty hwt.1 hd.1 hs.1,
      treef_lexical as fs ns hwt.2 hd.2 hs.2 fun m hm => hns m (by simp [hm])⟩
end
end

/-! ### Names are not repeated -/

theorem escape_cases (c : Nat) : (∃ x, escape c = [92, x]) ∨ (escape c = [c] ∧ c ≠ 92) := by
  unfold escape
  repeat' split
  all_goals first
    | exact .inl ⟨_, rfl⟩
    | exact .inr ⟨rfl, by omega⟩

theorem escape_inj {c d : Nat} (h : escape c = escape d) : c = d := by
  unfold escape at h
  repeat' split at h
  all_goals
    simp only [List.cons.injEq, and_true, true_and, reduceCtorEq, List.cons_ne_nil, and_false, false_and,
      List.nil_eq, List.ne_cons_self] at h
    try omega

theorem flatMap_escape_inj : (s t : PyStr) → s.flatMap escape = t.flatMap escape → s = t
  | [], [], _ => rfl
  | [], d :: t, h => by
    rcases escape_cases d with ⟨x, e⟩ | ⟨e, -⟩ <;> simp [e] at h
  | c :: s, [], h => by
    rcases escape_cases c with ⟨x, e⟩ | ⟨e, -⟩ <;> simp [e] at h
  | c :: s, d :: t, h => by
    rw [List.flatMap_cons, List.flatMap_cons] at h
    have hlen : (escape c).length = (escape d).length ∧ escape c = escape d := by
      rcases escape_cases c with ⟨x, e⟩ | ⟨e, hc⟩ <;> rcases escape_cases d with ⟨y, e'⟩ | ⟨e', hd⟩
      · rw [e, e'] at h ⊢
        simp at h
        simp [h.1]
      · rw [e, e'] at h
        simp at h
        omega
      · rw [e, e'] at h
        simp at h
        omega
      · rw [e, e'] at h ⊢
        simp at h
        simp [h.1]
    have h' := List.append_inj_right h hlen.1
    rw [escape_inj hlen.2, flatMap_escape_inj s t h']

theorem utf8_inj {s t : PyStr} (hs : ∀ c ∈ s, Scalar c) (ht : ∀ c ∈ t, Scalar c) (h : utf8 s = utf8 t) : s = t := by
  have h1 := utf8Decode_utf8 hs
  have h2 := utf8Decode_utf8 ht
  rw [h] at h1
  rw [h1] at h2
  injection h2

theorem escaped_inj {s t : PyStr} (hs : ∀ c ∈ s, Scalar c) (ht : ∀ c ∈ t, Scalar c) (h : escaped s = escaped t) :
    s = t := by
  rw [← utf8_escape, ← utf8_escape] at h
  refine flatMap_escape_inj s t (utf8_inj ?_ ?_ h)
  · intro c hc
    obtain ⟨d, hd, hc⟩ := List.mem_flatMap.mp hc
    exact escape_scalar (hs d hd) c hc
  · intro c hc
    obtain ⟨d, hd, hc⟩ := List.mem_flatMap.mp hc
    exact escape_scalar (ht d hd) c hc

theorem decimal_inj {i j : Int} (h : decimal i = decimal j) : i = j := by
  rw [← intDigits_eq, ← intDigits_eq] at h
  have h1 := pyInt_intDigits i
  rw [h, pyInt_intDigits] at h1
  injection h1 with h1
  exact h1.symm

theorem base64_inj {a b : Bytes} (h : base64 a = base64 b) : a = b := by
  rw [← b64encode_eq, ← b64encode_eq] at h
  have h1 := b64decode_encode a
  rw [h, b64decode_encode] at h1
  injection h1 with h1
  exact h1.symm

theorem uuid_inj {a b : Bytes} (ha : a.length = 16) (hb : b.length = 16)
    (h : Spec.Json.uuidText a = Spec.Json.uuidText b) : a = b := by
  rw [← escaped_uuid, ← escaped_uuid] at h
  have e := escaped_inj (uuidText_scalar a) (uuidText_scalar b) h
  have h1 := parseUuid_text a ha
  rw [e, parseUuid_text b hb] at h1
  injection h1 with h1
  exact h1.symm

theorem doubleEq_refl {x : UInt64} (h : Finite x) : doubleEq x x = true := by
  unfold doubleEq
  unfold Finite at h
  rw [if_neg (by omega)]
  split
  · rfl
  · simp

/-- Keys with the same text are equal. -/
theorem keyText_inj {fmt : UInt64 → Bytes} {parse : PyStr → Option UInt64} (hpy : Faithful fmt parse) {sch : Schema}
    {k : Ty} {a b : Val} (hk : k.hashable = true) (ha : WT sch k a) (hb : WT sch k b) (hfa : Doubles Finite a)
    (hfb : Doubles Finite b) (h : keyText fmt a = keyText fmt b) : pyEq b a = true := by
  cases k <;> simp [Ty.hashable] at hk <;> cases a <;> simp only [WT] at ha <;> cases b <;> simp only [WT] at hb <;>
    simp only [keyText] at h <;> simp only [pyEq, decide_eq_true_eq]
  case bool.bool.bool a b =>
    rw [← bool_digits, ← bool_digits] at h
    have := decimal_inj h
    cases a <;> cases b <;> simp at this ⊢
  case double.double.double x y =>
    have h1 := hpy.parse x hfa
    rw [h, hpy.parse y hfb] at h1
    injection h1 with h1
    subst h1
    exact doubleEq_refl hfa
  case string.str.str s t => exact (escaped_inj ha.1 hb.1 h).symm
  case binary.bin.bin s t => exact (base64_inj h).symm
  case uuid.uuid.uuid s t => exact (uuid_inj ha hb h).symm
  all_goals exact (decimal_inj h).symm

section
variable (fmt : UInt64 → Bytes) (parse : PyStr → Option UInt64) (names : Nat → List PyStr) (sch : Schema)
  (hpy : Faithful fmt parse) (hn : SimpleJson.NamesOK names sch)

theorem treef_names : (ns : List PyStr) → (fs : List Field) → (as : List (Option Val)) →
    ((SimpleJson.treef fmt names sch ns fs as).map (·.1)).Sublist (ns.map escaped)
  | [], _, _ => by simp only [SimpleJson.treef, List.map_nil]; exact List.nil_sublist _
  | _ :: _, [], _ => by simp only [SimpleJson.treef, List.map_nil]; exact List.nil_sublist _
  | _ :: _, _ :: _, [] => by simp only [SimpleJson.treef, List.map_nil]; exact List.nil_sublist _
  | n :: ns, f :: fs, none :: as => by
    simp only [SimpleJson.treef, List.map_cons]
    exact (treef_names ns fs as).cons _
  | n :: ns, f :: fs, some v :: as => by
    simp only [SimpleJson.treef, List.map_cons]
    exact (treef_names ns fs as).cons_cons _

theorem treep_names : (kvs : List (Val × Val)) → (v : Ty) →
    (SimpleJson.treep fmt names sch v kvs).map (·.1) = kvs.map fun x => keyText fmt x.1
  | [], _ => by simp [SimpleJson.treep]
  | (a, b) :: kvs, v => by
    simp only [SimpleJson.treep, List.map_cons]
    rw [treep_names kvs v]

theorem escaped_nodup {ns : List PyStr} (h : ns.Nodup) (hsc : ∀ n ∈ ns, ∀ c ∈ n, Scalar c) :
    (ns.map escaped).Nodup := by
  unfold List.Nodup at *
  rw [List.pairwise_map]
  refine List.Pairwise.imp_of_mem ?_ h
  intro a b ha hb hne e
  exact hne (escaped_inj (hsc a ha) (hsc b hb) e)

include hpy in
theorem keys_nodup (k v : Ty) (hk : k.hashable = true) : (kvs : List (Val × Val)) → WTp sch k v kvs →
    Doublesp Finite kvs → Distinct (kvs.map (·.1)) → (kvs.map fun x => keyText fmt x.1).Nodup
  | [], _, _, _ => by simp
  | (a, b) :: kvs, hwt, hd, hdis => by
    simp only [WTp] at hwt
    simp only [Doublesp] at hd
    unfold Distinct at hdis
    rw [List.map_cons, List.pairwise_cons] at hdis
    rw [List.map_cons, List.nodup_cons]
    refine ⟨?_, keys_nodup k v hk kvs hwt.2.2 hd.2.2 hdis.2⟩
    intro hm
    obtain ⟨x, hx, e⟩ := List.mem_map.mp hm
    have hwx : WT sch k x.1 ∧ Doubles Finite x.1 := by
      clear hdis hm
      obtain ⟨-, -, hwt⟩ := hwt
      obtain ⟨-, -, hd⟩ := hd
      induction kvs with
      | nil => cases hx
      | cons y kvs ih =>
        simp only [WTp] at hwt
        simp only [Doublesp] at hd
        rcases List.mem_cons.mp hx with rfl | hx
        · exact ⟨hwt.1, hd.1⟩
        · exact ih hx hwt.2.2 hd.2.2
    have := hdis.1 x.1 (List.mem_map.mpr ⟨x, hx, rfl⟩)
    rw [keyText_inj hpy hk hwt.1 hwx.1 hd.1 hwx.2 e.symm] at this
    cases this

include hpy hn

mutual
theorem tree_unique : (v : Val) → (t : Ty) → WT sch t v → Doubles Finite v → NoDuplicates v →
    SimpleJson.Unique (SimpleJson.tree fmt names sch t v) := by
  intro v t hwt hd hs
  cases v with
  | list vs =>
    cases t <;> simp only [WT] at hwt
    simp only [Doubles] at hd
    simp only [NoDuplicates] at hs
    simp only [SimpleJson.tree, SimpleJson.Unique]
    exact trees_unique vs _ hwt.2 hd hs
  | set vs =>
    cases t <;> simp only [WT] at hwt
    simp only [Doubles] at hd
    simp only [NoDuplicates] at hs
    simp only [SimpleJson.tree, SimpleJson.Unique]
    exact trees_unique vs _ hwt.2.2 hd hs.2
  | map kvs =>
    cases t <;> simp only [WT] at hwt
    simp only [Doubles] at hd
    simp only [NoDuplicates] at hs
    simp only [SimpleJson.tree, SimpleJson.Unique]
    refine ⟨?_, treep_unique kvs _ _ hwt.2.2 hd hs.2⟩
    rw [treep_names]
    exact keys_nodup fmt parse sch hpy _ _ hwt.2.1 kvs hwt.2.2 hd hs.1
  | struct as =>
    cases t <;> simp only [WT] at hwt
    rename_i sid
    simp only [Doubles] at hd
    simp only [NoDuplicates] at hs
    simp only [SimpleJson.tree, SimpleJson.Unique]
    refine ⟨?_, treef_unique as _ _ hwt hd hs⟩
    refine (treef_names fmt names sch (names sid) (sch sid) as).nodup (escaped_nodup (hn sid).2.1 ?_)
    intro n hm c hc
    have := (hn sid).2.2 n hm c hc
    unfold Scalar
    omega
  | _ => simp only [SimpleJson.tree, SimpleJson.Unique]
theorem trees_unique : (vs : List Val) → (e : Ty) → WTs sch e vs → Doubless Finite vs → NoDuplicatess vs →
    SimpleJson.UniqueItems (SimpleJson.trees fmt names sch e vs) := by
  intro vs e hwt hd hs
  cases vs with
  | nil => simp only [SimpleJson.trees, SimpleJson.UniqueItems]
  | cons v vs =>
    simp only [WTs] at hwt
    simp only [Doubless] at hd
    simp only [NoDuplicatess] at hs
    simp only [SimpleJson.trees, SimpleJson.UniqueItems]
    exact ⟨tree_unique v e hwt.1 hd.1 hs.1, trees_unique vs e hwt.2 hd.2 hs.2⟩
theorem treep_unique : (kvs : List (Val × Val)) → (k v : Ty) → WTp sch k v kvs → Doublesp Finite kvs →
    NoDuplicatesp kvs → SimpleJson.UniqueMembers (SimpleJson.treep fmt names sch v kvs) := by
  intro kvs k v hwt hd hs
  match kvs with
  | [] => simp only [SimpleJson.treep, SimpleJson.UniqueMembers]
  | (a, b) :: kvs =>
    simp only [WTp] at hwt
    simp only [Doublesp] at hd
    simp only [NoDuplicatesp] at hs
    simp only [SimpleJson.treep, SimpleJson.UniqueMembers]
    exact ⟨tree_unique b v hwt.2.1 hd.2.1 hs.2.1, treep_unique kvs k v hwt.2.2 hd.2.2 hs.2.2⟩
theorem treef_unique : (as : List (Option Val)) → (fs : List Field) → (ns : List PyStr) → WTf sch fs as →
    Doublesf Finite as → NoDuplicatesf as → SimpleJson.UniqueMembers (SimpleJson.treef fmt names sch ns fs as) := by
  intro as fs ns hwt hd hs
  match ns, fs, as with
  | [], _, _ => simp only [SimpleJson.treef, SimpleJson.UniqueMembers]
  | _ :: _, [], _ => simp only [SimpleJson.treef, SimpleJson.UniqueMembers]
  | _ :: _, _ :: _, [] => simp only [SimpleJson.treef, SimpleJson.UniqueMembers]
  | n :: ns, f :: fs, none :: as =>
    simp only [WTf] at hwt
    simp only [Doublesf] at hd
    simp only [NoDuplicatesf] at hs
    simp only [SimpleJson.treef]
    exact treef_unique as fs ns hwt.2 hd hs
  | n :: ns, f :: fs, some v :: as =>
    simp only [WTf] at hwt
    simp only [Doublesf] at hd
    simp only [NoDuplicatesf] at hs
    simp only [SimpleJson.treef, SimpleJson.UniqueMembers]
    exact ⟨tree_unique v f.ty hwt.1 hd.1 hs.1, treef_unique as fs ns hwt.2 hd.2 hs.2⟩
end
end

end Thrift.SimpleJson
