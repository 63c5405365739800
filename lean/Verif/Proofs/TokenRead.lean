import Verif.Proofs.Tokens
import Verif.Proofs.Lookup
/-
Readers and `skip`, from laws about single tokens.
-/

namespace Thrift
open Spec

/-- A notion of "the method `m`, started in protocol state `s`, consumes the bytes `b` and returns
`a` in state `s'`" that is closed under sequencing. -/
structure DecRel (σ : Type) [HasDepth σ] where
  holds : {α : Type} → P σ α → σ → Bytes → α → σ → Prop
  pure : ∀ {α : Type} (a : α) (s : σ), holds (Pure.pure a) s [] a s
  bind : ∀ {α β : Type} {m : P σ α} {k : α → P σ β} {s s1 s2 : σ} {b1 b2 : Bytes} {a : α} {c : β},
    holds m s b1 a s1 → holds (k a) s1 b2 c s2 → holds (m >>= k) s (b1 ++ b2) c s2
  incDepth : ∀ (s : σ), HasDepth.depth s < 64 →
    holds incDepth s [] () (HasDepth.setDepth (HasDepth.depth s + 1) s)
  tryDec : ∀ {α : Type} {m : P σ α} {s s' : σ} {b : Bytes} {a : α},
    holds m s b a s' → holds (P.tryFinally m decDepth) s b a (decDepth s')

section
variable {σ : Type} [HasDepth σ]

/-- `m` consumes the bytes of the tokens `ts` and returns `a`. -/
def ReadsTo (D : DecRel σ) (L : Lang) (R : σ → L.Q → Prop) {α : Type} (m : P σ α) (s : σ) (q : L.Q)
    (ts : List Tok) (a : α) : Prop :=
  ∃ s', D.holds m s (L.enc q ts) a s' ∧ R s' (L.steps q ts) ∧ HasDepth.depth s' = HasDepth.depth s

/-- The reading methods implement the language. `text b`: the bytes `b` can be read with
`readString`. -/
structure ReaderLaws (D : DecRel σ) (L : Lang) (rd : RdOps σ) (R : σ → L.Q → Prop)
    (text : Bytes → Prop) : Prop where
  depth : ∀ s q d, R s q → R (HasDepth.setDepth d s) q
  structBegin : ∀ s q, R s q → L.ok q .structBegin →
    ReadsTo D L R rd.readStructBegin s q [.structBegin] ()
  structEnd : ∀ s q, R s q → L.ok q .structEnd → ReadsTo D L R rd.readStructEnd s q [.structEnd] ()
  fieldBegin : ∀ s q tt fid, R s q → L.ok q (.fieldBegin tt fid) →
    ReadsTo D L R rd.readFieldBegin s q [.fieldBegin tt fid] (tt, fid)
  boolField : ∀ s q fid b, R s q → L.ok q (.boolField fid b) →
    ∃ b1 b2 s1 s2, L.bytes q (.boolField fid b) = b1 ++ b2 ∧
      D.holds rd.readFieldBegin s b1 (TType.BOOL, fid) s1 ∧ D.holds rd.readBool s1 b2 b s2 ∧
      R s2 (L.step q (.boolField fid b)) ∧ HasDepth.depth s2 = HasDepth.depth s
  fieldEnd : ∀ s q, R s q → L.ok q .fieldEnd → ReadsTo D L R rd.readFieldEnd s q [.fieldEnd] ()
  fieldStop : ∀ s q, R s q → L.ok q .fieldStop →
    ∃ x, ReadsTo D L R rd.readFieldBegin s q [.fieldStop] (TType.STOP, x)
  mapBegin : ∀ s q k v n, R s q → L.ok q (.mapBegin k v n) →
    ∃ k' v', ReadsTo D L R rd.readMapBegin s q [.mapBegin k v n] (k', v', (n : Int)) ∧
      (0 < n → k' = k ∧ v' = v)
  mapEnd : ∀ s q, R s q → L.ok q .mapEnd → ReadsTo D L R rd.readMapEnd s q [.mapEnd] ()
  listBegin : ∀ s q e n, R s q → L.ok q (.listBegin e n) →
    ReadsTo D L R rd.readListBegin s q [.listBegin e n] (e, (n : Int))
  listEnd : ∀ s q, R s q → L.ok q .listEnd → ReadsTo D L R rd.readListEnd s q [.listEnd] ()
  setBegin : ∀ s q e n, R s q → L.ok q (.setBegin e n) →
    ReadsTo D L R rd.readSetBegin s q [.setBegin e n] (e, (n : Int))
  setEnd : ∀ s q, R s q → L.ok q .setEnd → ReadsTo D L R rd.readSetEnd s q [.setEnd] ()
  bool : ∀ s q b, R s q → L.ok q (.bool b) → ReadsTo D L R rd.readBool s q [.bool b] b
  byte : ∀ s q i, R s q → L.ok q (.byte i) → ReadsTo D L R rd.readByte s q [.byte i] i
  i16 : ∀ s q i, R s q → L.ok q (.i16 i) → ReadsTo D L R rd.readI16 s q [.i16 i] i
  i32 : ∀ s q i, R s q → L.ok q (.i32 i) → ReadsTo D L R rd.readI32 s q [.i32 i] i
  i64 : ∀ s q i, R s q → L.ok q (.i64 i) → ReadsTo D L R rd.readI64 s q [.i64 i] i
  double : ∀ s q x, R s q → L.ok q (.double x) → ReadsTo D L R rd.readDouble s q [.double x] x
  str : ∀ s q x, R s q → L.ok q (.str x) → ReadsTo D L R rd.readString s q [.str x] x
  bin : ∀ s q x, R s q → L.ok q (.bin x) → ReadsTo D L R rd.readBinary s q [.bin x] x
  binText : ∀ s q x, R s q → L.ok q (.bin x) → text x →
    ∃ y, ReadsTo D L R rd.readString s q [.bin x] y
  uuid : ∀ s q x, R s q → L.ok q (.uuid x) → ReadsTo D L R rd.readUuid s q [.uuid x] x

variable {D : DecRel σ} {L : Lang} {rd : RdOps σ} {R : σ → L.Q → Prop} {text : Bytes → Prop}

theorem ReadsTo.ret {α : Type} {s : σ} {q : L.Q} (a : α) (h : R s q) :
    ReadsTo D L R (Pure.pure a) s q [] a :=
  ⟨s, D.pure a s, h, rfl⟩

theorem ReadsTo.seq {α β : Type} {m : P σ α} {k : α → P σ β} {s : σ} {q : L.Q} {xs ys : List Tok}
    {a : α} {c : β} (hm : ReadsTo D L R m s q xs a)
    (hk : ∀ s', R s' (L.steps q xs) → HasDepth.depth s' = HasDepth.depth s →
      ReadsTo D L R (k a) s' (L.steps q xs) ys c) :
    ReadsTo D L R (m >>= k) s q (xs ++ ys) c := by
  obtain ⟨s1, e1, r1, d1⟩ := hm
  obtain ⟨s2, e2, r2, d2⟩ := hk s1 r1 d1
  refine ⟨s2, ?_, by simpa using r2, by omega⟩
  rw [Lang.enc_append]
  exact D.bind e1 e2

/-- Follow a reading method by a pure continuation. -/
theorem ReadsTo.map {α β : Type} {m : P σ α} {k : α → P σ β} {s : σ} {q : L.Q} {xs : List Tok}
    {a : α} {c : β} (hm : ReadsTo D L R m s q xs a) (hk : k a = Pure.pure c) :
    ReadsTo D L R (m >>= k) s q xs c := by
  rw [← List.append_nil xs]
  exact ReadsTo.seq hm fun s' r d => by rw [hk]; exact ReadsTo.ret c r

theorem incDepth_holds {s : σ} (h : HasDepth.depth s < 64) :
    D.holds (incDepth : P σ Unit) s [] () (HasDepth.setDepth (HasDepth.depth s + 1) s) :=
  D.incDepth s h

theorem ReadsTo.bracket (H : ReaderLaws D L rd R text) {α : Type} {m : P σ α} {s : σ} {q : L.Q}
    {ts : List Tok} {a : α} (hd : HasDepth.depth s < 64) (hR : R s q)
    (hm : ∀ s', R s' q → HasDepth.depth s' = HasDepth.depth s + 1 → ReadsTo D L R m s' q ts a) :
    ReadsTo D L R (do incDepth; P.tryFinally m decDepth) s q ts a := by
  obtain ⟨s1, e1, r1, d1⟩ := hm (HasDepth.setDepth (HasDepth.depth s + 1) s) (H.depth _ _ _ hR)
    (HasDepth.depth_set _ _)
  refine ⟨decDepth s1, ?_, H.depth _ _ _ r1, ?_⟩
  · have := D.bind (k := fun _ => P.tryFinally m decDepth) (incDepth_holds hd) (D.tryDec e1)
    simpa using this
  · unfold decDepth
    rw [HasDepth.depth_set] at d1 ⊢
    omega

/-! ### skip -/

/-- Loop step. -/
theorem ReadsTo.loop {α β : Type} {body : α → P σ (α ⊕ β)} {a a' : α} {r : β} {f : Nat} {s : σ}
    {q : L.Q} {xs ys : List Tok} (hb : ReadsTo D L R (body a) s q xs (.inl a'))
    (hk : ∀ s', R s' (L.steps q xs) → HasDepth.depth s' = HasDepth.depth s →
      ReadsTo D L R (P.whileTrue f body a') s' (L.steps q xs) ys r) :
    ReadsTo D L R (P.whileTrue (f + 1) body a) s q (xs ++ ys) r :=
  ReadsTo.seq (m := body a) (k := fun r => match r with
    | .inl a' => P.whileTrue f body a'
    | .inr b => P.pure b) hb hk

theorem ReadsTo.loopEnd {α β : Type} {body : α → P σ (α ⊕ β)} {a : α} {r : β} {f : Nat} {s : σ}
    {q : L.Q} {xs : List Tok} (hb : ReadsTo D L R (body a) s q xs (.inr r)) :
    ReadsTo D L R (P.whileTrue (f + 1) body a) s q xs r :=
  ReadsTo.map (m := body a) (k := fun r => match r with
    | .inl a' => P.whileTrue f body a'
    | .inr b => P.pure b) hb rfl

variable (sch : Schema)

theorem toksField_ne_bool {fid : Int} {ts : List Tok} {t : Ty} {v : Val} (h : t ≠ .bool) :
    toksField fid ts t v = .fieldBegin t.ttype fid :: ts := by
  unfold toksField
  split
  · exact absurd rfl h
  · rfl

theorem ttype_ne_stop (t : Ty) : t.ttype ≠ TType.STOP := by
  cases t <;> simp [Ty.ttype, TType.BOOL, TType.BYTE, TType.I16, TType.I32, TType.I64, TType.DOUBLE,
    TType.STRING, TType.UUID, TType.LIST, TType.SET, TType.MAP, TType.STRUCT, TType.STOP]

/-- A field header followed by something that consumes the value. -/
theorem ReadsTo.field (H : ReaderLaws D L rd R text) {α : Type} {k : Int × Int → P σ α} {fid : Int}
    {t : Ty} {v : Val} {s : σ} {q : L.Q} {ys : List Tok} {c : α} (hwt : WT sch t v)
    (hok : L.Ok q (toksField fid (toks sch t v) t v)) (hR : R s q)
    (hb : ∀ b s1 s2 b2 q', t = .bool → v = .bool b →
      D.holds rd.readBool s1 b2 b s2 → R s2 q' → HasDepth.depth s2 = HasDepth.depth s →
      q' = L.steps q (toksField fid (toks sch t v) t v) →
      ∃ s3, D.holds (k (TType.BOOL, fid)) s1 (b2 ++ L.enc q' ys) c s3 ∧ R s3 (L.steps q' ys) ∧
        HasDepth.depth s3 = HasDepth.depth s)
    (hv : ∀ s1 q', t ≠ .bool → R s1 q' → HasDepth.depth s1 = HasDepth.depth s →
      L.Ok q' (toks sch t v) →
      L.steps q' (toks sch t v) = L.steps q (toksField fid (toks sch t v) t v) →
      ReadsTo D L R (k (t.ttype, fid)) s1 q' (toks sch t v ++ ys) c) :
    ReadsTo D L R (rd.readFieldBegin >>= k) s q
      (toksField fid (toks sch t v) t v ++ ys) c := by
  by_cases ht : t = .bool
  · subst ht
    cases v <;> simp only [WT] at hwt
    rename_i b
    simp only [toksField, Lang.Ok_cons] at hok
    obtain ⟨b1, b2, s1, s2, eb, h1, h2, r2, d2⟩ := H.boolField s q fid b hR hok.1
    obtain ⟨s3, h3, r3, d3⟩ := hb b s1 s2 b2 _ rfl rfl h2 r2 d2 rfl
    refine ⟨s3, ?_, by simpa [toksField] using r3, d3⟩
    simp only [toksField, List.cons_append, List.nil_append, Lang.enc_cons, eb, List.append_assoc]
    exact D.bind h1 h3
  · rw [toksField_ne_bool ht] at hok ⊢
    simp only [Lang.Ok_cons] at hok
    refine ReadsTo.seq (xs := [_]) (H.fieldBegin s q _ _ hR hok.1) fun s1 r1 d1 => ?_
    refine hv s1 _ ht r1 d1 hok.2 ?_
    rw [toksField_ne_bool ht]
    simp

omit [HasDepth σ] in
/-- The calls of `skip` on a field body, possibly a bool folded in the header. -/
theorem skipBool (fuel d : Nat) (ops : RdOps σ) :
    skip ops fuel (d + 1) TType.BOOL = (ops.readBool >>= fun _ => pure ()) := by
  rw [skip]; simp

theorem size_le_sizes {v : Val} {vs : List Val} (h : v ∈ vs) : size v < sizes vs := by
  induction vs with
  | nil => cases h
  | cons w ws ih =>
    simp only [sizes]
    cases h with
    | head => omega
    | tail _ h => have := ih h; omega

mutual
theorem skip_ok (H : ReaderLaws D L rd R text) : (v : Val) → (t : Ty) → (fuel d : Nat) → (s : σ) →
    (q : L.Q) → WT sch t v → L.Ok q (toks sch t v) → R s q → nesting v ≤ d → size v ≤ fuel →
    BinariesAreText text v →
    ReadsTo D L R (skip rd fuel d t.ttype) s q (toks sch t v) () := by
  intro v t fuel d s q hwt hok hR hd hf ht
  cases d with
  | zero => cases v <;> simp only [nesting] at hd <;> omega
  | succ d =>
  cases v with
  | bool b =>
    cases t <;> simp only [WT] at hwt <;> simp only [toks, Lang.Ok_cons] at hok ⊢ <;>
      rw [skip] <;> simp only [Ty.ttype, TType.BOOL, if_true]
    exact ReadsTo.map (H.bool s q b hR hok.1) rfl
  | int i =>
    cases t <;> simp only [WT] at hwt <;> simp only [toks, Lang.Ok_cons] at hok ⊢ <;>
      rw [skip] <;> simp only [Ty.ttype, TType.BOOL, TType.BYTE, TType.I16, TType.I32, TType.I64,
        if_true, Int.reduceEq, if_false]
    · exact ReadsTo.map (H.byte s q i hR hok.1) rfl
    · exact ReadsTo.map (H.i16 s q i hR hok.1) rfl
    · exact ReadsTo.map (H.i32 s q i hR hok.1) rfl
    · exact ReadsTo.map (H.i64 s q i hR hok.1) rfl
  | double x =>
    cases t <;> simp only [WT] at hwt <;> simp only [toks, Lang.Ok_cons] at hok ⊢ <;>
      rw [skip] <;> simp only [Ty.ttype, TType.BOOL, TType.BYTE, TType.I16, TType.I32, TType.I64,
        TType.DOUBLE, if_true, Int.reduceEq, if_false]
    exact ReadsTo.map (H.double s q x hR hok.1) rfl
  | str x =>
    cases t <;> simp only [WT] at hwt <;> simp only [toks, Lang.Ok_cons] at hok ⊢ <;>
      rw [skip] <;> simp only [Ty.ttype, TType.BOOL, TType.BYTE, TType.I16, TType.I32, TType.I64,
        TType.DOUBLE, TType.STRING, if_true, Int.reduceEq, if_false]
    exact ReadsTo.map (H.str s q x hR hok.1) rfl
  | bin x =>
    cases t <;> simp only [WT] at hwt <;> simp only [toks, Lang.Ok_cons] at hok ⊢ <;>
      rw [skip] <;> simp only [Ty.ttype, TType.BOOL, TType.BYTE, TType.I16, TType.I32, TType.I64,
        TType.DOUBLE, TType.STRING, if_true, Int.reduceEq, if_false]
    simp only [BinariesAreText] at ht
    obtain ⟨y, hy⟩ := H.binText s q x hR hok.1 ht
    exact ReadsTo.map hy rfl
  | uuid x =>
    cases t <;> simp only [WT] at hwt <;> simp only [toks, Lang.Ok_cons] at hok ⊢ <;>
      rw [skip] <;> simp only [Ty.ttype, TType.BOOL, TType.BYTE, TType.I16, TType.I32, TType.I64,
        TType.DOUBLE, TType.STRING, TType.STRUCT, TType.MAP, TType.SET, TType.LIST, TType.UUID,
        if_true, Int.reduceEq, if_false]
    exact ReadsTo.map (H.uuid s q x hR hok.1) rfl
  | list vs =>
    cases t <;> simp only [WT] at hwt
    case list e =>
    simp only [toks, Lang.Ok_cons, Lang.Ok_append] at hok ⊢
    rw [skip]
    simp only [Ty.ttype, TType.BOOL, TType.BYTE, TType.I16, TType.I32, TType.I64,
        TType.DOUBLE, TType.STRING, TType.STRUCT, TType.MAP, TType.SET, TType.LIST, TType.UUID,
        if_true, Int.reduceEq, if_false]
    simp only [nesting] at hd
    simp only [size] at hf
    simp only [BinariesAreText] at ht
    refine ReadsTo.seq (xs := [_]) (H.listBegin s q _ _ hR hok.1) fun s1 r1 d1 => ?_
    simp only [Int.toNat_natCast]
    refine ReadsTo.seq (skipElems_ok H vs e fuel d s1 _ hwt.2 hok.2.1 r1 (by omega) (by omega) ht)
      fun s2 r2 d2 => ?_
    exact H.listEnd s2 _ r2 hok.2.2.1
  | set vs =>
    cases t <;> simp only [WT] at hwt
    case set e =>
    simp only [toks, Lang.Ok_cons, Lang.Ok_append] at hok ⊢
    rw [skip]
    simp only [Ty.ttype, TType.BOOL, TType.BYTE, TType.I16, TType.I32, TType.I64,
        TType.DOUBLE, TType.STRING, TType.STRUCT, TType.MAP, TType.SET, TType.LIST, TType.UUID,
        if_true, Int.reduceEq, if_false]
    simp only [nesting] at hd
    simp only [size] at hf
    simp only [BinariesAreText] at ht
    refine ReadsTo.seq (xs := [_]) (H.setBegin s q _ _ hR hok.1) fun s1 r1 d1 => ?_
    simp only [Int.toNat_natCast]
    refine ReadsTo.seq (skipElems_ok H vs e fuel d s1 _ hwt.2.2 hok.2.1 r1 (by omega) (by omega) ht)
      fun s2 r2 d2 => ?_
    exact H.setEnd s2 _ r2 hok.2.2.1
  | map kvs =>
    cases t <;> simp only [WT] at hwt
    case map k v =>
    simp only [toks, Lang.Ok_cons, Lang.Ok_append] at hok ⊢
    rw [skip]
    simp only [Ty.ttype, TType.BOOL, TType.BYTE, TType.I16, TType.I32, TType.I64,
        TType.DOUBLE, TType.STRING, TType.STRUCT, TType.MAP, TType.SET, TType.LIST, TType.UUID,
        if_true, Int.reduceEq, if_false]
    simp only [nesting] at hd
    simp only [size] at hf
    simp only [BinariesAreText] at ht
    obtain ⟨k', v', hb, hkv⟩ := H.mapBegin s q _ _ _ hR hok.1
    refine ReadsTo.seq (xs := [_]) hb fun s1 r1 d1 => ?_
    simp only [Int.toNat_natCast]
    have hkv : kvs ≠ [] → k' = k.ttype ∧ v' = v.ttype := fun h =>
      hkv (List.length_pos_iff.mpr h)
    refine ReadsTo.seq (skipPairs_ok H kvs k v k' v' fuel d s1 _ hwt.2.2 hok.2.1 r1 (by omega)
      (by omega) ht hkv) fun s2 r2 d2 => ?_
    exact H.mapEnd s2 _ r2 hok.2.2.1
  | struct as =>
    cases t <;> simp only [WT] at hwt
    case struct sid =>
    simp only [toks, Lang.Ok_cons, Lang.Ok_append] at hok ⊢
    rw [skip]
    simp only [Ty.ttype, TType.BOOL, TType.BYTE, TType.I16, TType.I32, TType.I64,
        TType.DOUBLE, TType.STRING, TType.STRUCT, TType.MAP, TType.SET, TType.LIST, TType.UUID,
        if_true, Int.reduceEq, if_false]
    simp only [nesting] at hd
    simp only [size] at hf
    simp only [BinariesAreText] at ht
    rw [show toksF sch (sch sid) as ++ [Tok.fieldStop, Tok.structEnd]
      = (toksF sch (sch sid) as ++ [Tok.fieldStop]) ++ [Tok.structEnd] by simp]
    refine ReadsTo.seq (xs := [_]) (H.structBegin s q hR hok.1) fun s1 r1 d1 => ?_
    refine ReadsTo.seq (skipFields_ok H as (sch sid) fuel fuel d s1 _ hwt ?_ r1 (by omega) (by omega)
      (by omega) ht) fun s2 r2 d2 => ?_
    · simp only [Lang.Ok_append, Lang.Ok_cons, Lang.Ok_nil, and_true]
      exact ⟨hok.2.1, hok.2.2.1⟩
    · simp only [Lang.steps_append, Lang.steps_cons, Lang.steps_nil] at r2
      have := H.structEnd s2 _ r2 hok.2.2.2.1
      simpa using this
theorem skipElems_ok (H : ReaderLaws D L rd R text) : (vs : List Val) → (e : Ty) → (fuel d : Nat) →
    (s : σ) → (q : L.Q) → WTs sch e vs → L.Ok q (toksE sch e vs) → R s q → nestings vs ≤ d →
    sizes vs ≤ fuel → BinariesAreTexts text vs →
    ReadsTo D L R (P.repeatN_ vs.length (skip rd fuel d e.ttype)) s q (toksE sch e vs) () := by
  intro vs e fuel d s q hwt hok hR hd hf ht
  cases vs with
  | nil => simp only [toksE]; exact ReadsTo.ret () hR
  | cons v vs =>
    simp only [WTs] at hwt
    simp only [toksE, Lang.Ok_append] at hok ⊢
    simp only [nestings] at hd
    simp only [sizes] at hf
    simp only [BinariesAreTexts] at ht
    refine ReadsTo.seq (skip_ok H v e fuel d s q hwt.1 hok.1 hR (by omega) (by omega) ht.1)
      fun s1 r1 d1 => ?_
    exact skipElems_ok H vs e fuel d s1 _ hwt.2 hok.2 r1 (by omega) (by omega) ht.2
theorem skipPairs_ok (H : ReaderLaws D L rd R text) : (kvs : List (Val × Val)) → (k v : Ty) →
    (k' v' : Int) → (fuel d : Nat) → (s : σ) → (q : L.Q) → WTp sch k v kvs →
    L.Ok q (toksP sch k v kvs) → R s q → nestingp kvs ≤ d → sizep kvs ≤ fuel →
    BinariesAreTextp text kvs → (kvs ≠ [] → k' = k.ttype ∧ v' = v.ttype) →
    ReadsTo D L R (P.repeatN_ kvs.length (do skip rd fuel d k'; skip rd fuel d v')) s q
      (toksP sch k v kvs) () := by
  intro kvs k v k' v' fuel d s q hwt hok hR hd hf ht hkv
  match kvs with
  | [] => simp only [toksP]; exact ReadsTo.ret () hR
  | (a, b) :: kvs =>
    obtain ⟨rfl, rfl⟩ := hkv (by simp)
    simp only [WTp] at hwt
    simp only [toksP, Lang.Ok_append] at hok ⊢
    simp only [nestingp] at hd
    simp only [sizep] at hf
    simp only [BinariesAreTextp] at ht
    rw [← List.append_assoc]
    refine ReadsTo.seq (m := do skip rd fuel d k.ttype; skip rd fuel d v.ttype) (a := ()) ?_
      fun s1 r1 d1 => ?_
    · refine ReadsTo.seq (skip_ok H a k fuel d s q hwt.1 hok.1 hR (by omega) (by omega) ht.1)
        fun s1 r1 d1 => ?_
      exact skip_ok H b v fuel d s1 _ hwt.2.1 hok.2.1 r1 (by omega) (by omega) ht.2.1
    · simp only [Lang.steps_append] at r1 ⊢
      exact skipPairs_ok H kvs k v _ _ fuel d s1 _ hwt.2.2 hok.2.2 r1 (by omega) (by omega) ht.2.2
        (fun _ => ⟨rfl, rfl⟩)
theorem skipFields_ok (H : ReaderLaws D L rd R text) : (as : List (Option Val)) → (fs : List Field) →
    (loop fuel d : Nat) → (s : σ) → (q : L.Q) → WTf sch fs as →
    L.Ok q (toksF sch fs as ++ [.fieldStop]) → R s q → nestingf as ≤ d →
    sizef as + 1 ≤ loop → sizef as ≤ fuel → BinariesAreTextf text as →
    ReadsTo D L R (P.whileTrue loop (skipStructBody rd (skip rd fuel d)) ()) s q
      (toksF sch fs as ++ [.fieldStop]) () := by
  intro as fs loop fuel d s q hwt hok hR hd hl hf ht
  cases loop with
  | zero => omega
  | succ loop =>
  match as with
  | [] =>
    cases fs with
    | cons f fs => simp only [WTf] at hwt
    | nil =>
      simp only [toksF, List.nil_append, Lang.Ok_cons] at hok ⊢
      obtain ⟨x, hx⟩ := H.fieldStop s q hR hok.1
      exact ReadsTo.loopEnd (ReadsTo.map (m := rd.readFieldBegin) hx rfl)
  | none :: as =>
    cases fs with
    | nil => simp only [WTf] at hwt
    | cons f fs =>
      simp only [WTf] at hwt
      simp only [toksF] at hok ⊢
      simp only [nestingf] at hd
      simp only [sizef] at hl hf
      simp only [BinariesAreTextf] at ht
      exact skipFields_ok H as fs (loop + 1) fuel d s q hwt.2 hok hR hd (by omega) (by omega) ht
  | some v :: as =>
    cases fs with
    | nil => simp only [WTf] at hwt
    | cons f fs =>
      simp only [WTf] at hwt
      simp only [toksF, List.append_assoc, List.cons_append, Lang.Ok_append, Lang.Ok_cons] at hok ⊢
      simp only [nestingf] at hd
      simp only [sizef] at hl hf
      simp only [BinariesAreTextf] at ht
      rw [show toksField f.fid (toks sch f.ty v) f.ty v ++
          Tok.fieldEnd :: (toksF sch fs as ++ [Tok.fieldStop])
        = (toksField f.fid (toks sch f.ty v) f.ty v ++ [Tok.fieldEnd]) ++
          (toksF sch fs as ++ [Tok.fieldStop]) by simp]
      refine ReadsTo.loop (a' := ()) (xs := toksField f.fid (toks sch f.ty v) f.ty v ++ [Tok.fieldEnd])
        ?_ fun s1 r1 d1 => ?_
      · refine ReadsTo.field sch H (k := fun x => _) hwt.1 hok.1 hR ?_ ?_
        · rintro b s1 s2 b2 q' htb rfl hb r2 d2 rfl
          obtain ⟨s3, h3, r3, d3⟩ := H.fieldEnd s2 _ r2 hok.2.1
          refine ⟨s3, ?_, r3, by omega⟩
          simp only
          rw [if_neg (by decide)]
          cases d with
          | zero => simp only [nesting] at hd; omega
          | succ d =>
          rw [skipBool]
          have h1 := D.bind (k := fun _ => Pure.pure ()) hb (D.pure () s2)
          have h2 := D.bind (c := (Sum.inl () : Unit ⊕ Unit))
            (k := fun _ => rd.readFieldEnd >>= fun _ => pure (Sum.inl ())) h1
            (D.bind h3 (D.pure (Sum.inl ()) s3))
          simpa using h2
        · intro s1 q' hnb r1 d1 ho e
          simp only
          rw [if_neg (ttype_ne_stop _)]
          refine ReadsTo.seq (skip_ok H v f.ty fuel d s1 q' hwt.1 ho r1 (by omega) (by omega) ht.1)
            fun s2 r2 d2 => ?_
          exact ReadsTo.map (H.fieldEnd s2 _ r2 (by rw [e]; exact hok.2.1)) rfl
      · simp only [Lang.steps_append, Lang.steps_cons, Lang.steps_nil] at r1 ⊢
        exact skipFields_ok H as fs loop fuel d s1 _ hwt.2
          (by simp only [Lang.Ok_append, Lang.Ok_cons]; exact hok.2.2) r1 (by omega) (by omega)
          (by omega) ht.2
end

end
end Thrift
