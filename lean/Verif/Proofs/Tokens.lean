import Verif.Proofs.Exec
import Verif.Spec.WellTyped
/-
A protocol as a language of tokens. A value is a sequence of calls of protocol methods (tokens);
a protocol assigns bytes to tokens. The correctness of writers, readers and `skip` is proved here
once, from laws about single tokens, and instantiated for each protocol.
-/

namespace Thrift
open Spec

/-- One call of a protocol method. `boolField` is `writeFieldBegin` of a bool field together with
`writeBool` (the compact protocol encodes them as one). -/
inductive Tok where
  | structBegin | structEnd | fieldBegin (tt fid : Int) | boolField (fid : Int) (b : Bool)
  | fieldEnd | fieldStop
  | mapBegin (k v : Int) (n : Nat) | mapEnd | listBegin (e : Int) (n : Nat) | listEnd
  | setBegin (e : Int) (n : Nat) | setEnd
  | bool (b : Bool) | byte (i : Int) | i16 (i : Int) | i32 (i : Int) | i64 (i : Int)
  | double (x : UInt64) | str (s : PyStr) | bin (b : Bytes) | uuid (u : Bytes)

/-- A field without its `writeFieldEnd`; `ts` are the tokens of the value. -/
def toksField (fid : Int) (ts : List Tok) : Ty → Val → List Tok
  | .bool, .bool b => [.boolField fid b]
  | t, _ => .fieldBegin t.ttype fid :: ts

mutual
/-- The calls that write a value. -/
def toks (sch : Schema) : Ty → Val → List Tok
  | .bool, .bool b => [.bool b]
  | .byte, .int i => [.byte i]
  | .i16, .int i => [.i16 i]
  | .i32, .int i => [.i32 i]
  | .i64, .int i => [.i64 i]
  | .double, .double x => [.double x]
  | .string, .str s => [.str s]
  | .binary, .bin b => [.bin b]
  | .uuid, .uuid u => [.uuid u]
  | .list e, .list vs => .listBegin e.ttype vs.length :: (toksE sch e vs ++ [.listEnd])
  | .set e, .set vs => .setBegin e.ttype vs.length :: (toksE sch e vs ++ [.setEnd])
  | .map k v, .map kvs =>
    .mapBegin k.ttype v.ttype kvs.length :: (toksP sch k v kvs ++ [.mapEnd])
  | .struct sid, .struct as =>
    .structBegin :: (toksF sch (sch sid) as ++ [.fieldStop, .structEnd])
  | _, _ => []
def toksE (sch : Schema) : Ty → List Val → List Tok
  | _, [] => []
  | e, v :: vs => toks sch e v ++ toksE sch e vs
def toksP (sch : Schema) : Ty → Ty → List (Val × Val) → List Tok
  | _, _, [] => []
  | k, v, (a, b) :: kvs => toks sch k a ++ (toks sch v b ++ toksP sch k v kvs)
def toksF (sch : Schema) : List Field → List (Option Val) → List Tok
  | f :: fs, some v :: as => toksField f.fid (toks sch f.ty v) f.ty v ++ (.fieldEnd :: toksF sch fs as)
  | _ :: fs, none :: as => toksF sch fs as
  | _, _ => []
end

/-- The bytes of tokens. `Q` is what the meaning of a token may depend on. -/
structure Lang where
  Q : Type
  ok : Q → Tok → Prop
  step : Q → Tok → Q
  bytes : Q → Tok → Bytes

namespace Lang
variable (L : Lang)

/-- Every token is admissible where it stands. -/
def Ok : L.Q → List Tok → Prop
  | _, [] => True
  | q, T :: ts => L.ok q T ∧ Ok (L.step q T) ts

/-- The state after a sequence of tokens. -/
def steps : L.Q → List Tok → L.Q
  | q, [] => q
  | q, T :: ts => steps (L.step q T) ts

/-- The bytes of a sequence of tokens. -/
def enc : L.Q → List Tok → Bytes
  | _, [] => []
  | q, T :: ts => L.bytes q T ++ enc (L.step q T) ts

@[simp] theorem steps_nil (q : L.Q) : L.steps q [] = q := rfl
@[simp] theorem enc_nil (q : L.Q) : L.enc q [] = [] := rfl
@[simp] theorem Ok_nil (q : L.Q) : L.Ok q [] := trivial
@[simp] theorem steps_cons (q : L.Q) (T : Tok) (ts : List Tok) :
    L.steps q (T :: ts) = L.steps (L.step q T) ts := rfl
@[simp] theorem enc_cons (q : L.Q) (T : Tok) (ts : List Tok) :
    L.enc q (T :: ts) = L.bytes q T ++ L.enc (L.step q T) ts := rfl
@[simp] theorem Ok_cons (q : L.Q) (T : Tok) (ts : List Tok) :
    L.Ok q (T :: ts) ↔ L.ok q T ∧ L.Ok (L.step q T) ts := Iff.rfl

@[simp] theorem steps_append (q : L.Q) (xs ys : List Tok) :
    L.steps q (xs ++ ys) = L.steps (L.steps q xs) ys := by
  induction xs generalizing q with
  | nil => rfl
  | cons T ts ih => exact ih _

@[simp] theorem enc_append (q : L.Q) (xs ys : List Tok) :
    L.enc q (xs ++ ys) = L.enc q xs ++ L.enc (L.steps q xs) ys := by
  induction xs generalizing q with
  | nil => rfl
  | cons T ts ih => simp [ih]

@[simp] theorem Ok_append (q : L.Q) (xs ys : List Tok) :
    L.Ok q (xs ++ ys) ↔ L.Ok q xs ∧ L.Ok (L.steps q xs) ys := by
  induction xs generalizing q with
  | nil => simp
  | cons T ts ih => simp [ih, and_assoc]

end Lang

/-! ## Writers -/

section Writer
variable {σ : Type} [HasDepth σ]

/-- The method call a token stands for. -/
def wrTok (wr : WrOps σ) : Tok → W σ Unit
  | .structBegin => wr.writeStructBegin
  | .structEnd => wr.writeStructEnd
  | .fieldBegin tt fid => wr.writeFieldBegin tt fid
  | .boolField fid b => do wr.writeFieldBegin TType.BOOL fid; wr.writeBool b
  | .fieldEnd => wr.writeFieldEnd
  | .fieldStop => wr.writeFieldStop
  | .mapBegin k v n => wr.writeMapBegin k v n
  | .mapEnd => wr.writeMapEnd
  | .listBegin e n => wr.writeListBegin e n
  | .listEnd => wr.writeListEnd
  | .setBegin e n => wr.writeSetBegin e n
  | .setEnd => wr.writeSetEnd
  | .bool b => wr.writeBool b
  | .byte i => wr.writeByte i
  | .i16 i => wr.writeI16 i
  | .i32 i => wr.writeI32 i
  | .i64 i => wr.writeI64 i
  | .double x => wr.writeDouble x
  | .str s => wr.writeString s
  | .bin b => wr.writeBinary b
  | .uuid u => wr.writeUuid u

/-- The writing methods implement the language. `R s q`: the protocol object `s` is in the state
that `q` describes. -/
structure WriterLaws (L : Lang) (wr : WrOps σ) (R : σ → L.Q → Prop) : Prop where
  depth : ∀ s q d, R s q → R (HasDepth.setDepth d s) q
  tok : ∀ (T : Tok) (s : σ) (q : L.Q) (out : Bytes), L.ok q T → R s q →
    ∃ s', wrTok wr T s out = (.ok (), s', out ++ L.bytes q T) ∧ R s' (L.step q T) ∧
      HasDepth.depth s' = HasDepth.depth s

/-- `m` writes the tokens `ts`. -/
def Writes (L : Lang) (R : σ → L.Q → Prop) (m : W σ Unit) (s : σ) (q : L.Q) (ts : List Tok) : Prop :=
  ∀ out, ∃ s', m s out = (.ok (), s', out ++ L.enc q ts) ∧ R s' (L.steps q ts) ∧
    HasDepth.depth s' = HasDepth.depth s

variable {L : Lang} {wr : WrOps σ} {R : σ → L.Q → Prop}

theorem Writes.nil {s : σ} {q : L.Q} (h : R s q) : Writes L R (pure ()) s q [] :=
  fun out => ⟨s, by simp, h, rfl⟩

theorem Writes.seq {m k : W σ Unit} {s : σ} {q : L.Q} {xs ys : List Tok}
    (hm : Writes L R m s q xs)
    (hk : ∀ s', R s' (L.steps q xs) → HasDepth.depth s' = HasDepth.depth s →
      Writes L R k s' (L.steps q xs) ys) :
    Writes L R (m >>= fun _ => k) s q (xs ++ ys) := by
  intro out
  obtain ⟨s1, e1, r1, d1⟩ := hm out
  obtain ⟨s2, e2, r2, d2⟩ := hk s1 r1 d1 (out ++ L.enc q xs)
  refine ⟨s2, ?_, ?_, by omega⟩
  · simp [W.bind_eq, e1, e2]
  · simpa using r2

theorem Writes.tok (H : WriterLaws L wr R) {T : Tok} {s : σ} {q : L.Q}
    (ho : L.ok q T) (h : R s q) : Writes L R (wrTok wr T) s q [T] := by
  intro out
  obtain ⟨s', e, r, d⟩ := H.tok T s q out ho h
  exact ⟨s', by simp [e], by simpa using r, d⟩

theorem requiredSet_of_WTf {sch : Schema} {fs : List Field} {as : List (Option Val)}
    (h : WTf sch fs as) : requiredSet fs as = true := by
  induction fs generalizing as with
  | nil => cases as <;> rfl
  | cons f fs ih =>
    cases as with
    | nil => rfl
    | cons a as =>
      cases a with
      | none => simp only [WTf] at h; simp [requiredSet, h.1, ih h.2]
      | some v => simp only [WTf] at h; simp [requiredSet, ih h.2]

theorem ttype_bool_iff {t : Ty} : t.ttype = TType.BOOL ↔ t = .bool := by
  cases t <;> simp [Ty.ttype, TType.BOOL, TType.BYTE, TType.I16, TType.I32, TType.I64, TType.DOUBLE,
    TType.STRING, TType.UUID, TType.LIST, TType.SET, TType.MAP, TType.STRUCT]

/-- The schema is usable by the writer of this mode. -/
theorem writerSees_of_ok {mode : Mode} {sch : Schema} (h : SchemaOK mode sch) (sid : Nat) :
    writerSees mode (sch sid) = true := by
  have := (h sid).2
  unfold writerSees
  cases mode with
  | gen => rfl
  | dyn =>
    cases hs : sch sid with
    | nil => rfl
    | cons f fs =>
      have := this rfl f (by simp [hs])
      simpa using this

theorem incDepthW_ok {s : σ} (h : HasDepth.depth s < 64) (out : Bytes) :
    (incDepthW : W σ Unit) s out =
      (.ok (), HasDepth.setDepth (HasDepth.depth s + 1) s, out) := by
  unfold incDepthW
  simp only [W.bind_eq, W.modify_eq, W.get_eq, HasDepth.depth_set]
  rw [if_neg (by unfold recursionLimit; omega)]
  rfl

/-- Bracketing by the recursion counter. -/
theorem Writes.bracket (H : WriterLaws L wr R) {m : W σ Unit} {s : σ} {q : L.Q} {ts : List Tok}
    (hd : HasDepth.depth s < 64) (hR : R s q)
    (hm : ∀ s', R s' q → HasDepth.depth s' = HasDepth.depth s + 1 → Writes L R m s' q ts) :
    Writes L R (do incDepthW; W.tryFinally m decDepth) s q ts := by
  intro out
  obtain ⟨s1, e1, r1, d1⟩ := hm (HasDepth.setDepth (HasDepth.depth s + 1) s) (H.depth _ _ _ hR)
    (HasDepth.depth_set _ _) out
  refine ⟨decDepth s1, ?_, H.depth _ _ _ r1, ?_⟩
  · simp only [W.bind_eq, incDepthW_ok hd]
    unfold W.tryFinally
    rw [e1]
  · unfold decDepth
    rw [HasDepth.depth_set] at d1 ⊢
    omega

variable (sch : Schema) (mode : Mode)

mutual
theorem write_ok (H : WriterLaws L wr R) (hs : SchemaOK mode sch) : (v : Val) → (t : Ty) → (s : σ) →
    (q : L.Q) → WT sch t v → L.Ok q (toks sch t v) → R s q →
    (mode = .gen → HasDepth.depth s + structDepth v ≤ 64) →
    Writes L R (writeVal wr sch mode t v) s q (toks sch t v) := by
  intro v t s q hwt hok hR hd
  cases v with
  | bool b =>
    cases t <;> simp only [WT] at hwt <;> simp only [toks, Lang.Ok_cons] at hok ⊢ <;>
      simp only [writeVal] <;> exact Writes.tok H hok.1 hR
  | int i =>
    cases t <;> simp only [WT] at hwt <;> simp only [toks, Lang.Ok_cons] at hok ⊢ <;>
      simp only [writeVal] <;> exact Writes.tok H hok.1 hR
  | double x =>
    cases t <;> simp only [WT] at hwt <;> simp only [toks, Lang.Ok_cons] at hok ⊢ <;>
      simp only [writeVal] <;> exact Writes.tok H hok.1 hR
  | str x =>
    cases t <;> simp only [WT] at hwt <;> simp only [toks, Lang.Ok_cons] at hok ⊢ <;>
      simp only [writeVal] <;> exact Writes.tok H hok.1 hR
  | bin x =>
    cases t <;> simp only [WT] at hwt <;> simp only [toks, Lang.Ok_cons] at hok ⊢ <;>
      simp only [writeVal] <;> exact Writes.tok H hok.1 hR
  | uuid x =>
    cases t <;> simp only [WT] at hwt <;> simp only [toks, Lang.Ok_cons] at hok ⊢ <;>
      simp only [writeVal] <;> exact Writes.tok H hok.1 hR
  | list vs =>
    cases t <;> simp only [WT] at hwt
    case list e =>
    simp only [toks, Lang.Ok_cons, Lang.Ok_append] at hok ⊢
    simp only [writeVal]
    refine Writes.seq (xs := [_]) (Writes.tok H hok.1 hR) fun s1 r1 d1 => ?_
    refine Writes.seq (writeElems_ok H hs vs e s1 _ hwt.2 hok.2.1 r1 ?_) fun s2 r2 d2 => ?_
    · intro hm; have := hd hm; simp only [structDepth] at this; omega
    · exact Writes.tok H (T := .listEnd) hok.2.2.1 r2
  | set vs =>
    cases t <;> simp only [WT] at hwt
    case set e =>
    simp only [toks, Lang.Ok_cons, Lang.Ok_append] at hok ⊢
    simp only [writeVal]
    refine Writes.seq (xs := [_]) (Writes.tok H hok.1 hR) fun s1 r1 d1 => ?_
    refine Writes.seq (writeElems_ok H hs vs e s1 _ hwt.2.2 hok.2.1 r1 ?_) fun s2 r2 d2 => ?_
    · intro hm; have := hd hm; simp only [structDepth] at this; omega
    · exact Writes.tok H (T := .setEnd) hok.2.2.1 r2
  | map kvs =>
    cases t <;> simp only [WT] at hwt
    case map k v =>
    simp only [toks, Lang.Ok_cons, Lang.Ok_append] at hok ⊢
    simp only [writeVal]
    refine Writes.seq (xs := [_]) (Writes.tok H hok.1 hR) fun s1 r1 d1 => ?_
    refine Writes.seq (writePairs_ok H hs kvs k v s1 _ hwt.2.2 hok.2.1 r1 ?_) fun s2 r2 d2 => ?_
    · intro hm; have := hd hm; simp only [structDepth] at this; omega
    · exact Writes.tok H (T := .mapEnd) hok.2.2.1 r2
  | struct as =>
    cases t <;> simp only [WT] at hwt
    case struct sid =>
    simp only [toks, Lang.Ok_cons, Lang.Ok_append] at hok ⊢
    simp only [writeVal]
    have body : ∀ s', R s' q → (mode = .gen → HasDepth.depth s' + structDepthf as ≤ 64) →
        Writes L R (do
          wr.writeStructBegin
          writeFields wr sch mode (sch sid) as
          wr.writeFieldStop
          wr.writeStructEnd) s' q
          (.structBegin :: (toksF sch (sch sid) as ++ [.fieldStop, .structEnd])) := by
      intro s' hR' hd'
      refine Writes.seq (xs := [_]) (Writes.tok H (T := .structBegin) hok.1 hR') fun s1 r1 d1 => ?_
      refine Writes.seq (writeFields_ok H hs as (sch sid) s1 _ hwt hok.2.1 r1 ?_) fun s2 r2 d2 => ?_
      · intro hm; have := hd' hm; omega
      · refine Writes.seq (xs := [_]) (Writes.tok H (T := .fieldStop) hok.2.2.1 r2) fun s3 r3 d3 => ?_
        exact Writes.tok H (T := .structEnd) hok.2.2.2.1 r3
    cases hm : mode with
    | gen =>
      subst hm
      have hd := hd rfl
      simp only [structDepth] at hd
      simp only [requiredSet_of_WTf hwt, if_true]
      exact Writes.bracket H (by omega) hR fun s' r d => body s' r (fun _ => by omega)
    | dyn =>
      subst hm
      simp only [writerSees_of_ok hs sid, if_true]
      exact body s hR (fun h => by cases h)
theorem writeElems_ok (H : WriterLaws L wr R) (hs : SchemaOK mode sch) : (vs : List Val) →
    (e : Ty) → (s : σ) → (q : L.Q) → WTs sch e vs → L.Ok q (toksE sch e vs) → R s q →
    (mode = .gen → HasDepth.depth s + structDepths vs ≤ 64) →
    Writes L R (writeElems wr sch mode e vs) s q (toksE sch e vs) := by
  intro vs e s q hwt hok hR hd
  cases vs with
  | nil => simp only [writeElems, toksE]; exact Writes.nil hR
  | cons v vs =>
    simp only [WTs] at hwt
    simp only [toksE, Lang.Ok_append] at hok ⊢
    simp only [writeElems]
    simp only [structDepths] at hd
    refine Writes.seq (write_ok H hs v e s q hwt.1 hok.1 hR ?_) fun s1 r1 d1 => ?_
    · intro hm; have := hd hm; omega
    · exact writeElems_ok H hs vs e s1 _ hwt.2 hok.2 r1 (fun hm => by have := hd hm; omega)
theorem writePairs_ok (H : WriterLaws L wr R) (hs : SchemaOK mode sch) : (kvs : List (Val × Val)) →
    (k v : Ty) → (s : σ) → (q : L.Q) → WTp sch k v kvs → L.Ok q (toksP sch k v kvs) → R s q →
    (mode = .gen → HasDepth.depth s + structDepthp kvs ≤ 64) →
    Writes L R (writePairs wr sch mode k v kvs) s q (toksP sch k v kvs) := by
  intro kvs k v s q hwt hok hR hd
  match kvs with
  | [] => simp only [writePairs, toksP]; exact Writes.nil hR
  | (a, b) :: kvs =>
    simp only [WTp] at hwt
    simp only [toksP, Lang.Ok_append] at hok ⊢
    simp only [writePairs]
    simp only [structDepthp] at hd
    refine Writes.seq (write_ok H hs a k s q hwt.1 hok.1 hR ?_) fun s1 r1 d1 => ?_
    · intro hm; have := hd hm; omega
    refine Writes.seq (write_ok H hs b v s1 _ hwt.2.1 hok.2.1 r1 ?_) fun s2 r2 d2 => ?_
    · intro hm; have := hd hm; omega
    · exact writePairs_ok H hs kvs k v s2 _ hwt.2.2 hok.2.2 r2 (fun hm => by have := hd hm; omega)
theorem writeFields_ok (H : WriterLaws L wr R) (hs : SchemaOK mode sch) :
    (as : List (Option Val)) → (fs : List Field) → (s : σ) → (q : L.Q) → WTf sch fs as →
    L.Ok q (toksF sch fs as) → R s q → (mode = .gen → HasDepth.depth s + structDepthf as ≤ 64) →
    Writes L R (writeFields wr sch mode fs as) s q (toksF sch fs as) := by
  intro as fs s q hwt hok hR hd
  match as with
  | [] =>
    cases fs with
    | nil => simp only [writeFields, toksF]; exact Writes.nil hR
    | cons f fs => simp only [WTf] at hwt
  | none :: as =>
    cases fs with
    | nil => simp only [WTf] at hwt
    | cons f fs =>
      simp only [WTf] at hwt
      simp only [toksF] at hok ⊢
      simp only [writeFields]
      simp only [structDepthf] at hd
      exact writeFields_ok H hs as fs s q hwt.2 hok hR hd
  | some v :: as =>
    cases fs with
    | nil => simp only [WTf] at hwt
    | cons f fs =>
      simp only [WTf] at hwt
      simp only [toksF, Lang.Ok_append, Lang.Ok_cons] at hok ⊢
      simp only [writeFields]
      simp only [structDepthf] at hd
      have hfld : Writes L R (do
          wr.writeFieldBegin f.ty.ttype f.fid
          writeVal wr sch mode f.ty v) s q (toksField f.fid (toks sch f.ty v) f.ty v) := by
        by_cases hb : f.ty = .bool
        · rw [hb] at hwt hok ⊢
          cases v <;> simp only [WT, false_and] at hwt
          rename_i b
          simp only [toksField, Lang.Ok_cons] at hok ⊢
          simp only [writeVal]
          exact Writes.tok H (T := .boolField f.fid b) hok.1.1 hR
        · have e : toksField f.fid (toks sch f.ty v) f.ty v
              = .fieldBegin f.ty.ttype f.fid :: toks sch f.ty v := by
            unfold toksField
            split
            · rename_i h; exact absurd h hb
            · rfl
          rw [e] at hok ⊢
          simp only [Lang.Ok_cons] at hok
          refine Writes.seq (xs := [_]) (Writes.tok H (T := .fieldBegin _ _) hok.1.1 hR)
            fun s1 r1 d1 => ?_
          exact write_ok H hs v f.ty s1 _ hwt.1 hok.1.2 r1 (fun hm => by have := hd hm; omega)
      have key : Writes L R (do
          (do wr.writeFieldBegin f.ty.ttype f.fid
              writeVal wr sch mode f.ty v)
          wr.writeFieldEnd
          writeFields wr sch mode fs as) s q
          (toksField f.fid (toks sch f.ty v) f.ty v ++ ([Tok.fieldEnd] ++ toksF sch fs as)) := by
        refine Writes.seq hfld fun s1 r1 d1 => ?_
        refine Writes.seq (Writes.tok H (T := .fieldEnd) hok.2.1 r1) fun s2 r2 d2 => ?_
        exact writeFields_ok H hs as fs s2 _ hwt.2 hok.2.2 r2 (fun hm => by have := hd hm; omega)
      intro out
      obtain ⟨s', e, r⟩ := key out
      refine ⟨s', ?_, r⟩
      rw [← List.singleton_append, ← e]
      simp only [W.bind_eq]
      split <;> rename_i h
      · rename_i s1 out1
        cases h2 : writeVal wr sch mode f.ty v s1 out1 with
        | mk r3 p => cases r3 <;> rfl
      · rfl
end

end Writer
end Thrift
