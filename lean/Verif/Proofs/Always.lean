import Verif.Proofs.Exec
import Verif.Spec.Decoded
/-
What holds of a call over every transport, whatever it answers.
-/

namespace Thrift
open Spec

/-- `Q` holds of every result of the program, whatever the transport answers. -/
def Prog.Always {α : Type} (Q : α → Prop) : Prog α → Prop
  | .ret a => Q a
  | .read _ k => ∀ r, (k r).Always Q
  | .diverge => True

theorem Prog.Always.mono {α : Type} {Q R : α → Prop} {p : Prog α} (h : p.Always Q)
    (hqr : ∀ a, Q a → R a) : p.Always R := by
  induction p with
  | ret a => exact hqr a h
  | read n k ih => exact fun r => ih r (h r)
  | diverge => trivial

theorem Prog.Always.bind {α β : Type} {Q : α → Prop} {R : β → Prop} {p : Prog α} {f : α → Prog β}
    (h : p.Always Q) (hf : ∀ a, Q a → (f a).Always R) : (p.bind f).Always R := by
  induction p with
  | ret a => exact hf a h
  | read n k ih => exact fun r => ih r (h r)
  | diverge => trivial

theorem Prog.Always.run {α τ : Type} {Q : α → Prop} {p : Prog α} (h : p.Always Q)
    (step : Nat → τ → Option (Except Exc Bytes × τ)) {t t' : τ} {a : α}
    (e : p.run step t = some (a, t')) : Q a := by
  induction p generalizing t with
  | ret a => simp only [Prog.run, Option.some.injEq, Prod.mk.injEq] at e; exact e.1 ▸ h
  | read n k ih =>
    simp only [Prog.run] at e
    split at e
    · cases e
    · exact ih _ (h _) e
  | diverge => cases e

section
variable {σ α β : Type} [HasDepth σ]

/-- Whatever the transport answers: the recursion counter is as before, and if the call returns a
value the value satisfies `Q`. -/
def Bal (m : P σ α) (s : σ) (Q : α → Prop) : Prop :=
  (m s).Always fun r => HasDepth.depth r.2 = HasDepth.depth s ∧ ∀ a, r.1 = .ok a → Q a

theorem Bal.mono {m : P σ α} {s : σ} {Q R : α → Prop} (h : Bal m s Q) (hqr : ∀ a, Q a → R a) :
    Bal m s R := Prog.Always.mono h fun _ hr => ⟨hr.1, fun a e => hqr a (hr.2 a e)⟩

theorem Bal.pure {a : α} {s : σ} {Q : α → Prop} (h : Q a) : Bal (Pure.pure a) s Q :=
  ⟨rfl, fun b e => by cases e; exact h⟩
theorem Bal.Ppure {a : α} {s : σ} {Q : α → Prop} (h : Q a) : Bal (P.pure a) s Q := Bal.pure h
theorem Bal.raise {e : Exc} {s : σ} {Q : α → Prop} : Bal (P.raise e) s Q :=
  ⟨rfl, fun b e => by cases e⟩
theorem Bal.lift {r : Except Exc α} {s : σ} {Q : α → Prop} (h : ∀ a, r = .ok a → Q a) :
    Bal (P.lift r) s Q := ⟨rfl, h⟩
theorem Bal.get {s : σ} {Q : σ → Prop} (h : Q s) : Bal P.get s Q :=
  ⟨rfl, fun b e => by cases e; exact h⟩
theorem Bal.set {s s' : σ} {Q : Unit → Prop} (h : HasDepth.depth s' = HasDepth.depth s) (hq : Q ()) :
    Bal (P.set s') s Q := ⟨h, fun _ _ => hq⟩
theorem Bal.modify {s : σ} {f : σ → σ} {Q : Unit → Prop}
    (h : HasDepth.depth (f s) = HasDepth.depth s) (hq : Q ()) : Bal (P.modify f) s Q :=
  ⟨h, fun _ _ => hq⟩
theorem Bal.diverge {s : σ} {Q : α → Prop} : Bal P.diverge s Q := trivial
theorem Bal.assert {c : Bool} {s : σ} {Q : Unit → Prop} (h : c = true → Q ()) :
    Bal (P.assert c) s Q := by
  cases c
  · exact Bal.raise
  · exact Bal.Ppure (h rfl)
theorem Bal.ite {c : Prop} [Decidable c] {m n : P σ α} {s : σ} {Q : α → Prop}
    (hm : c → Bal m s Q) (hn : ¬ c → Bal n s Q) : Bal (if c then m else n) s Q := by
  split
  · exact hm ‹_›
  · exact hn ‹_›

theorem Bal.Pbind {m : P σ α} {k : α → P σ β} {s : σ} {Q : α → Prop} {R : β → Prop}
    (hm : Bal m s Q)
    (hk : ∀ a s', HasDepth.depth s' = HasDepth.depth s → Q a → Bal (k a) s' R) :
    Bal (P.bind m k) s R := by
  refine Prog.Always.bind hm ?_
  rintro ⟨r, s'⟩ ⟨hd, hq⟩
  cases r with
  | error e => exact ⟨hd, fun b e => by cases e⟩
  | ok a =>
    refine Prog.Always.mono (hk a s' hd (hq a rfl)) ?_
    rintro r ⟨h1, h2⟩
    exact ⟨h1.trans hd, h2⟩

theorem Bal.bind {m : P σ α} {k : α → P σ β} {s : σ} {Q : α → Prop} {R : β → Prop}
    (hm : Bal m s Q)
    (hk : ∀ a s', HasDepth.depth s' = HasDepth.depth s → Q a → Bal (k a) s' R) :
    Bal (m >>= k) s R := Bal.Pbind hm hk

/-- Sequencing when nothing needs to be known about the first result. -/
theorem Bal.seq {m : P σ α} {k : α → P σ β} {s : σ} {R : β → Prop}
    (hm : Bal m s fun _ => True)
    (hk : ∀ a s', HasDepth.depth s' = HasDepth.depth s → Bal (k a) s' R) :
    Bal (m >>= k) s R := Bal.bind hm fun a s' h _ => hk a s' h

theorem Bal.transRead {n : Nat} {s : σ} : Bal (P.transRead n) s fun _ => True :=
  fun _ => ⟨rfl, fun _ _ => trivial⟩

theorem Bal.readAllLoop (f l : Nat) (buff : Bytes) (s : σ) :
    Bal (P.readAllLoop f l buff) s fun _ => True := by
  induction f generalizing l buff s with
  | zero =>
    cases l
    · exact Bal.Ppure trivial
    · exact Bal.diverge
  | succ f ih =>
    cases l
    · exact Bal.Ppure trivial
    · exact Bal.Pbind Bal.transRead fun c s' hd _ => Bal.ite (fun _ => Bal.raise) fun _ => ih _ _ _

theorem Bal.readAll (n : Int) (s : σ) : Bal (P.readAll n) s fun _ => True := Bal.readAllLoop _ _ _ _

theorem Bal.repeatN {m : P σ α} {d : Int} {Q : α → Prop}
    (hm : ∀ s, HasDepth.depth s = d → Bal m s Q) (n : Nat) (s : σ) (hs : HasDepth.depth s = d) :
    Bal (P.repeatN n m) s fun as => ∀ a ∈ as, Q a := by
  induction n generalizing s with
  | zero => exact Bal.Ppure (by simp)
  | succ n ih =>
    refine Bal.Pbind (hm s hs) fun a s1 h1 ha => Bal.Pbind (ih s1 (h1.trans hs)) fun as s2 _ has =>
      Bal.Ppure ?_
    intro x hx
    cases hx with
    | head => exact ha
    | tail _ hx => exact has x hx

theorem Bal.repeatN_ {m : P σ Unit} {d : Int} (hm : ∀ s, HasDepth.depth s = d → Bal m s fun _ => True)
    (n : Nat) (s : σ) (hs : HasDepth.depth s = d) : Bal (P.repeatN_ n m) s fun _ => True := by
  induction n generalizing s with
  | zero => exact Bal.Ppure trivial
  | succ n ih => exact Bal.Pbind (hm s hs) fun _ s1 h1 _ => ih s1 (h1.trans hs)

/-- `I` is an invariant of the loop-carried value. -/
theorem Bal.whileTrue {body : α → P σ (α ⊕ β)} {d : Int} {I : α → Prop} {Q : β → Prop}
    (hb : ∀ a s, HasDepth.depth s = d → I a → Bal (body a) s fun r =>
      match r with | .inl a' => I a' | .inr b => Q b)
    (f : Nat) (a : α) (s : σ) (hs : HasDepth.depth s = d) (ha : I a) :
    Bal (P.whileTrue f body a) s Q := by
  induction f generalizing a s with
  | zero => exact Bal.diverge
  | succ f ih =>
    refine Bal.Pbind (hb a s hs ha) fun r s1 h1 hr => ?_
    cases r with
    | inl a' => exact ih a' s1 (h1.trans hs) hr
    | inr b => exact Bal.Ppure hr

/-- Every reading method of a protocol leaves the recursion counter alone. -/
structure BalOps (ops : RdOps σ) : Prop where
  structBegin : ∀ s, Bal ops.readStructBegin s fun _ => True
  structEnd : ∀ s, Bal ops.readStructEnd s fun _ => True
  fieldBegin : ∀ s, Bal ops.readFieldBegin s fun _ => True
  fieldEnd : ∀ s, Bal ops.readFieldEnd s fun _ => True
  mapBegin : ∀ s, Bal ops.readMapBegin s fun _ => True
  mapEnd : ∀ s, Bal ops.readMapEnd s fun _ => True
  listBegin : ∀ s, Bal ops.readListBegin s fun _ => True
  listEnd : ∀ s, Bal ops.readListEnd s fun _ => True
  setBegin : ∀ s, Bal ops.readSetBegin s fun _ => True
  setEnd : ∀ s, Bal ops.readSetEnd s fun _ => True
  bool : ∀ s, Bal ops.readBool s fun _ => True
  byte : ∀ s, Bal ops.readByte s fun _ => True
  i16 : ∀ s, Bal ops.readI16 s fun _ => True
  i32 : ∀ s, Bal ops.readI32 s fun _ => True
  i64 : ∀ s, Bal ops.readI64 s fun _ => True
  double : ∀ s, Bal ops.readDouble s fun _ => True
  string : ∀ s, Bal ops.readString s fun _ => True
  binary : ∀ s, Bal ops.readBinary s fun _ => True
  uuid : ∀ s, Bal ops.readUuid s fun _ => True

theorem skip_bal {ops : RdOps σ} (H : BalOps ops) (fuel d : Nat) (tt : Int) (s : σ) :
    Bal (skip ops fuel d tt) s fun _ => True := by
  induction d generalizing tt s with
  | zero => exact Bal.raise
  | succ d ih =>
    unfold skip
    refine Bal.ite (fun _ => Bal.seq (H.bool s) fun _ _ _ => Bal.pure trivial) fun _ => ?_
    refine Bal.ite (fun _ => Bal.seq (H.byte s) fun _ _ _ => Bal.pure trivial) fun _ => ?_
    refine Bal.ite (fun _ => Bal.seq (H.i16 s) fun _ _ _ => Bal.pure trivial) fun _ => ?_
    refine Bal.ite (fun _ => Bal.seq (H.i32 s) fun _ _ _ => Bal.pure trivial) fun _ => ?_
    refine Bal.ite (fun _ => Bal.seq (H.i64 s) fun _ _ _ => Bal.pure trivial) fun _ => ?_
    refine Bal.ite (fun _ => Bal.seq (H.double s) fun _ _ _ => Bal.pure trivial) fun _ => ?_
    refine Bal.ite (fun _ => Bal.seq (H.string s) fun _ _ _ => Bal.pure trivial) fun _ => ?_
    refine Bal.ite (fun _ => Bal.seq (H.structBegin s) fun _ s1 _ =>
      Bal.seq (Bal.whileTrue (d := HasDepth.depth s1) (I := fun _ => True) (Q := fun _ => True)
        (fun _ s2 _ _ => ?_) fuel () s1 rfl trivial) fun _ s2 _ => H.structEnd s2) fun _ => ?_
    · refine Bal.seq (H.fieldBegin s2) fun x s3 _ => Bal.ite (fun _ => Bal.pure trivial) fun _ => ?_
      exact Bal.seq (ih _ _) fun _ s4 _ => Bal.seq (H.fieldEnd s4) fun _ _ _ => Bal.pure trivial
    refine Bal.ite (fun _ => Bal.seq (H.mapBegin s) fun x s1 _ =>
      Bal.seq (Bal.repeatN_ (d := HasDepth.depth s1)
        (fun s2 _ => Bal.seq (ih _ _) fun _ _ _ => ih _ _) _ s1 rfl) fun _ s2 _ => H.mapEnd s2)
      fun _ => ?_
    refine Bal.ite (fun _ => Bal.seq (H.setBegin s) fun x s1 _ =>
      Bal.seq (Bal.repeatN_ (d := HasDepth.depth s1) (fun s2 _ => ih _ _) _ s1 rfl)
        fun _ s2 _ => H.setEnd s2) fun _ => ?_
    refine Bal.ite (fun _ => Bal.seq (H.listBegin s) fun x s1 _ =>
      Bal.seq (Bal.repeatN_ (d := HasDepth.depth s1) (fun s2 _ => ih _ _) _ s1 rfl)
        fun _ s2 _ => H.listEnd s2) fun _ => ?_
    exact Bal.ite (fun _ => Bal.seq (H.uuid s) fun _ _ _ => Bal.pure trivial) fun _ => Bal.raise

/-- `increment_recursion_depth` -/
theorem incDepth_eq (s : σ) : (incDepth : P σ Unit) s =
    if HasDepth.depth s + 1 > recursionLimit then .ret (.error TProtocolException.DEPTH_LIMIT, s)
    else .ret (.ok (), HasDepth.setDepth (HasDepth.depth s + 1) s) := by
  have e : (incDepth : P σ Unit) s =
      (if HasDepth.depth (HasDepth.setDepth (HasDepth.depth s + 1) s) > recursionLimit then
        P.bind (P.modify fun s => HasDepth.setDepth (HasDepth.depth s - 1) s)
          fun _ => P.raise TProtocolException.DEPTH_LIMIT
      else P.pure () : P σ Unit) (HasDepth.setDepth (HasDepth.depth s + 1) s) := rfl
  rw [e, HasDepth.depth_set]
  split
  · show Prog.ret (_, HasDepth.setDepth (HasDepth.depth (HasDepth.setDepth (HasDepth.depth s + 1) s) - 1)
      (HasDepth.setDepth (HasDepth.depth s + 1) s)) = _
    rw [HasDepth.depth_set, HasDepth.set_set, show HasDepth.depth s + 1 - 1 = HasDepth.depth s by omega,
      HasDepth.set_depth]
  · rfl

/-- The struct bracket of the generated code. -/
theorem Bal.bracket {m : P σ α} {s : σ} {Q : α → Prop}
    (hm : ∀ s', HasDepth.depth s' = HasDepth.depth s + 1 → HasDepth.depth s + 1 ≤ 64 → Bal m s' Q) :
    Bal (do incDepth; P.tryFinally m decDepth) s Q := by
  show Prog.Always _ (Prog.bind (incDepth s) _)
  rw [incDepth_eq]
  split
  · exact ⟨rfl, fun b e => by cases e⟩
  · rename_i hl
    show Prog.Always _ (P.tryFinally m decDepth (HasDepth.setDepth (HasDepth.depth s + 1) s))
    have := hm (HasDepth.setDepth (HasDepth.depth s + 1) s) (HasDepth.depth_set _ _)
      (by unfold recursionLimit at hl; omega)
    refine Prog.Always.bind this ?_
    rintro ⟨r, s'⟩ ⟨hd, hq⟩
    refine ⟨?_, hq⟩
    rw [HasDepth.depth_set] at hd
    show HasDepth.depth (decDepth s') = _
    unfold decDepth
    rw [HasDepth.depth_set]
    simp only at hd
    omega

/-- Attributes: `p` holds of every attribute that is not the default of the constructor. -/
theorem attrs_set_inv {fs : List Field} {p : Ty → Val → Prop} {as : List (Option Val)} {i : Nat}
    {f : Field} {v : Val} (hf : fs[i]? = some f) (hv : p f.ty v)
    (h : ∀ (i : Nat) (f : Field) (v : Val), fs[i]? = some f → as[i]? = some (some v) → f.dflt ≠ some v → p f.ty v) :
    ∀ (j : Nat) (g : Field) (w : Val), fs[j]? = some g → (as.set i (some v))[j]? = some (some w) → g.dflt ≠ some w →
      p g.ty w := by
  intro j g w hg hw hd
  by_cases hij : i = j
  · subst hij
    rw [hf] at hg
    cases hg
    rw [List.getElem?_set] at hw
    simp only [if_true] at hw
    split at hw
    · cases hw; exact hv
    · cases hw
  · rw [List.getElem?_set_ne hij] at hw
    exact h j g w hg hw hd

theorem initAttrs_inv {fs : List Field} {p : Ty → Val → Prop} :
    ∀ (i : Nat) (f : Field) (v : Val), fs[i]? = some f → (initAttrs fs)[i]? = some (some v) → f.dflt ≠ some v → p f.ty v := by
  intro i f v hf hv hd
  unfold initAttrs at hv
  rw [List.getElem?_map, hf] at hv
  simp only [Option.map_some, Option.some.injEq] at hv
  exact absurd hv hd

theorem pySet_mem {vs : List Val} {v : Val} (h : v ∈ pySet vs) : v ∈ vs := by
  have : ∀ acc, v ∈ vs.foldl setAdd acc → v ∈ acc ∨ v ∈ vs := by
    clear h
    induction vs with
    | nil => intro acc h; exact Or.inl h
    | cons w ws ih =>
      intro acc h
      rcases ih _ h with h | h
      · unfold setAdd at h
        split at h
        · exact Or.inl h
        · rcases List.mem_append.mp h with h | h
          · exact Or.inl h
          · right; simp at h; simp [h]
      · right; simp [h]
  rcases this [] h with h | h
  · cases h
  · exact h

theorem dictPut_mem {d : List (Val × Val)} {k v : Val} {x : Val × Val} (h : x ∈ dictPut d k v) :
    (x.1 = k ∨ ∃ y ∈ d, y.1 = x.1) ∧ (x.2 = v ∨ ∃ y ∈ d, y.2 = x.2) := by
  induction d with
  | nil => simp only [dictPut, List.mem_singleton] at h; subst h; simp
  | cons y d ih =>
    obtain ⟨k', v'⟩ := y
    simp only [dictPut] at h
    split at h
    · rcases List.mem_cons.mp h with h | h
      · subst h; simp
      · exact ⟨Or.inr ⟨x, by simp [h], rfl⟩, Or.inr ⟨x, by simp [h], rfl⟩⟩
    · rcases List.mem_cons.mp h with h | h
      · subst h; simp
      · obtain ⟨h1, h2⟩ := ih h
        exact ⟨h1.imp_right fun ⟨y, hy, e⟩ => ⟨y, by simp [hy], e⟩,
          h2.imp_right fun ⟨y, hy, e⟩ => ⟨y, by simp [hy], e⟩⟩

theorem pyDict_mem {kvs : List (Val × Val)} {x : Val × Val} (h : x ∈ pyDict kvs) :
    (∃ y ∈ kvs, y.1 = x.1) ∧ (∃ y ∈ kvs, y.2 = x.2) := by
  have : ∀ acc, x ∈ kvs.foldl (fun d kv => dictPut d kv.1 kv.2) acc →
      (∃ y ∈ acc ++ kvs, y.1 = x.1) ∧ (∃ y ∈ acc ++ kvs, y.2 = x.2) := by
    clear h
    induction kvs with
    | nil => intro acc h; simp only [List.append_nil]; exact ⟨⟨x, h, rfl⟩, ⟨x, h, rfl⟩⟩
    | cons w ws ih =>
      intro acc h
      obtain ⟨⟨y, hy, e1⟩, ⟨z, hz, e2⟩⟩ := ih _ h
      constructor
      · rcases List.mem_append.mp hy with hy | hy
        · rcases (dictPut_mem hy).1 with h | ⟨u, hu, e⟩
          · exact ⟨w, by simp, by rw [← h, e1]⟩
          · exact ⟨u, by simp [hu], by rw [e, e1]⟩
        · exact ⟨y, by simp [hy], e1⟩
      · rcases List.mem_append.mp hz with hz | hz
        · rcases (dictPut_mem hz).2 with h | ⟨u, hu, e⟩
          · exact ⟨w, by simp, by rw [← h, e2]⟩
          · exact ⟨u, by simp [hu], by rw [e, e2]⟩
        · exact ⟨z, by simp [hz], e2⟩
  simpa using this [] h

theorem readVal_bal {ops : RdOps σ} (H : BalOps ops) (sch : Schema) (mode : Mode) (fuel : Nat) (t : Ty)
    (s : σ) : Bal (readVal ops sch mode fuel t) s fun v =>
      mode = .gen → Shallow sch (64 - HasDepth.depth s) t v := by
  induction fuel generalizing t s with
  | zero =>
    cases t <;> unfold readVal
    · exact Bal.seq (H.bool s) fun _ _ _ => Bal.pure fun _ => .bool _ _
    · exact Bal.seq (H.byte s) fun _ _ _ => Bal.pure fun _ => .byte _ _
    · exact Bal.seq (H.i16 s) fun _ _ _ => Bal.pure fun _ => .i16 _ _
    · exact Bal.seq (H.i32 s) fun _ _ _ => Bal.pure fun _ => .i32 _ _
    · exact Bal.seq (H.i64 s) fun _ _ _ => Bal.pure fun _ => .i64 _ _
    · exact Bal.seq (H.double s) fun _ _ _ => Bal.pure fun _ => .double _ _
    · exact Bal.seq (H.string s) fun _ _ _ => Bal.pure fun _ => .string _ _
    · exact Bal.seq (H.binary s) fun _ _ _ => Bal.pure fun _ => .binary _ _
    · exact Bal.seq (H.uuid s) fun _ _ _ => Bal.pure fun _ => .uuid _ _
    all_goals exact Bal.diverge
  | succ f ih =>
    have ih' : ∀ t (s' : σ) d, HasDepth.depth s' = d → Bal (readVal ops sch mode f t) s' fun v =>
        mode = .gen → Shallow sch (64 - d) t v := by
      intro t s' d hd; subst hd; exact ih t s'
    cases t <;> try unfold readVal
    · exact Bal.seq (H.bool s) fun _ _ _ => Bal.pure fun _ => .bool _ _
    · exact Bal.seq (H.byte s) fun _ _ _ => Bal.pure fun _ => .byte _ _
    · exact Bal.seq (H.i16 s) fun _ _ _ => Bal.pure fun _ => .i16 _ _
    · exact Bal.seq (H.i32 s) fun _ _ _ => Bal.pure fun _ => .i32 _ _
    · exact Bal.seq (H.i64 s) fun _ _ _ => Bal.pure fun _ => .i64 _ _
    · exact Bal.seq (H.double s) fun _ _ _ => Bal.pure fun _ => .double _ _
    · exact Bal.seq (H.string s) fun _ _ _ => Bal.pure fun _ => .string _ _
    · exact Bal.seq (H.binary s) fun _ _ _ => Bal.pure fun _ => .binary _ _
    · exact Bal.seq (H.uuid s) fun _ _ _ => Bal.pure fun _ => .uuid _ _
    · exact Bal.seq (H.listBegin s) fun _ s1 h1 =>
        Bal.bind (Bal.repeatN (fun s2 h2 => ih' _ s2 _ h2) _ s1 h1) fun vs s2 h2 hvs =>
          Bal.seq (H.listEnd s2) fun _ _ _ => Bal.pure fun hg => .list _ _ _ fun v hv => hvs v hv hg
    · exact Bal.seq (H.setBegin s) fun _ s1 h1 =>
        Bal.bind (Bal.repeatN (fun s2 h2 => Bal.bind (ih' _ s2 _ h2) fun v s3 _ hv =>
          Bal.ite (fun _ => Bal.pure hv) fun _ => Bal.raise) _ s1 h1) fun vs s2 h2 hvs =>
          Bal.seq (H.setEnd s2) fun _ _ _ => Bal.pure fun hg =>
            .set _ _ _ fun v hv => hvs v (pySet_mem hv) hg
    · rename_i k v
      refine Bal.seq (H.mapBegin s) fun _ s1 h1 =>
        Bal.bind (Bal.repeatN (d := HasDepth.depth s)
          (Q := fun x => mode = .gen → Shallow sch (64 - HasDepth.depth s) k x.1 ∧
            Shallow sch (64 - HasDepth.depth s) v x.2)
          (fun s2 h2 => Bal.bind (ih' _ s2 _ h2) fun a s3 h3 ha =>
            Bal.bind (ih' _ s3 _ (h3.trans h2)) fun b s4 _ hb =>
            Bal.ite (fun _ => Bal.pure fun hg => ⟨ha hg, hb hg⟩) fun _ => Bal.raise) _ s1 h1)
          fun kvs s2 h2 hvs =>
          Bal.seq (H.mapEnd s2) fun _ _ _ => Bal.pure fun hg => .map _ _ _ _ (fun x hx => ?_) fun x hx => ?_
      · obtain ⟨⟨y, hy, e⟩, -⟩ := pyDict_mem hx
        exact e ▸ (hvs y hy hg).1
      · obtain ⟨-, ⟨y, hy, e⟩⟩ := pyDict_mem hx
        exact e ▸ (hvs y hy hg).2
    · rename_i sid
      have hc : ∀ (s' : σ) d, HasDepth.depth s' = d →
          Bal (readStructCore ops mode f (sch sid) (readVal ops sch mode f) (skip ops f skipDepth)) s'
            fun v => mode = .gen → ∃ as, v = .struct as ∧ ∀ (i : Nat) (f : Field) (v : Val), (sch sid)[i]? = some f →
              as[i]? = some (some v) → f.dflt ≠ some v → Shallow sch (64 - d) f.ty v := by
        intro s' d hd
        refine Bal.seq (H.structBegin s') fun _ s1 h1 => Bal.bind (Bal.whileTrue (d := d)
          (I := fun as => mode = .gen → ∀ (i : Nat) (f : Field) (v : Val), (sch sid)[i]? = some f →
              as[i]? = some (some v) → f.dflt ≠ some v → Shallow sch (64 - d) f.ty v)
          (Q := fun as => mode = .gen → ∀ (i : Nat) (f : Field) (v : Val), (sch sid)[i]? = some f →
              as[i]? = some (some v) → f.dflt ≠ some v → Shallow sch (64 - d) f.ty v)
          (fun as s2 h2 has => ?_) f _ s1 (h1.trans hd) (fun _ => initAttrs_inv)) fun as s2 h2 has =>
          Bal.seq (H.structEnd s2) fun _ _ _ => Bal.pure fun hg => ⟨as, rfl, has hg⟩
        refine Bal.seq (H.fieldBegin s2) fun x s3 h3 => Bal.ite (fun _ => Bal.pure has) fun _ => ?_
        split
        · exact Bal.seq (skip_bal H _ _ _ _) fun _ s4 _ => Bal.seq (H.fieldEnd s4) fun _ _ _ =>
            Bal.pure has
        · split
          · exact Bal.raise
          · rename_i i _ g hg
            refine Bal.ite (fun _ => ?_) fun _ => ?_
            · exact Bal.bind (ih' _ s3 _ (h3.trans h2)) fun v s4 _ hv =>
                Bal.seq (H.fieldEnd s4) fun _ _ _ => Bal.pure fun hm =>
                  attrs_set_inv hg (hv hm) (has hm)
            · exact Bal.seq (skip_bal H _ _ _ _) fun _ s4 _ => Bal.seq (H.fieldEnd s4) fun _ _ _ =>
                Bal.pure has
      cases mode
      · refine Bal.bracket fun s' hd hl => ?_
        refine (hc s' _ hd).mono fun v hv hg => ?_
        obtain ⟨as, rfl, has⟩ := hv hg
        refine .struct _ _ _ (by omega) fun i f v h1 h2 h3 => ?_
        rw [show 64 - HasDepth.depth s - 1 = 64 - (HasDepth.depth s + 1) by omega]
        exact has i f v h1 h2 h3
      · exact (hc s _ rfl).mono fun v hv hg => by cases hg

end
end Thrift
