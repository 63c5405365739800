import Verif.Spec.Rpc
import Verif.Props.Binary
import Verif.Props.Compact
import Verif.Props.Transport
import Verif.Proofs.SteadyOps
/-
Helpers for remote calls.
-/

namespace Thrift
open Spec Rpc

/-! ## Programs -/

theorem Prog.bind_assoc {α β γ : Type} (p : Prog α) (f : α → Prog β) (g : β → Prog γ) :
    (p.bind f).bind g = p.bind fun a => (f a).bind g := by
  induction p with
  | ret a => rfl
  | diverge => rfl
  | read n k ih => simp only [Prog.bind, ih]

/-- Apply a function to the result. -/
def P.map' {σ α β : Type} (g : α → β) (m : P σ α) : P σ β := fun s =>
  (m s).bind fun r => .ret (r.1.map g, r.2)

section
variable {σ α β γ : Type}

theorem P.map'_bind (g : β → γ) (m : P σ α) (k : α → P σ β) :
    P.map' g (P.bind m k) = P.bind m fun a => P.map' g (k a) := by
  funext s
  simp only [P.map', P.bind, Prog.bind_assoc]
  congr 1
  funext r
  obtain ⟨r, s'⟩ := r
  cases r <;> rfl

theorem P.bind_map' (g : α → β) (m : P σ α) (k : β → P σ γ) :
    P.bind (P.map' g m) k = P.bind m fun a => k (g a) := by
  funext s
  simp only [P.map', P.bind, Prog.bind_assoc]
  congr 1
  funext r
  obtain ⟨r, s'⟩ := r
  cases r <;> rfl

theorem P.bind_assoc' (m : P σ α) (k : α → P σ β) (l : β → P σ γ) :
    P.bind (P.bind m k) l = P.bind m fun a => P.bind (k a) l := by
  funext s
  simp only [P.bind, Prog.bind_assoc]
  congr 1
  funext r
  obtain ⟨r, s'⟩ := r
  cases r <;> rfl

theorem P.map'_pure (g : α → β) (a : α) : P.map' g (P.pure a : P σ α) = P.pure (g a) := rfl

theorem P.map'_tryFinally (g : α → β) (m : P σ α) (f : σ → σ) :
    P.map' g (P.tryFinally m f) = P.tryFinally (P.map' g m) f := by
  funext s
  simp only [P.map', P.tryFinally, Prog.bind_assoc]
  rfl

theorem P.map'_ite (g : α → β) (c : Prop) [Decidable c] (m n : P σ α) :
    P.map' g (if c then m else n) = if c then P.map' g m else P.map' g n := by
  split <;> rfl

theorem P.whileTrue_map {α' β' : Type} (g : α → α') (h : β → β') (body : α → P σ (α ⊕ β))
    (body' : α' → P σ (α' ⊕ β')) (hb : ∀ a, body' (g a) = P.map' (Sum.map g h) (body a)) (fuel : Nat) :
    ∀ a, P.whileTrue fuel body' (g a) = P.map' h (P.whileTrue fuel body a) := by
  induction fuel with
  | zero => exact fun _ => rfl
  | succ f ih =>
    intro a
    simp only [P.whileTrue]
    rw [hb, P.bind_map', P.map'_bind]
    congr 1
    funext r
    cases r with
    | inl a' => exact ih a'
    | inr b => rfl

theorem exec_map' (g : α → β) (m : P σ α) (s : σ) (b : Bytes) :
    exec (P.map' g m) s b = (exec m s b).map fun r => ((r.1.1.map g, r.1.2), r.2) := by
  unfold exec P.map'
  rw [Prog.run_bind]
  cases h : (m s).run memStep b with
  | none => rfl
  | some r => rfl
end

/-! ## `TApplicationException` is a struct like any other -/

section
variable {σ : Type} [HasDepth σ]

/-- The attributes as a list. -/
def appAttrs (x : AppExc) : List (Option Val) := [x.message.map .str, x.type.map .int]

theorem appReadBody_eq (p : Proto σ) (fuel : Nat) (x : AppExc) :
    readStructBody p.rd .gen (appSchema 0) (readVal p.rd appSchema .gen fuel) (skip p.rd fuel skipDepth)
      (appAttrs x) = P.map' (Sum.map appAttrs appAttrs) (appReadBody p fuel x) := by
  unfold readStructBody appReadBody
  show P.bind _ _ = P.map' _ (P.bind _ _)
  rw [P.map'_bind]
  congr 1
  funext r
  obtain ⟨ftype, fid⟩ := r
  simp only
  by_cases hst : ftype = TType.STOP
  · rw [if_pos hst, if_pos hst]; rfl
  rw [if_neg hst, if_neg hst]
  have hskip : ∀ {y : AppExc}, P.map' (Sum.map appAttrs appAttrs)
      ((do skip p.rd fuel skipDepth ftype; p.rd.readFieldEnd; pure (.inl y)) : P σ (AppExc ⊕ AppExc))
      = (do skip p.rd fuel skipDepth ftype; p.rd.readFieldEnd; pure (.inl (appAttrs y))) := by
    intro y
    show P.map' _ (P.bind _ _) = P.bind _ _
    rw [P.map'_bind]
    congr 1
    funext _
    show P.map' _ (P.bind _ _) = P.bind _ _
    rw [P.map'_bind]
    rfl
  by_cases h1 : fid = 1
  · subst h1
    have : lookupField .gen (appSchema 0) 1 = some 0 := rfl
    rw [this]
    rw [if_pos rfl]
    show (if ftype = TType.STRING then _ else _) = _
    by_cases h2 : ftype = TType.STRING
    · rw [if_pos h2, if_pos h2]
      cases fuel <;>
      · show P.bind (P.bind _ _) _ = P.map' _ (P.bind _ _)
        rw [P.map'_bind]
        rw [P.bind_assoc']
        congr 1
        funext m
        show P.bind _ _ = P.map' _ (P.bind _ _)
        rw [P.map'_bind]
        rfl
    · rw [if_neg h2, if_neg h2, hskip]
  · rw [if_neg h1]
    by_cases h2 : fid = 2
    · subst h2
      have : lookupField .gen (appSchema 0) 2 = some 1 := rfl
      rw [this]
      rw [if_pos rfl]
      show (if ftype = TType.I32 then _ else _) = _
      by_cases h2 : ftype = TType.I32
      · rw [if_pos h2, if_pos h2]
        cases fuel <;>
        · show P.bind (P.bind _ _) _ = P.map' _ (P.bind _ _)
          rw [P.map'_bind]
          rw [P.bind_assoc']
          congr 1
          funext m
          show P.bind _ _ = P.map' _ (P.bind _ _)
          rw [P.map'_bind]
          rfl
      · rw [if_neg h2, if_neg h2, hskip]
    · rw [if_neg h2, hskip]
      have : lookupField .gen (appSchema 0) fid = none := by
        simp only [lookupField, appSchema, List.findIdx?_cons, List.findIdx?_nil]
        rw [if_neg (by simpa using Ne.symm h1), if_neg (by simpa using Ne.symm h2)]
        rfl
      rw [this]

theorem appRead_eq (p : Proto σ) (fuel : Nat) :
    readVal p.rd appSchema .gen (fuel + 1) (.struct 0) = P.map' (fun x => appVal x) (appRead p fuel) := by
  unfold readVal appRead
  show P.bind _ _ = P.map' _ (P.bind _ _)
  rw [P.map'_bind]
  congr 1
  funext _
  rw [P.map'_tryFinally]
  congr 1
  unfold readStructCore
  show P.bind _ _ = P.map' _ (P.bind _ _)
  rw [P.map'_bind]
  congr 1
  funext _
  show P.bind _ _ = P.map' _ (P.bind _ _)
  rw [P.map'_bind]
  have : initAttrs (appSchema 0) = appAttrs {} := rfl
  rw [this, P.whileTrue_map appAttrs appAttrs (appReadBody p fuel) _ (appReadBody_eq p fuel), P.bind_map']
  congr 1
  funext x
  show P.bind _ _ = P.map' _ (P.bind _ _)
  rw [P.map'_bind]
  rfl

theorem appVal_inj {x y : AppExc} (h : appVal x = appVal y) : x = y := by
  obtain ⟨xt, xm⟩ := x
  obtain ⟨yt, ym⟩ := y
  unfold appVal at h
  injection h with h
  injection h with h1 h2
  injection h2 with h2 _
  cases xm <;> cases ym <;> cases xt <;> cases yt <;> simp at h1 h2 ⊢ <;> simp [*]

/-- From reading the struct to reading the exception. -/
theorem exec_appRead {p : Proto σ} {fuel : Nat} {s s' : σ} {b b' : Bytes} {x : AppExc}
    (h : exec (readVal p.rd appSchema .gen (fuel + 1) (.struct 0)) s b = some ((.ok (appVal x), s'), b')) :
    exec (appRead p fuel) s b = some ((.ok x, s'), b') := by
  rw [appRead_eq, exec_map'] at h
  cases hx : exec (appRead p fuel) s b with
  | none => rw [hx] at h; cases h
  | some r =>
    obtain ⟨⟨r, s1⟩, b1⟩ := r
    rw [hx] at h
    cases r with
    | error e => simp [Except.map] at h
    | ok y =>
      simp only [Option.map_some, Except.map, Option.some.injEq, Prod.mk.injEq, Except.ok.injEq] at h
      obtain ⟨⟨h1, rfl⟩, rfl⟩ := h
      rw [appVal_inj h1]

omit [HasDepth σ] in
theorem W.bind_assoc' {α β γ : Type} (m : W σ α) (k : α → W σ β) (l : β → W σ γ) :
    W.bind (W.bind m k) l = W.bind m fun a => W.bind (k a) l := by
  funext s out
  unfold W.bind
  split <;> rename_i h <;> split at h <;> simp_all

omit [HasDepth σ] in
theorem W.pure_bind' {α β : Type} (a : α) (k : α → W σ β) : W.bind (W.pure a) k = k a := rfl

omit [HasDepth σ] in
theorem appWriteField_none {α : Type} (p : Proto σ) (tt fid : Int) (w : α → W σ Unit) (k : Unit → W σ Unit) :
    W.bind (appWriteField p tt fid w none) k = k () := rfl

omit [HasDepth σ] in
theorem appWriteField_some {α : Type} (p : Proto σ) (tt fid : Int) (w : α → W σ Unit) (a : α)
    (k : Unit → W σ Unit) :
    W.bind (appWriteField p tt fid w (some a)) k = W.bind (p.wr.writeFieldBegin tt fid) fun _ =>
      W.bind (w a) fun _ => W.bind p.wr.writeFieldEnd k := by
  unfold appWriteField
  show W.bind (W.bind _ fun _ => W.bind _ _) _ = _
  rw [W.bind_assoc']
  congr 1
  funext _
  rw [W.bind_assoc']

theorem appWrite_eq (p : Proto σ) (x : AppExc) :
    appWrite p x = writeVal p.wr appSchema .gen (.struct 0) (appVal x) := by
  obtain ⟨t, m⟩ := x
  unfold appWrite appVal writeVal
  have hr : requiredSet (appSchema 0) [m.map .str, t.map .int] = true := by
    cases m <;> cases t <;> rfl
  simp only
  rw [if_pos hr]
  congr 1
  funext _
  congr 1
  show W.bind _ _ = W.bind _ _
  congr 1
  funext _
  show W.bind _ (fun _ => W.bind _ _) = W.bind _ _
  cases m with
  | none =>
    rw [appWriteField_none]
    cases t with
    | none =>
      rw [appWriteField_none]
      simp only [Option.map_none, appSchema, writeFields]
      rfl
    | some t =>
      rw [appWriteField_some]
      simp only [Option.map_none, Option.map_some, appSchema, writeFields, writeVal]
      show _ = W.bind (W.bind _ fun _ => W.bind _ fun _ => W.bind _ _) _
      rw [W.bind_assoc']
      congr 1; funext _
      rw [W.bind_assoc']
      congr 1; funext _
      rw [W.bind_assoc']
      rfl
  | some m =>
    rw [appWriteField_some]
    cases t with
    | none =>
      rw [show (fun _ => W.bind (appWriteField p TType.I32 2 p.wr.writeI32 none) fun _ =>
        (do p.wr.writeFieldStop; p.wr.writeStructEnd)) = fun (_ : Unit) =>
        (do p.wr.writeFieldStop; p.wr.writeStructEnd : W σ Unit) from by
          funext _; rw [appWriteField_none]]
      simp only [Option.map_none, Option.map_some, appSchema, writeFields, writeVal]
      show _ = W.bind (W.bind _ fun _ => W.bind _ fun _ => W.bind _ _) _
      rw [W.bind_assoc']
      congr 1; funext _
      rw [W.bind_assoc']
      congr 1; funext _
      rw [W.bind_assoc']
      rfl
    | some t =>
      rw [show (fun _ => W.bind (appWriteField p TType.I32 2 p.wr.writeI32 (some t)) fun _ =>
        (do p.wr.writeFieldStop; p.wr.writeStructEnd)) = fun (_ : Unit) =>
        (W.bind (p.wr.writeFieldBegin TType.I32 2) fun _ =>
        W.bind (p.wr.writeI32 t) fun _ => W.bind p.wr.writeFieldEnd fun _ =>
        (do p.wr.writeFieldStop; p.wr.writeStructEnd) : W σ Unit) from by
          funext _; rw [appWriteField_some]]
      simp only [Option.map_some, appSchema, writeFields, writeVal]
      show _ = W.bind (W.bind _ fun _ => W.bind _ fun _ => W.bind _ fun _ => W.bind _ fun _ => W.bind _ fun _ => W.bind _ _) _
      rw [W.bind_assoc']
      congr 1; funext _
      rw [W.bind_assoc']
      congr 1; funext _
      rw [W.bind_assoc']
      congr 1; funext _
      rw [W.bind_assoc']
      congr 1; funext _
      rw [W.bind_assoc']
      congr 1; funext _
      rw [W.bind_assoc']
      rfl

theorem appSchema_ok (mode : Mode) : SchemaOK mode appSchema := by
  intro sid
  refine ⟨⟨?_, ?_⟩, ?_⟩
  · simp [appSchema]
  · intro f hf
    simp [appSchema] at hf
    rcases hf with rfl | rfl <;> decide
  · intro _ f hf
    simp [appSchema] at hf
    rcases hf with rfl | rfl <;> decide

theorem appVal_wt {x : AppExc} (h : AppOK x) : WT appSchema (.struct 0) (appVal x) := by
  obtain ⟨t, m⟩ := x
  obtain ⟨h1, h2⟩ := h
  cases m <;> cases t <;> simp_all [appVal, WT, WTf, appSchema]

theorem appVal_depth (x : AppExc) : structDepth (appVal x) = 1 := by
  obtain ⟨t, m⟩ := x
  cases m <;> cases t <;> simp [appVal, structDepth, structDepthf]

end

/-! ## The state of a call -/

section
variable {σ τ χ ω α : Type}

theorem exec_onIn (m : P σ α) (c : Call σ τ χ ω) (b : Bytes) :
    exec (onIn m) c b = (exec m c.inp b).map fun r => ((r.1.1, { c with inp := r.1.2 }), r.2) := by
  unfold exec onIn
  rw [Prog.run_bind]
  cases h : (m c.inp).run memStep b with
  | none => rfl
  | some r => rfl

theorem exec_onIn_of {m : P σ α} {c : Call σ τ χ ω} {b b' : Bytes} {r : Except Exc α} {s' : σ}
    (h : exec m c.inp b = some ((r, s'), b')) :
    exec (onIn m) c b = some ((r, { c with inp := s' }), b') := by
  rw [exec_onIn, h]; rfl

theorem exec_onOut (m : W τ α) (c : Call σ τ χ ω) (b : Bytes) :
    exec (onOut m) c b = some (((m c.out c.buf).1,
      { c with out := (m c.out c.buf).2.1, buf := (m c.out c.buf).2.2 }), b) := rfl

theorem exec_flush (env : Env σ τ ω) (c : Call σ τ χ ω) (b : Bytes) :
    exec (flush env) c b = some (((env.flush c.buf c.sink).1,
      { c with buf := [], sink := (env.flush c.buf c.sink).2 }), b) := rfl

theorem exec_onApp (f : χ → α × χ) (c : Call σ τ χ ω) (b : Bytes) :
    exec (onApp f) c b = some ((.ok (f c.app).1, { c with app := (f c.app).2 }), b) := rfl

theorem exec_sendReply [HasDepth τ] (env : Env σ τ ω) (name : PyStr) (type seqid : Int) (body : W τ Unit)
    (c : Call σ τ χ ω) (b : Bytes) (o : τ) (bs : Bytes) (h : message env.q name type seqid body c.out c.buf = (.ok (), o, c.buf ++ bs)) :
    exec (sendReply env name type seqid body) c b = some (((env.flush (c.buf ++ bs) c.sink).1,
      { c with out := o, buf := [], sink := (env.flush (c.buf ++ bs) c.sink).2 }), b) := by
  unfold sendReply
  rw [exec_bind, exec_onOut, h, Res.andThen_ok, exec_flush]

/-! ## Steadiness -/

theorem Steady.onIn {m : P σ α} (h : Steady m) : Steady (Rpc.onIn m : P (Call σ τ χ ω) α) := by
  constructor
  · intro τ' step rest hd c t
    have h1 := h.any τ' step rest hd c.inp t
    rw [exec_onIn]
    unfold Rpc.onIn
    rw [Prog.run_bind]
    cases hx : exec m c.inp (rest t) with
    | none => rw [hx] at h1; simp only at h1; rw [h1]; rfl
    | some r =>
      rw [hx] at h1
      obtain ⟨t1, e1, hr⟩ := h1
      rw [e1]
      exact ⟨t1, rfl, hr⟩
  · intro τ' step rest hd c t a s' b' hx
    rw [exec_onIn] at hx
    cases hy : exec m c.inp (rest t) with
    | none => rw [hy] at hx; cases hx
    | some r =>
      obtain ⟨⟨r, s1⟩, b1⟩ := r
      rw [hy] at hx
      cases hx
      obtain ⟨t1, e1, hr⟩ := h.upTo τ' step rest hd c.inp t a s1 b1 hy
      refine ⟨t1, ?_, hr⟩
      unfold Rpc.onIn
      rw [Prog.run_bind, e1]
      rfl

/-- Every reading method of the protocol is steady. -/
structure SteadyProto (p : Proto σ) : Prop where
  ops : SteadyOps p.rd
  header : Steady p.readMessageBegin
  finish : Steady p.readMessageEnd

theorem steady_sendReply (env : Env σ τ ω) (name : PyStr) (type seqid : Int) (body : W τ Unit) :
    Steady (sendReply env name type seqid body : P (Call σ τ χ ω) Unit) :=
  Steady.bind (Steady.ret fun _ => ⟨_, rfl⟩) fun _ => Steady.ret fun _ => ⟨_, rfl⟩

variable [HasDepth σ] [HasDepth τ]

theorem processFn_steady (env : Env σ τ ω) (h : Handler χ) {p : Proto σ} (hp : SteadyProto p) (fn : Fn)
    (seqid : Int) : Steady (processFn env h p fn seqid) := by
  refine Steady.bind (Steady.onIn (readVal_steady hp.ops _ _ _ _)) fun args =>
    Steady.bind (Steady.onIn hp.finish) fun _ => Steady.bind (Steady.ret fun _ => ⟨_, rfl⟩) fun o => ?_
  split
  · exact Steady.raise _
  · exact Steady.pure _
  · exact steady_sendReply _ _ _ _ _

theorem process_steady (env : Env σ τ ω) (h : Handler χ)
    (cb : Option (PyStr → Int → Int → χ → Except Exc Unit × χ)) (fns : List Fn) {p : Proto σ}
    (hp : SteadyProto p) : Steady (process env h cb fns p) := by
  refine Steady.bind (Steady.onIn hp.header) fun m => Steady.bind ?_ fun _ => ?_
  · unfold onBegin
    split
    · exact Steady.pure _
    · exact Steady.bind (Steady.ret fun _ => ⟨_, rfl⟩) fun _ => Steady.lift _
  · split
    · exact Steady.bind (Steady.onIn (skip_steady hp.ops _ _ _)) fun _ =>
        Steady.bind (Steady.onIn hp.finish) fun _ => steady_sendReply _ _ _ _ _
    · exact processFn_steady env h hp _ _

theorem appRead_steady {p : Proto σ} (hp : SteadyOps p.rd) (fuel : Nat) : Steady (appRead p fuel) := by
  refine Steady.bind incDepth_steady fun _ => Steady.tryFinally (Steady.bind hp.structBegin fun _ =>
    Steady.bind (Steady.whileTrue (fun x => ?_) _ _) fun _ => Steady.bind hp.structEnd fun _ => Steady.pure _)
  have hs : ∀ tt (y : AppExc), Steady (do skip p.rd fuel skipDepth tt; p.rd.readFieldEnd; pure (.inl y) : P σ (AppExc ⊕ AppExc)) :=
    fun tt y => Steady.bind (skip_steady hp _ _ _) fun _ => Steady.bind hp.fieldEnd fun _ => Steady.pure _
  refine Steady.bind hp.fieldBegin fun r => ?_
  refine Steady.ite (Steady.pure _) (Steady.ite (Steady.ite ?_ (hs _ _)) (Steady.ite (Steady.ite ?_ (hs _ _)) (hs _ _)))
  · exact Steady.bind hp.string fun _ => Steady.bind hp.fieldEnd fun _ => Steady.pure _
  · exact Steady.bind hp.i32 fun _ => Steady.bind hp.fieldEnd fun _ => Steady.pure _

theorem recv_steady {p : Proto σ} (hp : SteadyProto p) (sch : Schema) (mode : Mode) (fuel : Nat) (fn : Fn) :
    Steady (recv p sch mode fuel fn) := by
  refine Steady.bind hp.header fun m => Steady.ite ?_ ?_
  · exact Steady.bind (appRead_steady hp.ops _) fun _ => Steady.bind hp.finish fun _ => Steady.pure _
  · exact Steady.bind (readVal_steady hp.ops _ _ _ _) fun _ => Steady.bind hp.finish fun _ => Steady.pure _

end

theorem Binary.steadyProto (cfg : Binary.Cfg) : SteadyProto (Binary.proto cfg) :=
  ⟨Binary.steadyOps cfg, Binary.readMessageBegin_steady cfg, Steady.pure _⟩

theorem Compact.steadyProto (cfg : Compact.Cfg) : SteadyProto (Compact.proto cfg) :=
  ⟨Compact.steadyOps cfg, Compact.readMessageBegin_steady cfg,
    Steady.bind Steady.get fun _ => Steady.bind (Steady.assert _) fun _ => Steady.assert _⟩

/-! ## Frames -/

theorem deframe_frame (b rest : Bytes) (h0 : b ≠ []) (h : b.length < 2 ^ 31) :
    deframe (frame b ++ rest) = b ++ deframe rest := by
  have hl : (beInt 4 (b.length : Int)).length = 4 := beInt_length _ _
  have ht : (frame b ++ rest).take 4 = beInt 4 b.length := by
    unfold frame
    rw [List.append_assoc, List.take_append_of_le_length (by omega), List.take_of_length_le (by omega)]
  have hd : (frame b ++ rest).drop 4 = b ++ rest := by
    unfold frame
    rw [List.append_assoc, List.drop_append_of_le_length (by omega), List.drop_of_length_le (by omega)]
    rfl
  have hu : unpackS (beInt 4 (b.length : Int)) = b.length := unpackS_beInt (by omega) (inRange32_of_lt h)
  have hpos : 0 < b.length := List.length_pos_iff.mpr h0
  have hlen : (frame b ++ rest).length = 4 + b.length + rest.length := by
    unfold frame
    simp only [List.length_append, hl]
  rw [deframe, ht, hu]
  rw [dif_pos (by rw [hlen]; omega)]
  rw [← List.drop_drop, hd]
  simp

theorem deframe_frames (bs : List Bytes) (h : ∀ b ∈ bs, b ≠ [] ∧ b.length < 2 ^ 31) :
    deframe (frames bs) = bs.flatten := by
  induction bs with
  | nil => rw [show frames [] = [] from rfl, deframe]; simp
  | cons b bs ih =>
    have hf : frames (b :: bs) = frame b ++ frames bs := rfl
    rw [hf, deframe_frame b _ (h b (by simp)).1 (h b (by simp)).2, ih fun x hx => h x (by simp [hx])]
    rfl

/-- A framed transport delivers what the frames carry. -/
theorem framed_deliversUntil {τ : Type} {step : Nat → τ → Option (Except Exc Bytes × τ)} {rest : τ → Bytes}
    (hd : DeliversUntil step rest) :
    DeliversUntil (P.over Framed.read step) fun x => x.1.rbuf.unread ++ deframe (rest x.2) := by
  intro n x hne
  obtain ⟨s, t⟩ := x
  have hex := Framed.exec_read (n + 1) s (rest t)
  have hup := (Framed.read_steady (n + 1)).upTo τ step rest hd s t
  by_cases hu : s.rbuf.unread = []
  · simp only [hu, List.nil_append] at hne
    rw [if_neg (by rw [hu]; simp)] at hex
    rw [deframe] at hne
    by_cases hc : 4 ≤ (rest t).length ∧ 0 < unpackS ((rest t).take 4) ∧
        4 + (unpackS ((rest t).take 4)).toNat ≤ (rest t).length
    · obtain ⟨hc1, hc2, hc3⟩ := hc
      have hrf : exec Framed.readFrame { s with rbuf := (s.rbuf.read (n + 1 : Nat)).2 } (rest t) =
          some ((.ok (), { s with rbuf := BytesIO.of (((rest t).drop 4).take (unpackS ((rest t).take 4)).toNat) }),
            (rest t).drop (4 + (unpackS ((rest t).take 4)).toNat)) := by
        unfold Framed.readFrame
        rw [exec_bind, exec_readAll, if_pos (by exact hc1), Res.andThen_ok, exec_bind, exec_readAll]
        simp only [show (4 : Int).toNat = 4 from rfl]
        rw [if_pos (by rw [List.length_drop]; omega), Res.andThen_ok, List.drop_drop]
        rfl
      rw [hrf, Res.andThen_ok] at hex
      obtain ⟨t', e, hr⟩ := hup _ _ _ hex
      refine ⟨_, (_, t'), by unfold P.over; simp only; rw [e], ?_, ?_, ?_⟩
      · simp only [hu, List.nil_append, BytesIO.read_unread]
        rw [hr, deframe, dif_pos ⟨hc1, hc2, hc3⟩, ← List.append_assoc]
        simp [BytesIO.of_unread]
      · simp
        omega
      · simp only [BytesIO.of_unread]
        intro h0
        have := congrArg List.length h0
        simp only [List.length_take, List.length_drop, List.length_nil] at this
        omega
    · rw [dif_neg hc] at hne
      exact absurd rfl hne
  · rw [if_pos ((take_ne_nil (by omega)).2 hu)] at hex
    obtain ⟨t', e, hr⟩ := hup _ _ _ hex
    refine ⟨_, (_, t'), by unfold P.over; simp only; rw [e], ?_, ?_, ?_⟩
    · simp only [BytesIO.read_unread]
      rw [hr]
      simp [← List.append_assoc]
    · simp
      omega
    · intro h0
      exact ((take_ne_nil (n := n + 1) (by omega)).2 hu) (by rw [h0]; rfl)

end Thrift
