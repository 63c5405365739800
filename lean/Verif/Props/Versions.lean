import Verif.Proofs.Versions
import Verif.Props.Calls
/-
Property C86: calls between a client and a server that were generated from different versions of a program.
-/

namespace Thrift
open Spec Rpc

/-- What a reader sees is determined: a value that can be sent is seen by a reader with a compatible schema as one value. -/
theorem reads_one (X Y : Schema) (hx : ∀ sid, FieldsOK (X sid)) (hc : Compatible X Y) (t : Ty) (v : Val) (hw : WT X t v) (hd : NoDuplicates v) :
    ∃ u, Reads X Y t v u ∧ ∀ u', Reads X Y t v u' → u' = u :=
  ⟨_, project_reads X Y hx hc v t hw hd, fun _ h => reads_unique h (project_reads X Y hx hc v t hw hd)⟩

theorem reads_struct {X Y : Schema} {sid : Nat} {as : List (Option Val)} {u : Val} (h : Reads X Y (.struct sid) (.struct as) u) :
    ∃ bs, u = .struct bs ∧ bs.length = (Y sid).length ∧
      (∀ (i : Nat) g f v, (Y sid)[i]? = some g → SetTo (X sid) as f v → f.fid = g.fid → f.ty = g.ty → ∃ u, bs[i]? = some (some u) ∧ Reads X Y g.ty v u) ∧
      (∀ (i : Nat) g, (Y sid)[i]? = some g → (∀ f v, SetTo (X sid) as f v → ¬ (f.fid = g.fid ∧ f.ty = g.ty)) → bs[i]? = some g.dflt) := by
  cases h with
  | value _ _ ht => simp [Ty.hashable] at ht
  | struct _ _ bs h1 h2 h3 h4 =>
    refine ⟨bs, rfl, h1, fun i g f v hg hs hf ht => ?_, h4⟩
    obtain ⟨u, hu⟩ := h2 i g f v hg hs hf ht
    exact ⟨u, hu, h3 i g f v u hg hs hf ht hu⟩

theorem setTo_only {fs : List Field} {k : Int} {v w : Val} {f : Field} : SetTo fs (onlyField fs k v) f w ↔ f ∈ fs ∧ f.fid = k ∧ w = v := by
  unfold SetTo onlyField
  constructor
  · rintro ⟨i, h1, h2⟩
    rw [List.getElem?_map, h1] at h2
    simp only [Option.map_some, Option.some.injEq] at h2
    split at h2
    · cases h2; exact ⟨List.mem_of_getElem? h1, by assumption, rfl⟩
    · cases h2
  · rintro ⟨h1, h2, rfl⟩
    obtain ⟨i, hi⟩ := List.mem_iff_getElem?.1 h1
    exact ⟨i, hi, by rw [List.getElem?_map, hi]; simp [h2]⟩

theorem setTo_no {fs : List Field} {f : Field} {w : Val} : ¬ SetTo fs (noField fs) f w := by
  rintro ⟨i, h1, h2⟩
  unfold noField at h2
  rw [List.getElem?_map, h1] at h2
  cases h2

theorem reads_of {X Y : Schema} (hx : ∀ sid, FieldsOK (X sid)) (hc : Compatible X Y) {t : Ty} {v u : Val} (hw : WT X t v) (hd : NoDuplicates v) (h : project X Y t v = u) :
    Reads X Y t v u := h ▸ project_reads X Y hx hc v t hw hd

/-- Nothing that the reader of a result knows was sent. -/
theorem nothing_read {X Y : Schema} {c : Fn} (hres : ResultOK X c) {as bs : List (Option Val)} (h : Reads Y X (.struct c.resultId) (.struct as) (.struct bs))
    (hn : ∀ g ∈ X c.resultId, ∀ f v, SetTo (Y c.resultId) as f v → ¬ (f.fid = g.fid ∧ f.ty = g.ty)) : ∀ a ∈ bs, a = none := by
  obtain ⟨bs', e, hl, _, hd⟩ := reads_struct h
  cases e
  intro a ha
  obtain ⟨i, hi, rfl⟩ := List.mem_iff_getElem.1 ha
  have hg : (X c.resultId)[i]? = some ((X c.resultId)[i]'(by omega)) := List.getElem?_eq_getElem (by omega)
  have := hd i _ hg (hn _ (List.mem_of_getElem? hg))
  rw [List.getElem?_eq_getElem hi, Option.some.injEq] at this
  rw [this]
  exact (hres.optional _ (List.mem_of_getElem? hg)).2

/-- The struct of a `REPLY` of another version, as the client reads it -/
theorem means_across {X Y : Schema} {c s : Fn} (hV : Versions X Y c s) (hc : ResultOK X c) (hsv : ResultOK Y s) {o : Outcome} {sch' : Schema} {sid' : Nat}
    {w u : Val} (h : Answers Y s o 2 sch' sid' w) (hu : Reads Y X (.struct s.resultId) w u) : ∃ r, Means X c (attrsOf u) r ∧ ToldAcross X Y c s o r := by
  have hrid := hV.result
  have throws_of : ∀ sid, ∀ g ∈ X c.resultId, g.fid ≠ 0 → g.ty = .struct sid → sid ∈ c.throws := by
    intro sid g hg h0 ht
    obtain ⟨excs, he, hcase⟩ := hc.shape
    have hmem : g ∈ excs := by
      rcases hcase with ⟨_, ty, hs⟩ | ⟨_, hs⟩
      · rw [hs] at hg
        rcases List.mem_cons.1 hg with rfl | hg
        · exact absurd rfl h0
        · exact hg
      · rwa [hs] at hg
    have : Ty.struct sid ∈ c.throws.map Ty.struct := by rw [← he, ← ht]; exact List.mem_map_of_mem hmem
    obtain ⟨x, hx, e⟩ := List.mem_map.1 this
    cases e; exact hx
  cases h with
  | value v hr =>
    obtain ⟨bs, rfl, hl, hset, hd⟩ := reads_struct hu
    obtain ⟨f, hf, hf0⟩ := hV.success (hV.returns.trans hr)
    obtain ⟨excs, he, ⟨_, ty, hs⟩ | ⟨hr', _⟩⟩ := hc.shape
    · have h0 : (X s.resultId)[0]? = some { fid := 0, ty := ty } := by rw [← hrid, hs]; rfl
      have hty := hV.types f hf _ (List.mem_of_getElem? h0) hf0
      obtain ⟨x, hx, hrd⟩ := hset 0 _ f v h0 (setTo_only.2 ⟨hf, hf0, rfl⟩) hf0 hty
      refine ⟨_, .success x (hV.returns.trans hr) ?_, .value f v x hr hf hf0 (by rw [hty]; exact hrd)⟩
      show bs.head? = _
      rw [List.head?_eq_getElem?]; exact hx
    · rw [hV.returns, hr] at hr'; cases hr'
  | void v hr =>
    obtain ⟨bs, rfl, _⟩ := reads_struct hu
    have hn := nothing_read hc (bs := bs) (by rw [hrid]; exact hu) (fun g hg f v hs => absurd (hrid ▸ hs) setTo_no)
    exact ⟨_, .void (hV.returns.trans hr) hn, .void v hr⟩
  | missing hr =>
    obtain ⟨bs, rfl, _⟩ := reads_struct hu
    have hn := nothing_read hc (bs := bs) (by rw [hrid]; exact hu) (fun g hg f v hs => absurd (hrid ▸ hs) setTo_no)
    exact ⟨_, .missing (hV.returns.trans hr) hn, .missing hr⟩
  | declared sid xs f hdecl =>
    obtain ⟨bs, rfl, hl, hset, hd⟩ := reads_struct hu
    have hm : sid ∈ s.throws := by
      obtain ⟨i, hi, -⟩ := setException_eq hsv hdecl (.struct xs)
      by_cases hmem : sid ∈ s.throws
      · exact hmem
      · rw [not_declared hmem] at hi; cases hi
    obtain ⟨hf, hf0, hft⟩ : f ∈ Y s.resultId ∧ f.fid ≠ 0 ∧ f.ty = .struct sid := by
      obtain ⟨pre, post, h1, h2, h3, _⟩ := hdecl
      exact ⟨by rw [h1]; simp, h2, h3⟩
    have hset1 := setTo_only (v := .struct xs) (w := .struct xs) |>.2 ⟨hf, rfl, rfl⟩
    by_cases hk : ∃ g ∈ X s.resultId, g.fid = f.fid
    · obtain ⟨g, hg, hgf⟩ := hk
      have hty := hV.types f hf g hg hgf.symm
      obtain ⟨i, hi⟩ := List.mem_iff_getElem?.1 hg
      obtain ⟨x, hx, hrd⟩ := hset i g f (.struct xs) hi hset1 hgf.symm hty
      rw [← hty, hft] at hrd
      obtain ⟨ys, rfl, _⟩ := reads_struct hrd
      have hc' : sid ∈ c.throws := throws_of sid g (by rw [hrid]; exact hg) (by omega) (by rw [← hty, hft])
      refine ⟨_, .exception sid (.struct ys) i (by rw [hrid, hi]; simp [← hty, hft]) hx ?_ ?_, .known sid xs ys hm hc' hrd⟩
      · intro j hj
        have hi' := (List.getElem?_eq_some_iff.1 hi).1
        have hgj : (X s.resultId)[j]? = some ((X s.resultId)[j]'(by omega)) := List.getElem?_eq_getElem (by omega)
        have hlt : ((X s.resultId)[j]'(by omega)).fid < g.fid := by
          have := hc.sorted
          rw [hrid, List.pairwise_iff_getElem] at this
          have := this j i (by omega) hi' hj
          rw [List.getElem?_eq_getElem hi', Option.some.injEq] at hi
          rw [← hi]; exact this
        show bs[j]? = _
        rw [hd j _ hgj, (hc.optional _ (by rw [hrid]; exact List.mem_of_getElem? hgj)).2]
        intro f' v' hs' e
        have := (setTo_only.1 hs').2.1
        omega
      · intro hr
        obtain ⟨excs, _, ⟨_, ty, hs'⟩ | ⟨hr', _⟩⟩ := hc.shape
        · cases i with
          | zero =>
            rw [← hrid, hs'] at hi
            cases hi
            exact absurd hgf.symm hf0
          | succ i => omega
        · rw [hr] at hr'; cases hr'
    · have hc' : sid ∉ c.throws := fun h => hk (hV.ids sid f h hdecl)
      have hn := nothing_read hc (bs := bs) (by rw [hrid]; exact hu) (fun g hg f' v' hs' e => by
        rw [hrid] at hg hs'
        exact hk ⟨g, hg, by rw [← e.1]; exact (setTo_only.1 hs').2.1⟩)
      cases hr : s.returns with
      | true => exact ⟨_, .missing (hV.returns.trans hr) hn, .unknown sid xs hm hc' hr⟩
      | false => exact ⟨_, .void (hV.returns.trans hr) hn, .swallowed sid xs hm hc' hr⟩

section
variable {σ τ χ ω κ ω' : Type} [HasDepth σ] [HasDepth τ] [HasDepth κ]

/-- What the caller is told by the answer of another version -/
theorem recv_across {pc : Proto κ} {G : Format} {IdleC : κ → Prop} {slc clc : Option Int} (hrc : Receives pc G IdleC slc clc)
    (mode : Mode) (X Y : Schema) (fuel : Nat) (c s : Fn) (hV : Versions X Y c s) (hc : ResultOK X c) (hsv : ResultOK Y s) (o : Outcome) (type : Nat)
    (sch' : Schema) (sid' : Nat) (w : Val) (seqid : Int) (hans : Answers Y s o type sch' sid' w)
    (hh' : HeaderOK slc s.name type seqid) (hw2 : type = 2 → BodyOK slc clc mode Y X s.resultId w fuel ∧ NoDuplicates w)
    (hw3 : type = 3 → 5 ≤ fuel ∧ ∃ x, w = appVal x ∧ AppOK x ∧ ∀ m ∈ x.message, Within slc (utf8Len m)) :
    ∃ r, ToldAcross X Y c s o r ∧ WT sch' (.struct sid') w ∧ ∀ p, IdleC p → ∃ p', IdleC p' ∧ ∀ more,
      exec (recv pc X mode fuel c) p ((G.header s.name type seqid ++ G.value sch' (.struct sid') w) ++ more) = some ((.ok r, p'), more) := by
  by_cases h2 : type = 2
  · subst h2
    obtain ⟨hb, hnd⟩ := hw2 rfl
    obtain ⟨rfl, rfl⟩ : sch' = Y ∧ sid' = s.resultId := by cases hans <;> exact ⟨rfl, rfl⟩
    have hrd := project_reads sch' X (fun sid => (hb.sender sid).1) hb.versions w _ hb.typed hnd
    obtain ⟨r, hm, ht⟩ := means_across hV hc hsv hans hrd
    refine ⟨r, ht, hb.typed, fun p hi => ?_⟩
    obtain ⟨r', p', hi', hm', e⟩ := recv_reply hrc mode sch' X fuel c hc p hi s.name 2 seqid hh' (by omega) w (by rw [hV.result]; exact hb)
    rw [hV.result] at hm'
    cases means_unique hm hm'
    refine ⟨p', hi', fun more => ?_⟩
    have := e more
    rw [hV.result] at this
    rw [List.append_assoc]; exact this
  · have h3 : type = 3 := by cases hans <;> first | rfl | exact absurd rfl h2
    subst h3
    obtain ⟨hf, x, hwx, hx, hxl⟩ := hw3 rfl
    have hshape : sch' = appSchema ∧ sid' = 0 ∧ ToldAcross X Y c s o (.application ⟨some (x.type.getD 0), x.message⟩) := by
      cases hans with
      | undeclared sid as' hd' =>
        have := appVal_inj hwx
        subst this
        exact ⟨rfl, rfl, .undeclared sid as' hd'⟩
      | application y =>
        have := appVal_inj hwx
        subst this
        exact ⟨rfl, rfl, .application _⟩
      | other n =>
        have := appVal_inj hwx
        subst this
        exact ⟨rfl, rfl, .other n⟩
    obtain ⟨rfl, rfl, htold⟩ := hshape
    subst hwx
    refine ⟨_, htold, appVal_wt hx, fun p hi => ?_⟩
    obtain ⟨p', hi', e⟩ := recv_exception hrc mode X fuel c p hi s.name seqid hh' x hx hxl hf
    exact ⟨p', hi', fun more => by rw [List.append_assoc]; exact e more⟩

/-- C86: a two-way call between two versions: a client with schema `X` and function `c`, a server with schema `Y` and function `s`. There are a request and a reply such that

* the client transmits exactly the frame of the request,
* a server that receives it, in whatever pieces, runs the handler once, with the arguments as its own version reads them, and transmits exactly the frame of the reply,
* the client that receives it, in whatever pieces, returns or raises what the handler did, as its own version reads it. -/
theorem call_across (env : Env σ τ ω) (h : Handler χ)
    (cb : Option (PyStr → Int → Int → χ → Except Exc Unit × χ)) (fns : List Fn)
    -- the protocols on both sides
    {p : Proto σ} {pc : Proto κ} {F G : Format} {Idle : σ → Prop} {IdleOut : τ → Prop} {IdleC : κ → Prop}
    {sl cl slc clc : Option Int} (hp : Receives p F Idle sl cl) (hps : SteadyProto p)
    (hq : Sends env.q G IdleOut) (hpc : Sends pc F IdleC) (hrc : Receives pc G IdleC slc clc)
    (hcs : SteadyProto pc)
    -- framed transports
    (k : Sink ω) (hk : env.flush = framedFlush k) (kc : Sink ω') (mode : Mode) (fuel : Nat)
    -- the versions, the function, its arguments
    (X : Schema) (hX : SchemaOK mode X) (c s : Fn) (hV : Versions X env.sch c s) (hfn : Serves fns s.name s) (htwo : s.oneway = false)
    (hc : ResultOK X c) (hres : ResultOK env.sch s) (seqid : Int) (hseq : InRange 32 seqid) (hname : TextOK s.name)
    (hlim : Within sl (utf8Len s.name) ∧ Within slc (utf8Len s.name)) (as bs : List (Option Val))
    (has : BodyOK sl cl env.mode X env.sch s.argsId (.struct as) env.fuel) (hdepth : mode = .gen → structDepth (.struct as) ≤ 64) (hnd : NoDuplicates (.struct as))
    (hbs : Reads X env.sch (.struct s.argsId) (.struct as) (.struct bs))
    -- what the handler does
    (app app₁ app₂ : χ) (hcb : Began cb s.name 1 seqid app app₁) (o : Outcome)
    (hrun : h s bs app₁ = (o, app₂)) (type : Nat) (sch' : Schema) (sid' : Nat) (w : Val)
    (hans : Answers env.sch s o type sch' sid' w) (hw2 : type = 2 → BodyOK slc clc mode env.sch X s.resultId w fuel ∧ NoDuplicates w)
    (hw3 : type = 3 → 5 ≤ fuel ∧ ∃ x, w = appVal x ∧ AppOK x ∧ ∀ m ∈ x.message, Within slc (utf8Len m))
    (hd : structDepth w ≤ 64)
    -- no message is too long for a frame
    (hlen : (F.header s.name 1 seqid ++ F.value X (.struct s.argsId) (.struct as)).length < 2 ^ 31)
    (hlen' : (G.header s.name type seqid ++ G.value sch' (.struct sid') w).length < 2 ^ 31) :
    ∃ (req rep : Bytes) (r : Result), ToldAcross X env.sch c s o r ∧
      (∀ x : Client κ ω', IdleC x.prot → x.buf = [] → x.seqid = seqid → ∃ s', IdleC s' ∧
        send pc (framedFlush kc) X mode c as x
          = ((kc.writeFlush (frame req) x.sink).1,
            { x with prot := s', sink := (kc.writeFlush (frame req) x.sink).2 })) ∧
      (∀ (ν : Type) (net : Nat → ν → Option (Except Exc Bytes × ν)) (rest : ν → Bytes) (x : Call σ τ χ ω)
        (f : Framed.St) (t : ν) (more : Bytes), DeliversUntil net rest → Idle x.inp → IdleOut x.out →
        x.buf = [] → x.app = app → carried f (rest t) = req ++ more →
        (k.writeFlush (frame rep) x.sink).1 = .ok () →
        ∃ s' o' f' t', Idle s' ∧ IdleOut o' ∧ carried f' (rest t') = more ∧
          (process env h cb fns p x).run (P.over Framed.read net) (f, t)
            = some ((.ok (), { inp := s', out := o', buf := [], app := app₂
                               sink := (k.writeFlush (frame rep) x.sink).2 }), (f', t'))) ∧
      (∀ (ν : Type) (net : Nat → ν → Option (Except Exc Bytes × ν)) (rest : ν → Bytes) (x : κ)
        (f : Framed.St) (t : ν) (more : Bytes), DeliversUntil net rest → IdleC x →
        carried f (rest t) = rep ++ more →
        ∃ s' f' t', IdleC s' ∧ carried f' (rest t') = more ∧
          (recv pc X mode fuel c x).run (P.over Framed.read net) (f, t)
            = some ((.ok r, s'), (f', t'))) := by
  have hh : HeaderOK sl s.name 1 seqid := ⟨hname, hlim.1, ⟨by omega, by omega⟩, hseq⟩
  have ht : IsMessageType type := by cases hans <;> exact ⟨by omega, by omega⟩
  have hh' : HeaderOK slc s.name type seqid := ⟨hname, hlim.2, ht, hseq⟩
  obtain ⟨r, htold, hwt, hcl⟩ := recv_across hrc mode X env.sch fuel c s hV hc hres o type sch' sid' w seqid hans hh' hw2 hw3
  have hbs' : project X env.sch (.struct s.argsId) (.struct as) = .struct bs :=
    reads_unique (project_reads X env.sch (fun sid => (has.sender sid).1) has.versions _ _ has.typed hnd) hbs
  refine ⟨F.header s.name 1 seqid ++ F.value X (.struct s.argsId) (.struct as),
    G.header s.name type seqid ++ G.value sch' (.struct sid') w, r, htold, ?_, ?_, ?_⟩
  · intro x hi hb hsq
    obtain ⟨s', hi', e⟩ := send_transmits hpc (framedFlush kc) mode X c as x hi (by rw [hV.name]; exact hname)
      (by rw [hsq]; exact hseq) hX (by rw [hV.args]; exact has.typed) hdepth
    refine ⟨s', hi', ?_⟩
    rw [e, hV.oneway, htwo, hb, hsq, hV.name, hV.args, List.nil_append]
    simp only [Bool.false_eq_true, if_false]
    rw [framedFlush_eq kc _ _ hlen]
  · intro ν net rest x f t more hnet hi ho hbuf happ hcar hflush
    obtain ⟨s', o', hi', ho', e⟩ := process_reply env h cb fns hp hq x hi ho hbuf s.name 1 seqid s hh hfn htwo hres
      X (.struct as) has app₁ app₂ (by rw [happ]; exact hcb) o
      (by rw [hbs']; exact hrun) type sch' sid' w hans hwt hd more
    rw [hk, framedFlush_eq k _ _ hlen', hflush] at e
    obtain ⟨⟨f', t'⟩, e', hc'⟩ := (process_steady env h cb fns hps).upTo _ _ _ (framed_deliversUntil hnet) x (f, t)
      () _ more (by
        show exec _ x (carried f (rest t)) = _
        rw [hcar, List.append_assoc]
        exact e)
    exact ⟨s', o', f', t', hi', ho', hc', e'⟩
  · intro ν net rest x f t more hnet hi hcar
    obtain ⟨s', hi', e⟩ := hcl x hi
    obtain ⟨⟨f', t'⟩, e', hc'⟩ := (recv_steady hcs X mode fuel c).upTo _ _ _
      (framed_deliversUntil hnet) x (f, t) r s' more (by
        show exec _ x (carried f (rest t)) = _
        rw [hcar]
        exact e more)
    exact ⟨s', f', t', hi', hc', e'⟩

/-- C86: a oneway call between two versions. The client transmits one frame; the server runs the handler once, with the arguments as its own version reads them, and transmits nothing. -/
theorem oneway_across (env : Env σ τ ω) (h : Handler χ)
    (cb : Option (PyStr → Int → Int → χ → Except Exc Unit × χ)) (fns : List Fn)
    {p : Proto σ} {pc : Proto κ} {F : Format} {Idle : σ → Prop} {IdleC : κ → Prop}
    {sl cl : Option Int} (hp : Receives p F Idle sl cl) (hps : SteadyProto p) (hpc : Sends pc F IdleC)
    (kc : Sink ω') (mode : Mode)
    (X : Schema) (hX : SchemaOK mode X) (c s : Fn) (hV : Versions X env.sch c s) (hfn : Serves fns s.name s) (hone : s.oneway = true)
    (seqid : Int) (hseq : InRange 32 seqid) (hname : TextOK s.name) (hlim : Within sl (utf8Len s.name)) (as bs : List (Option Val))
    (has : BodyOK sl cl env.mode X env.sch s.argsId (.struct as) env.fuel) (hdepth : mode = .gen → structDepth (.struct as) ≤ 64) (hnd : NoDuplicates (.struct as))
    (hbs : Reads X env.sch (.struct s.argsId) (.struct as) (.struct bs))
    (app app₁ app₂ : χ) (hcb : Began cb s.name 4 seqid app app₁) (o : Outcome)
    (hrun : h s bs app₁ = (o, app₂)) (h1 : ∀ t, o ≠ .transport t) (h2 : ∀ n, o ≠ .base n)
    (hlen : (F.header s.name 4 seqid ++ F.value X (.struct s.argsId) (.struct as)).length < 2 ^ 31) :
    ∃ req : Bytes,
      (∀ x : Client κ ω', IdleC x.prot → x.buf = [] → x.seqid = seqid → ∃ s', IdleC s' ∧
        send pc (framedFlush kc) X mode c as x
          = ((kc.writeFlush (frame req) x.sink).1,
            { x with prot := s', sink := (kc.writeFlush (frame req) x.sink).2 })) ∧
      (∀ (ν : Type) (net : Nat → ν → Option (Except Exc Bytes × ν)) (rest : ν → Bytes) (x : Call σ τ χ ω)
        (f : Framed.St) (t : ν) (more : Bytes), DeliversUntil net rest → Idle x.inp → x.app = app →
        carried f (rest t) = req ++ more →
        ∃ s' f' t', Idle s' ∧ carried f' (rest t') = more ∧
          (process env h cb fns p x).run (P.over Framed.read net) (f, t)
            = some ((.ok (), { x with inp := s', app := app₂ }), (f', t'))) := by
  have hh : HeaderOK sl s.name 4 seqid := ⟨hname, hlim, ⟨by omega, by omega⟩, hseq⟩
  have hbs' : project X env.sch (.struct s.argsId) (.struct as) = .struct bs :=
    reads_unique (project_reads X env.sch (fun sid => (has.sender sid).1) has.versions _ _ has.typed hnd) hbs
  refine ⟨F.header s.name 4 seqid ++ F.value X (.struct s.argsId) (.struct as), ?_, ?_⟩
  · intro x hi hb hsq
    obtain ⟨s', hi', e⟩ := send_transmits hpc (framedFlush kc) mode X c as x hi (by rw [hV.name]; exact hname)
      (by rw [hsq]; exact hseq) hX (by rw [hV.args]; exact has.typed) hdepth
    refine ⟨s', hi', ?_⟩
    rw [e, hV.oneway, hone, hb, hsq, hV.name, hV.args, List.nil_append]
    simp only [if_true]
    rw [framedFlush_eq kc _ _ hlen]
  · intro ν net rest x f t more hnet hi happ hcar
    obtain ⟨s', hi', e⟩ := process_oneway env h cb fns hp x hi s.name 4 seqid s hh hfn hone
      X (.struct as) has app₁ app₂ (by rw [happ]; exact hcb) o
      (by rw [hbs']; exact hrun) h1 h2 more
    obtain ⟨⟨f', t'⟩, e', hc'⟩ := (process_steady env h cb fns hps).upTo _ _ _ (framed_deliversUntil hnet) x (f, t)
      () _ more (by
        show exec _ x (carried f (rest t)) = _
        rw [hcar, List.append_assoc]
        exact e)
    exact ⟨s', f', t', hi', hc', e'⟩

end

/-! ### Two versions of the sample service

  exception Missing { 1: string why, 2: i32 code = 404 }
  exception Busy {}
  service Store {
    string get(1: i32 key, 2: string hint, 3: i32 limit = 10) throws (1: Missing m, 2: Busy b)
    void clear() throws (1: Busy b)
    oneway void log(1: i32 key, 2: string hint)
  }
-/

section
open SampleService

def newer : Schema
  | 1 => [{ fid := 1, ty := .i32 }, { fid := 2, ty := .string }, { fid := 3, ty := .i32, dflt := some (.int 10) }]
  | 2 => [{ fid := 0, ty := .string }, { fid := 1, ty := .struct 3 }, { fid := 2, ty := .struct 6 }]
  | 3 => [{ fid := 1, ty := .string }, { fid := 2, ty := .i32, dflt := some (.int 404) }]
  | 5 => [{ fid := 1, ty := .struct 6 }]
  | _ => []

def newGet : Fn := { get with throws := [3, 6] }
def newClear : Fn := { clear with throws := [6] }
def newFns : List Fn := [newGet, newClear, log]

theorem newer_ok (mode : Mode) : SchemaOK mode newer := by
  intro sid
  match sid with
  | 1 | 2 | 3 | 5 => exact ⟨by unfold FieldsOK; decide, fun _ => by decide⟩
  | 0 | 4 => simp [newer, FieldsOK]
  | n + 6 => simp [newer, FieldsOK]

theorem newGet_ok : ResultOK newer newGet where
  shape := ⟨[{ fid := 1, ty := .struct 3 }, { fid := 2, ty := .struct 6 }], rfl, .inl ⟨rfl, .string, rfl⟩⟩
  optional := by simp [newGet, SampleService.get, newer]
  ids := by simp [newGet, SampleService.get]
  sorted := by simp [newGet, SampleService.get, newer]

theorem newClear_ok : ResultOK newer newClear where
  shape := ⟨[{ fid := 1, ty := .struct 6 }], rfl, .inr ⟨rfl, rfl⟩⟩
  optional := by simp [newClear, clear, newer]
  ids := by simp [newClear, clear, newer]
  sorted := by simp [newClear, clear, newer]

theorem newer_keeps (sid : Nat) : ∀ f ∈ sch sid, ∃ g ∈ newer sid, g.fid = f.fid ∧ g.ty = f.ty := by
  match sid with
  | 1 | 2 | 3 => simp [sch, newer]
  | 0 | 4 | 5 => simp [sch]
  | n + 6 => simp [sch]

theorem newer_compatible : Compatible sch newer := by
  intro sid f hf g hg e _
  obtain ⟨g', h1, h2, h3⟩ := newer_keeps sid f hf
  rw [← h3, eq_of_fid (newer_ok .gen sid).1.1 h1 hg (by omega)]

theorem older_compatible : Compatible newer sch := fun sid f hf g hg e ht => (newer_compatible sid g hg f hf e.symm ht.symm).symm

theorem get_versions : Versions sch newer get newGet where
  name := rfl
  args := rfl
  result := rfl
  returns := rfl
  oneway := rfl
  types := by simp [newGet, SampleService.get, newer, sch]
  ids := by
    intro sid f hs ⟨pre, post, h1, h2, h3, h4⟩
    have : sid = 3 := by simpa [SampleService.get] using hs
    subst this
    have hf : f ∈ newer newGet.resultId := by rw [h1]; simp
    simp only [newGet, SampleService.get, newer, List.mem_cons, List.not_mem_nil, or_false] at hf
    rcases hf with rfl | rfl | rfl
    · exact absurd rfl h2
    · exact ⟨_, by simp [newGet, SampleService.get, sch], rfl⟩
    · cases h3
  success := fun _ => ⟨{ fid := 0, ty := .string }, by simp [newGet, SampleService.get, newer], rfl⟩

/-- The new server reads the arguments of an old client, with the default for the argument that the client does not know. -/
theorem args_read : Reads sch newer (.struct 1) (.struct args) (.struct (args ++ [some (.int 10)])) :=
  reads_of (fun sid => (sch_ok .gen sid).1) newer_compatible (args_sendable .gen).typed (args_sendable .gen).duplicates
    (by simp [project, sch, newer, args, sentFields, attrOf, Ty.ttype])

theorem args_body : BodyOK (some 20) (some 20) .gen sch newer 1 (.struct args) 100 where
  sender := sch_ok _
  receiver := newer_ok _
  versions := newer_compatible
  typed := (args_sendable .gen).typed
  limits := (args_sendable .gen).limits
  depth := (args_sendable .gen).depth
  unknown := Unknowns_kept _ _ _ newer_keeps _ _
  fuel := (args_sendable .gen).fuel

/-- A server of the new version -/
def newEnv {σ τ : Type} (q : Proto τ) : Env σ τ (List Bytes) where
  q := q
  flush := framedFlush { write := fun b w => (.ok (), w ++ [b]), flush := fun w => (.ok (), w) }
  sch := newer
  fuel := 100

/-- The new server raises `Missing` with a code. -/
def newMissing : List (Option Val) := [some (.str (pyStr "no")), some (.int 410)]

def newAnswer : Val := .struct (onlyField (newer 2) 1 (.struct newMissing))

theorem newDeclared : DeclaredAs newer newGet 3 { fid := 1, ty := .struct 3 } :=
  ⟨[{ fid := 0, ty := .string }], [{ fid := 2, ty := .struct 6 }], rfl, by decide, rfl, by simp⟩

theorem newAnswer_body : BodyOK (some 20) (some 20) .dyn newer sch 2 newAnswer 100 where
  sender := newer_ok _
  receiver := sch_ok _
  versions := older_compatible
  typed := by
    show WTf newer (newer 2) [none, some (.struct newMissing), none]
    simp only [newer, WTf, WT, newMissing]; decide
  limits := by simp [newAnswer, newMissing, onlyField, newer, WithinLimits, Sizes, Sizesf, Within, utf8Len, utf8Width, pyStr]
  depth := by intro h; cases h
  unknown := by
    simp [newAnswer, newMissing, onlyField, newer, sch, Unknowns, Unknownsf, Known, Ty.ttype, nesting, BinariesAreText]
  fuel := by simp [newAnswer, newMissing, onlyField, newer, size, sizef]

/-- The hypotheses of `call_across` hold for `get(7)` of an old client (of the dynamic code) at a new server that raises `Missing`. -/
example := call_across (newEnv (Compact.proto {})) (fun _ _ n => (.declared 3 newMissing, n + 1) : Handler Nat) none newFns
  (Compact.reads { stringLimit := some 20, containerLimit := some 20 }) (Compact.steadyProto _)
  (Compact.writes {}) (Compact.writes { stringLimit := some 20, containerLimit := some 20 })
  (Compact.reads { stringLimit := some 20, containerLimit := some 20 }) (Compact.steadyProto _)
  { write := fun b w => (.ok (), w ++ [b]), flush := fun w => (.ok (), w) } rfl
  { write := fun b w => (.ok (), w ++ [b]), flush := fun (w : List Bytes) => (.ok (), w) } .dyn 100
  sch (sch_ok .dyn) get newGet get_versions ⟨rfl, [], [newClear, log], rfl, by decide⟩ rfl get_ok newGet_ok 0 (by decide) (header_ok 1 ⟨by omega, by omega⟩).text
  ⟨(header_ok 1 ⟨by omega, by omega⟩).limit, (header_ok 1 ⟨by omega, by omega⟩).limit⟩ args _ args_body (by intro h; cases h) (args_sendable .gen).duplicates args_read
  4 4 5 rfl (.declared 3 newMissing) rfl 2 newer 2 newAnswer
  (.declared 3 newMissing _ newDeclared) (fun _ => ⟨newAnswer_body, by simp [newAnswer, newMissing, onlyField, newer, NoDuplicates, NoDuplicatesf]⟩) (fun h => by cases h) (by decide)
  (by decide +kernel) (by decide +kernel)

/-- What the old client is told then: the exception as its version knows it -/
example : ToldAcross sch newer get newGet (.declared 3 newMissing) (.declared 3 [some (.str (pyStr "no"))]) :=
  .known 3 _ _ (by decide) (by decide) (reads_of (fun sid => (newer_ok .gen sid).1) older_compatible
    (by simp only [newer, WTf, WT, newMissing]; decide) (by simp [newMissing, NoDuplicates, NoDuplicatesf])
    (by simp [project, sch, newer, newMissing, sentFields, attrOf, Ty.ttype]))

/-- A new client sends an argument that the old server does not know; it is ignored. -/
example : Reads newer sch (.struct 1) (.struct (args ++ [some (.int 99)])) (.struct args) :=
  reads_of (fun sid => (newer_ok .gen sid).1) older_compatible (by simp only [newer, WTf, WT, args, List.cons_append, List.nil_append]; decide)
    (by simp [args, NoDuplicates, NoDuplicatesf]) (by simp [project, sch, newer, args, sentFields, attrOf, Ty.ttype])

theorem clear_versions : Versions sch newer clear newClear where
  name := rfl
  args := rfl
  result := rfl
  returns := rfl
  oneway := rfl
  types := by simp [newClear, clear, newer, sch]
  ids := by intro sid f hs; simp [clear] at hs
  success := by intro h; cases h

/-- What the new server answers if `clear` raises `Busy` -/
def busyAnswer : Val := .struct (onlyField (newer 5) 1 (.struct []))

theorem busy_body (mode : Mode) : BodyOK none none mode newer sch 5 busyAnswer 100 where
  sender := newer_ok _
  receiver := sch_ok _
  versions := older_compatible
  typed := by
    show WTf newer (newer 5) [some (.struct [])]
    simp only [newer, WTf, WT]; decide
  limits := by simp [busyAnswer, onlyField, newer, WithinLimits, Sizes, Sizesf]
  depth := by intro _; simp [busyAnswer, onlyField, newer, structDepth, structDepthf]
  unknown := by simp [busyAnswer, onlyField, newer, sch, Unknowns, Unknownsf, Known, nesting, nestingf, BinariesAreText, BinariesAreTextf]
  fuel := by simp [busyAnswer, onlyField, newer, size, sizef]

/-- C86, where it is not as one would wish: an exception that was added to a function without a result is lost. The new server raises `Busy` in `clear`; the old client is told that the call
succeeded, over the binary protocol and over any other. -/
theorem added_exception_lost {pc : Proto κ} [HasDepth κ] {G : Format} {IdleC : κ → Prop} (hrc : Receives pc G IdleC none none) (mode : Mode) (p : κ) (hi : IdleC p) :
    Answers newer newClear (.declared 6 []) 2 newer 5 busyAnswer ∧
      ∃ p', IdleC p' ∧ ∀ more, exec (recv pc sch mode 100 clear) p ((G.header (pyStr "clear") 2 0 ++ G.value newer (.struct 5) busyAnswer) ++ more) = some ((.ok (.returned none), p'), more) := by
  have hans : Answers newer newClear (.declared 6 []) 2 newer 5 busyAnswer := .declared 6 [] { fid := 1, ty := .struct 6 } ⟨[], [], rfl, by decide, rfl, by simp⟩
  obtain ⟨r, ht, _, h⟩ := recv_across hrc mode sch newer 100 clear newClear clear_versions clear_ok newClear_ok _ 2 newer 5 busyAnswer 0 hans
    ⟨by decide, (by intro l h; cases h), ⟨by omega, by omega⟩, by decide⟩
    (fun _ => ⟨busy_body mode, by simp [busyAnswer, onlyField, newer, NoDuplicates, NoDuplicatesf]⟩) (fun h => by cases h)
  have : r = .returned none := by
    cases ht with
    | swallowed => rfl
    | known _ _ bs h1 h2 => simp [clear] at h2
    | unknown _ _ h1 h2 h3 => cases h3
    | undeclared _ _ h1 => exact absurd h1 (by decide)
  subst this
  exact ⟨hans, h p hi⟩

example := added_exception_lost (Binary.reads {}) .gen

end

end Thrift
