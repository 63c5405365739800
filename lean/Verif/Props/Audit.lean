import Verif.Proofs.Audit
import Verif.Props.Versions
import Mathlib.Logic.Equiv.List
/-
Property C87: `thrift --audit`: which changes of a program it accepts, and that calls between the versions work then.
Property C88: services that extend others.
-/

namespace Thrift.Audit
open Rpc Spec Spec.Audit Spec.Structs
open Thrift.Structs hiding Program

/-! ### What is accepted -/

/-- C87: the audit complains about nothing if and only if every struct, exception, service and function is still there; fields keep their ids, types and requiredness, added ones are not
required and have greater ids; values of enums are kept (if the enum is); and functions keep their result and whether they are oneway. -/
theorem audit_iff {o o' : Options} {deep deep' : Nat} {srcN srcO : Source} {new old : Program} (hn : parse o deep srcN = some new) (ho : parse o' deep' srcO = some old)
    (hln : SourceLexed srcN) (hlo : SourceLexed srcO) : audit new old = [] ↔ Passes new old :=
  audit_tidy ((parse_ok hn).tidy hln) ((parse_ok ho).tidy hlo)

/-- C87: the structs of a program are those of its source. -/
theorem parse_structs {o : Options} {deep : Nat} {src : Source} {p : Program} (h : parse o deep src = some p) :
    (∀ d ∈ src.structs, ∃ s ∈ if d.kind = .exception then p.xceptions else p.structs,
      s.name = d.name ∧ Made o.allowNeg (if d.kind = .union then fun _ => .optional else id) d.fields s.made) ∧
    ∀ s ∈ p.structs ++ p.xceptions, ∃ d ∈ src.structs, s.name = d.name := by
  have hp := parse_ok h
  constructor
  · intro d hd
    obtain ⟨s, hs, hf⟩ := hp.structs' d hd
    refine ⟨s, ?_, hf.name, hf.from⟩
    rcases List.mem_append.1 hs with hs | hs
    · rw [if_neg (by rw [← hf.kind]; exact hp.kind s hs)]; exact hs
    · rw [if_pos (by rw [← hf.kind]; exact hp.kind' s hs)]; exact hs
  · intro s hs
    obtain ⟨d, hd, hf⟩ := hp.structs s hs
    exact ⟨d, hd, hf.name⟩

/-- C87: the functions of a program are those of its source. -/
theorem parse_services {o : Options} {deep : Nat} {src : Source} {p : Program} (h : parse o deep src = some p) :
    (∀ d ∈ src.services, ∃ s ∈ p.services, s.name = d.name ∧ s.extends_ = d.extends_ ∧ s.fns.map (·.name) = d.fns.map (·.name)) ∧
    ∀ s ∈ p.services, ∃ d ∈ src.services, s.name = d.name ∧ s.extends_ = d.extends_ ∧ ∀ f ∈ s.fns, ∃ x ∈ d.fns, f.name = x.name ∧ f.oneway = x.oneway ∧ f.returns = x.returns ∧
      Made o.allowNeg id x.args f.args ∧ Made o.allowNeg (fun r => if r = .required then .default_ else r) x.throws f.xceptions := by
  have hp := parse_ok h
  constructor
  · intro d hd
    obtain ⟨s, hs, hf⟩ := hp.services' d hd
    refine ⟨s, hs, hf.name, hf.extends_, ?_⟩
    obtain ⟨gs, h1, h2, h3, _⟩ := functions_ok hf.made (by simp)
    rw [List.nil_append] at h1
    rw [h1]
    refine List.ext_getElem (by simp [h2]) fun i hi hi' => ?_
    simp only [List.length_map] at hi hi'
    obtain ⟨g, hg, he⟩ := h3 i d.fns[i] (List.getElem?_eq_getElem hi')
    rw [List.getElem?_eq_getElem hi] at hg
    cases hg
    rw [List.getElem_map, List.getElem_map]
    rcases function_cases o (src.isExc deep) d.fns[i] with ⟨_, hx, _⟩ | ⟨g, hg, _, _, c3, _⟩
    · rw [he] at hx; cases hx
    · rw [he] at hg; cases hg; exact c3
  · intro s hs
    obtain ⟨d, hd, hf⟩ := hp.services s hs
    refine ⟨d, hd, hf.name, hf.extends_, fun f hfm => ?_⟩
    obtain ⟨x, hx, c1, c2, c3, c4, c5, _⟩ := hf.fn.2 f hfm
    exact ⟨x, hx, c3, c1, c2, c4, c5⟩

/-- C87: a type that is written in a program means one thing at most, and the compiler finds it. -/
theorem resolve_iff {o : Options} {deep : Nat} {src : Source} {p : Program} (h : parse o deep src = some p) (N : Numbering) (w : Written) (t : Ty) :
    (∃ k, p.resolve N k w = some t) ↔ Denotes p N w t := by
  constructor
  · rintro ⟨k, hk⟩
    exact resolve_denotes hk
  · intro hd
    obtain ⟨k, hk⟩ := denotes_resolve (parse_ok h).distinct hd
    exact ⟨k, hk k (Nat.le_refl k)⟩

theorem resolve_one {o : Options} {deep : Nat} {src : Source} {p : Program} (h : parse o deep src = some p) (N : Numbering) (w : Written) (t t' : Ty)
    (h1 : Denotes p N w t) (h2 : Denotes p N w t') : t = t' := denotes_unique (parse_ok h).distinct h1 h2

/-! ### Inheritance -/

/-- C88: the processor of a service has exactly the functions that the service declares or inherits. -/
theorem processor_iff {o : Options} {deep : Nat} {src : Source} {p : Program} (h : parse o deep src = some p) (N : Numbering) (k : Nat) (n : PyStr) (x : Fn) :
    x ∈ p.processor N k n ↔ ∃ svc f, Offers p n svc f ∧ x = p.fn N k svc f := by
  unfold Program.processor
  rw [List.mem_map]
  constructor
  · rintro ⟨⟨svc, f⟩, h1, rfl⟩
    exact ⟨svc, f, (inherited_offers (parse_ok h) n svc f).1 h1, rfl⟩
  · rintro ⟨svc, f, h1, rfl⟩
    exact ⟨(svc, f), (inherited_offers (parse_ok h) n svc f).2 h1, rfl⟩

/-- C88: each of these functions is the one that is run for its name: no service hides a function of the one that it extends. -/
theorem processor_runs {o : Options} {deep : Nat} {src : Source} {p : Program} (h : parse o deep src = some p) (N : Numbering) (k : Nat) {n svc : PyStr} {f : Function Written}
    (ho : Offers p n svc f) : Serves (p.processor N k n) f.name (p.fn N k svc f) := processor_serves (parse_ok h) N k ho

/-- C88: what a service offers, the services that extend it offer too: a client of a service may call a server of one that extends it. -/
theorem extends_serves {o : Options} {deep : Nat} {src : Source} {p : Program} (h : parse o deep src = some p) (N : Numbering) (k : Nat) {s : Service} (hs : s ∈ p.services) {e : PyStr}
    (he : s.extends_ = some e) {name : PyStr} {fn : Fn} (hfn : Serves (p.processor N k e) name fn) : Serves (p.processor N k s.name) name fn := by
  obtain ⟨rfl, pre, post, h1, _⟩ := hfn
  obtain ⟨svc, f, h2, rfl⟩ := (processor_iff h N k e fn).1 (by rw [h1]; simp)
  exact processor_serves (parse_ok h) N k (.inherits s e svc f hs he h2)

theorem own_of_function {o : Options} {deep : Nat} {src : Source} {p : Program} (h : parse o deep src = some p) {a b : PyStr} {f : Function Written} (e : p.function a b = some f) :
    Offers p a a f := by
  obtain ⟨s, h1, rfl, h2, _⟩ := (function_iff (parse_ok h)).1 e
  exact .own s f h1 h2

/-! ### Calls between versions -/

/-- C87: if the audit complains about nothing, and what it does not look at did not change either, then the generated code of both versions fits together: every field of a class is still
there, and every function can be called from both sides. -/
theorem audit_sound {o o' : Options} {deep deep' : Nat} {srcN srcO : Source} {new old : Program} (hn : parse o deep srcN = some new) (ho : parse o' deep' srcO = some old)
    (hln : SourceLexed srcN) (hlo : SourceLexed srcO) (hokN : SourceOK srcN) (hokO : SourceOK srcO) (ha : audit new old = []) (hu : Unchecked new old)
    {N : Numbering} {kO kN : Nat} {A B : Schema} (hA : old.generate N kO = some A) (hB : new.generate N kN = some B) :
    ExtendsSchema (fun i => ∃ c, HasClass old c ∧ N.dec i = some c) B A ∧ Compatible A B ∧ Compatible B A ∧ (∀ mode, SchemaOK mode A ∧ SchemaOK mode B) ∧
    ∀ n svc f, Offers old n svc f → ∃ g, Offers new n svc g ∧ Serves (new.processor N kN n) f.name (new.fn N kN svc g) ∧
      Versions A B (old.fn N kO svc f) (new.fn N kN svc g) ∧ Versions B A (new.fn N kN svc g) (old.fn N kO svc f) ∧
      ResultOK A (old.fn N kO svc f) ∧ ResultOK B (new.fn N kN svc g) := by
  have pn := parse_ok hn
  have po := parse_ok ho
  have hp := (audit_iff hn ho hln hlo).1 ha
  refine ⟨audit_extends po pn hp hokO hokN hu hA hB, fun i f hf g hg e _ => audit_types po pn hp hokO hokN hu hA hB i hf hg e,
    fun i f hf g hg e _ => (audit_types po pn hp hokO hokN hu hA hB i hg hf e.symm).symm,
    fun mode => ⟨generate_schemaOK po hokO hA mode, generate_schemaOK pn hokN hB mode⟩, fun n svc f hf => ?_⟩
  obtain ⟨g, hg, hk⟩ := passes_offers hp hf
  obtain ⟨s, hs, hs1, hs2⟩ := offers_declared hf
  obtain ⟨s', hs', hs1', hs2'⟩ := offers_declared hg
  have hv := audit_versions po pn hp hokO hokN hu hA hB hs hs2 hs' hs2' (hs1'.trans hs1.symm) hk
  have hr := generate_resultOK po hokO hA hs hs2
  have hr' := generate_resultOK pn hokN hB hs' hs2'
  rw [hs1] at hv hr
  rw [hs1'] at hr'
  exact ⟨g, hg, hk.name ▸ processor_serves pn N kN hg, hv.1, hv.2, hr, hr'⟩

section
variable {σ τ χ ω κ ω' : Type} [HasDepth σ] [HasDepth τ] [HasDepth κ]

/-- C87: if the audit complains about nothing, and what it does not look at did not change either, then a client of the old program can call every function of every service at a server of
the new program: for all arguments, the handler is run once, with the arguments as the new program reads them, and the caller is told what it did, as the old program reads it. -/
theorem audited_call {o o' : Options} {deep deep' : Nat} {srcN srcO : Source} {new old : Program} (hn : parse o deep srcN = some new) (ho : parse o' deep' srcO = some old)
    (hln : SourceLexed srcN) (hlo : SourceLexed srcO) (hokN : SourceOK srcN) (hokO : SourceOK srcO) (ha : audit new old = []) (hu : Unchecked new old)
    {N : Numbering} {kO kN : Nat} {A : Schema} (env : Env σ τ ω) (hA : old.generate N kO = some A) (hB : new.generate N kN = some env.sch)
    (h : Handler χ) (cb : Option (PyStr → Int → Int → χ → Except Exc Unit × χ))
    -- the protocols on both sides
    {p : Proto σ} {pc : Proto κ} {F G : Format} {Idle : σ → Prop} {IdleOut : τ → Prop} {IdleC : κ → Prop}
    {sl cl slc clc : Option Int} (hp : Receives p F Idle sl cl) (hps : SteadyProto p)
    (hq : Sends env.q G IdleOut) (hpc : Sends pc F IdleC) (hrc : Receives pc G IdleC slc clc)
    (hcs : SteadyProto pc)
    -- framed transports
    (k : Sink ω) (hk : env.flush = framedFlush k) (kc : Sink ω') (mode : Mode) (fuel : Nat)
    -- the service, the function, its arguments
    (n svc : PyStr) (f : Function Written) (hf : Offers old n svc f) (htwo : f.oneway = false) (seqid : Int) (hseq : InRange 32 seqid) (hname : TextOK f.name)
    (hlim : Within sl (utf8Len f.name) ∧ Within slc (utf8Len f.name)) (as : List (Option Val))
    (hty : WT A (.struct (N.num (.args svc f.name))) (.struct as)) (hlims : WithinLimits sl cl (.struct as)) (hdepth : structDepth (.struct as) ≤ 64)
    (hfuel : size (.struct as) ≤ env.fuel) (hnd : NoDuplicates (.struct as)) :
    ∃ (s : Fn) (bs : List (Option Val)), Serves (new.processor N kN n) f.name s ∧ Reads A env.sch (.struct (N.num (.args svc f.name))) (.struct as) (.struct bs) ∧
    -- what the handler does
    ∀ (app app₁ app₂ : χ) (_ : Began cb f.name 1 seqid app app₁) (out : Outcome)
    (_ : h s bs app₁ = (out, app₂)) (type : Nat) (sch' : Schema) (sid' : Nat) (w : Val)
    (_ : Answers env.sch s out type sch' sid' w)
    (_ : type = 2 → WT env.sch (.struct s.resultId) w ∧ WithinLimits slc clc w ∧ NoDuplicates w ∧ size w ≤ fuel ∧
      Unknowns (fun u => nesting u ≤ 64 ∧ BinariesAreText IsUtf8 u) env.sch A (.struct s.resultId) w)
    (_ : type = 3 → 5 ≤ fuel ∧ ∃ x, w = appVal x ∧ AppOK x ∧ ∀ m ∈ x.message, Within slc (utf8Len m))
    (_ : structDepth w ≤ 64)
    -- no message is too long for a frame
    (_ : (F.header f.name 1 seqid ++ F.value A (.struct (N.num (.args svc f.name))) (.struct as)).length < 2 ^ 31)
    (_ : (G.header f.name type seqid ++ G.value sch' (.struct sid') w).length < 2 ^ 31),
    ∃ (req rep : Bytes) (r : Result), ToldAcross A env.sch (old.fn N kO svc f) s out r ∧
      (∀ x : Client κ ω', IdleC x.prot → x.buf = [] → x.seqid = seqid → ∃ s', IdleC s' ∧
        send pc (framedFlush kc) A mode (old.fn N kO svc f) as x
          = ((kc.writeFlush (frame req) x.sink).1,
            { x with prot := s', sink := (kc.writeFlush (frame req) x.sink).2 })) ∧
      (∀ (ν : Type) (net : Nat → ν → Option (Except Exc Bytes × ν)) (rest : ν → Bytes) (x : Call σ τ χ ω)
        (f : Framed.St) (t : ν) (more : Bytes), DeliversUntil net rest → Idle x.inp → IdleOut x.out →
        x.buf = [] → x.app = app → carried f (rest t) = req ++ more →
        (k.writeFlush (frame rep) x.sink).1 = .ok () →
        ∃ s' o' f' t', Idle s' ∧ IdleOut o' ∧ carried f' (rest t') = more ∧
          (process env h cb (new.processor N kN n) p x).run (P.over Framed.read net) (f, t)
            = some ((.ok (), { inp := s', out := o', buf := [], app := app₂
                               sink := (k.writeFlush (frame rep) x.sink).2 }), (f', t'))) ∧
      (∀ (ν : Type) (net : Nat → ν → Option (Except Exc Bytes × ν)) (rest : ν → Bytes) (x : κ)
        (f' : Framed.St) (t : ν) (more : Bytes), DeliversUntil net rest → IdleC x →
        carried f' (rest t) = rep ++ more →
        ∃ s' f'' t', IdleC s' ∧ carried f'' (rest t') = more ∧
          (recv pc A mode fuel (old.fn N kO svc f) x).run (P.over Framed.read net) (f', t)
            = some ((.ok r, s'), (f'', t'))) := by
  obtain ⟨hext, hc, hc', hs, hall⟩ := audit_sound hn ho hln hlo hokN hokO ha hu hA hB
  obtain ⟨g, hg, hsv, hv, _, hrO, hrN⟩ := hall n svc f hf
  have hgn : g.name = f.name := hv.name.symm
  have hb := project_reads A env.sch (fun sid => ((hs .gen).1 sid).1) hc _ _ hty hnd
  obtain ⟨bs, hbs, _⟩ := reads_struct hb
  rw [hbs] at hb
  have hids : (new.fn N kN svc g).argsId = N.num (.args svc f.name) := by rw [← hgn]; rfl
  have hunk : Unknowns (fun u => nesting u ≤ 64 ∧ BinariesAreText IsUtf8 u) A env.sch (.struct (N.num (.args svc f.name))) (.struct as) :=
    Unknowns_kept _ _ _ (fun sid x hx => by
      obtain ⟨y, h1, h2, h3, _⟩ := hext.kept sid x hx
      exact ⟨y, h1, h2, h3⟩) _ _
  refine ⟨new.fn N kN svc g, bs, hsv, hb, fun app app₁ app₂ hcb out hrun type sch' sid' w hans hw2 hw3 hd hlen hlen' => ?_⟩
  have := call_across env h cb (new.processor N kN n) hp hps hq hpc hrc hcs k hk kc mode fuel A (hs mode).1 (old.fn N kO svc f) (new.fn N kN svc g) hv
    (by rw [show (new.fn N kN svc g).name = f.name from hgn]; exact hsv)
    (hv.oneway.symm.trans htwo) hrO hrN seqid hseq (by rw [show (new.fn N kN svc g).name = f.name from hgn]; exact hname)
    (by rw [show (new.fn N kN svc g).name = f.name from hgn]; exact hlim) as bs
    (by rw [hids]; exact ⟨(hs _).1, (hs _).2, hc, hty, hlims, fun _ => hdepth, hunk, hfuel⟩) (fun _ => hdepth) hnd (by rw [hids]; exact hb)
    app app₁ app₂ (by rw [show (new.fn N kN svc g).name = f.name from hgn]; exact hcb) out hrun type sch' sid' w hans
    (fun ht => by
      obtain ⟨a1, a2, a3, a4, a5⟩ := hw2 ht
      exact ⟨⟨(hs _).2, (hs _).1, hc', a1, a2, fun _ => hd, a5, a4⟩, a3⟩) hw3 hd
    (by rw [hids, show (new.fn N kN svc g).name = f.name from hgn]; exact hlen)
    (by rw [show (new.fn N kN svc g).name = f.name from hgn]; exact hlen')
  exact this

end

/-! ### Programs without `binary` and `uuid` -/

/-- The type has no `binary` and no `uuid`. -/
def plain : Written → Bool
  | .base b => b ≠ .binary ∧ b ≠ .uuid
  | .named _ => true
  | .list e => plain e
  | .set e => plain e
  | .map k v => plain k && plain v

theorem same_plain {a b : Written} (ha : plain a = true) (hb : plain b = true) (h : Same a b) : a = b := by
  induction a generalizing b with
  | base x =>
    cases b <;> simp only [Same] at h
    rename_i y
    cases x <;> cases y <;> simp [plain, Text] at ha hb h ⊢
  | named m => cases b <;> simp only [Same] at h; rw [h]
  | list x ih =>
    cases b <;> simp only [Same] at h
    rename_i e
    rw [ih (b := e) ha hb h]
  | set x ih =>
    cases b <;> simp only [Same] at h
    rename_i e
    rw [ih (b := e) ha hb h]
  | map x y ih1 ih2 =>
    cases b <;> simp only [Same] at h
    simp only [plain, Bool.and_eq_true] at ha hb
    rw [ih1 ha.1 hb.1 h.1, ih2 ha.2 hb.2 h.2]

/-- All types of a program -/
def Program.types (p : Program) : List Written :=
  (p.structs ++ p.xceptions).flatMap (fun s => s.made.members.map (·.ty)) ++
    p.services.flatMap fun s => s.fns.flatMap fun f => f.returns.toList ++ f.args.members.map (·.ty) ++ f.xceptions.members.map (·.ty)

theorem declared_types {p : Program} {c : Class} {m : Member Written} (h : Declared p c m) : m.ty ∈ p.types := by
  unfold Program.types
  cases h with
  | field s m hs hm => exact List.mem_append.2 (.inl (List.mem_flatMap.2 ⟨s, hs, List.mem_map_of_mem hm⟩))
  | arg s f m hs hf hm =>
    refine List.mem_append.2 (.inr (List.mem_flatMap.2 ⟨s, hs, List.mem_flatMap.2 ⟨f, hf, ?_⟩⟩))
    exact List.mem_append.2 (.inl (List.mem_append.2 (.inr (List.mem_map_of_mem hm))))
  | success s f w hs hf hw =>
    refine List.mem_append.2 (.inr (List.mem_flatMap.2 ⟨s, hs, List.mem_flatMap.2 ⟨f, hf, ?_⟩⟩))
    exact List.mem_append.2 (.inl (List.mem_append.2 (.inl (by rw [hw]; simp))))
  | thrown s f m hs hf hm =>
    refine List.mem_append.2 (.inr (List.mem_flatMap.2 ⟨s, hs, List.mem_flatMap.2 ⟨f, hf, ?_⟩⟩))
    exact List.mem_append.2 (.inr (List.mem_map_of_mem hm))

/-- If neither program uses `binary` or `uuid`, only typedefs and enums are left to look at. -/
theorem unchecked_plain {new old : Program} (hn : new.types.all plain = true) (ho : old.types.all plain = true) (ht : ∀ d ∈ old.typedefs, d ∈ new.typedefs)
    (he : ∀ o ∈ old.enums, ∃ n ∈ new.enums, n.name = o.name) : Unchecked new old :=
  ⟨ht, he, fun _ _ _ hm hd _ hs => same_plain (List.all_eq_true.1 hn _ (declared_types hd)) (List.all_eq_true.1 ho _ (declared_types hm)) hs⟩

/-! ### Numbers for classes -/

/-- There are numbers for all classes. -/
def numbering : Numbering where
  num
    | .type n => Encodable.encode (0, [n])
    | .args s f => Encodable.encode (1, [s, f])
    | .result s f => Encodable.encode (2, [s, f])
  dec i :=
    match (Encodable.decode i : Option (Nat × List PyStr)) with
    | some (0, [n]) => some (.type n)
    | some (1, [s, f]) => some (.args s f)
    | some (2, [s, f]) => some (.result s f)
    | _ => none
  ok c := by cases c <;> simp

/-! ### Two versions of a program

  typedef i32 Id
  enum Color { RED = 1, BLUE = 2 }
  struct User { 1: required Id id, 2: string name, 4: list<Color> likes }
  exception NotFound { 1: string why }
  service Base { void ping() }
  service Users extends Base {
    User get(1: Id id) throws (1: NotFound nf)
    oneway void log(1: string line)
  }
-/

namespace Sample

def oldSource : Source :=
  { typedefs := [(pyStr "Id", .base .i32)]
    enums := [{ name := pyStr "Color", values := [1, 2] }]
    structs :=
      [{ name := pyStr "User"
         fields :=
           [{ id := some 1, req := .required, ty := .named (pyStr "Id"), name := pyStr "id" }, { id := some 2, ty := .base .string, name := pyStr "name" },
             { id := some 4, ty := .list (.named (pyStr "Color")), name := pyStr "likes" }] },
        { kind := .exception, name := pyStr "NotFound", fields := [{ id := some 1, ty := .base .string, name := pyStr "why" }] }]
    services :=
      [{ name := pyStr "Base", fns := [{ name := pyStr "ping" }] },
        { name := pyStr "Users"
          extends_ := some (pyStr "Base")
          fns :=
            [{ name := pyStr "get"
               returns := some (.named (pyStr "User"))
               args := [{ id := some 1, ty := .named (pyStr "Id"), name := pyStr "id" }]
               throws := [{ id := some 1, ty := .named (pyStr "NotFound"), name := pyStr "nf" }] },
              { name := pyStr "log", oneway := true, args := [{ id := some 1, ty := .base .string, name := pyStr "line" }] }] }] }

/-- In the new version, there is another colour, `User` has a field `5: optional set<i64> groups`, `get` has another argument `2: bool fresh` and another exception, and there is a function more. -/
def newSource : Source :=
  { typedefs := [(pyStr "Id", .base .i32)]
    enums := [{ name := pyStr "Color", values := [3, 1, 2] }]
    structs :=
      [{ name := pyStr "User"
         fields :=
           [{ id := some 1, req := .required, ty := .named (pyStr "Id"), name := pyStr "id" }, { id := some 2, ty := .base .string, name := pyStr "fullName" },
             { id := some 5, req := .optional, ty := .set (.base .i64), name := pyStr "groups" }, { id := some 4, ty := .list (.named (pyStr "Color")), name := pyStr "likes" }] },
        { kind := .exception, name := pyStr "NotFound", fields := [{ id := some 1, ty := .base .string, name := pyStr "why" }] },
        { kind := .exception, name := pyStr "Busy", fields := [] }]
    services :=
      [{ name := pyStr "Base", fns := [{ name := pyStr "ping" }, { name := pyStr "halt" }] },
        { name := pyStr "Users"
          extends_ := some (pyStr "Base")
          fns :=
            [{ name := pyStr "log", oneway := true, args := [{ id := some 1, ty := .base .string, name := pyStr "line" }] },
              { name := pyStr "get"
                returns := some (.named (pyStr "User"))
                args := [{ id := some 1, ty := .named (pyStr "Id"), name := pyStr "id" }, { id := some 2, ty := .base .bool, name := pyStr "fresh" }]
                throws :=
                  [{ id := some 1, ty := .named (pyStr "NotFound"), name := pyStr "nf" }, { id := some 2, ty := .named (pyStr "Busy"), name := pyStr "busy" }] }] }] }

def old : Program := (parse {} 9 oldSource).get (by decide +kernel)
def new : Program := (parse {} 9 newSource).get (by decide +kernel)

theorem old_parsed : parse {} 9 oldSource = some old := by simp [old]
theorem new_parsed : parse {} 9 newSource = some new := by simp [new]

theorem passed : audit new old = [] := by decide +kernel

theorem old_lexed : SourceLexed oldSource := by
  constructor <;> simp [oldSource, Lexed, Identifier] <;> decide

theorem new_lexed : SourceLexed newSource := by
  constructor <;> simp [newSource, Lexed, Identifier] <;> decide

theorem old_ok : SourceOK oldSource := by
  refine ⟨?_, ?_, ?_⟩
  · simp [oldSource, Explicit]
  · simp [oldSource, Explicit]
  · intro s hs d hd
    refine ⟨?_, ?_, ?_⟩ <;> revert s d <;> (simp [oldSource, Explicit]; try decide)

theorem new_ok : SourceOK newSource := by
  refine ⟨?_, ?_, ?_⟩
  · simp [newSource, Explicit]
  · simp [newSource, Explicit]
  · intro s hs d hd
    refine ⟨?_, ?_, ?_⟩ <;> revert s d <;> (simp [newSource, Explicit]; try decide)

theorem old_generated (N : Numbering) : ∃ A, old.generate N 9 = some A := ⟨_, if_pos rfl⟩
theorem new_generated (N : Numbering) : ∃ A, new.generate N 9 = some A := ⟨_, if_pos rfl⟩

theorem unchecked : Unchecked new old := unchecked_plain (by decide +kernel) (by decide +kernel) (by decide +kernel) (by decide +kernel)

theorem get_offered : ∃ f, Offers old (pyStr "Users") (pyStr "Users") f ∧ f.name = pyStr "get" ∧ f.oneway = false :=
  ⟨(old.function (pyStr "Users") (pyStr "get")).get (by decide +kernel), own_of_function old_parsed (Option.some_get _).symm, by decide +kernel, by decide +kernel⟩

theorem ping_inherited : ∃ f, Offers old (pyStr "Users") (pyStr "Base") f ∧ f.name = pyStr "ping" := by
  refine ⟨(old.function (pyStr "Base") (pyStr "ping")).get (by decide +kernel), ?_, by decide +kernel⟩
  have h : ∃ s ∈ old.services, s.name = pyStr "Users" ∧ s.extends_ = some (pyStr "Base") := by decide +kernel
  obtain ⟨s, h1, h2, h3⟩ := h
  rw [← h2]
  exact .inherits s _ _ _ h1 h3 (own_of_function old_parsed (Option.some_get _).symm)

/-- The hypotheses of `audit_sound` hold for these programs; the functions of `Users`, of which one is inherited, can be called across versions. -/
example : ∃ (A B : Schema) (f g f' g' : Function Written), ExtendsSchema (fun i => ∃ c, HasClass old c ∧ numbering.dec i = some c) B A ∧ f.name = pyStr "get" ∧
    Versions A B (old.fn numbering 9 (pyStr "Users") f) (new.fn numbering 9 (pyStr "Users") g) ∧
    f'.name = pyStr "ping" ∧ Versions B A (new.fn numbering 9 (pyStr "Base") g') (old.fn numbering 9 (pyStr "Base") f') := by
  obtain ⟨A, hA⟩ := old_generated numbering
  obtain ⟨B, hB⟩ := new_generated numbering
  obtain ⟨h1, _, _, _, h2⟩ := audit_sound new_parsed old_parsed new_lexed old_lexed new_ok old_ok passed unchecked hA hB
  obtain ⟨f, hf, hn, _⟩ := get_offered
  obtain ⟨f', hf', hn'⟩ := ping_inherited
  obtain ⟨g, _, _, h3, _⟩ := h2 _ _ f hf
  obtain ⟨g', _, _, _, h4, _⟩ := h2 _ _ f' hf'
  exact ⟨A, B, f, g, f', g', h1, hn, h3, hn', h4⟩

/-- The classes are not empty: the old `User` has three fields, the new one four. -/
example (N : Numbering) : ∃ A B, old.generate N 9 = some A ∧ new.generate N 9 = some B ∧
    A (N.num (.type (pyStr "User"))) = [{ fid := 1, ty := .i32, required := true }, { fid := 2, ty := .string }, { fid := 4, ty := .list .i32 }] ∧
    B (N.num (.type (pyStr "User"))) =
      [{ fid := 1, ty := .i32, required := true }, { fid := 2, ty := .string }, { fid := 4, ty := .list .i32 }, { fid := 5, ty := .set .i64 }] := by
  refine ⟨_, _, if_pos rfl, if_pos rfl, ?_, ?_⟩ <;> rw [N.ok] <;> rfl

theorem get_args (N : Numbering) {A : Schema} (hA : old.generate N 9 = some A) : A (N.num (.args (pyStr "Users") (pyStr "get"))) = [{ fid := 1, ty := .i32 }] := by
  have e : old.generate N 9 = some fun i => ((N.dec i).bind (old.class_ N 9)).getD [] := if_pos rfl
  rw [e] at hA
  cases hA
  dsimp only
  rw [N.ok]; rfl

/-- The environment of a server of the new program -/
def serverEnv {σ τ : Type} (q : Proto τ) (B : Schema) : Env σ τ (List Bytes) where
  q := q
  flush := framedFlush { write := fun b w => (.ok (), w ++ [b]), flush := fun w => (.ok (), w) }
  sch := B
  fuel := 100

/-- The hypotheses of `audited_call` hold for `get(7)`. (For what follows them, see the example for `call_across`.) -/
example {f : Function Written} (hf : Offers old (pyStr "Users") (pyStr "Users") f) (hn : f.name = pyStr "get") (ho : f.oneway = false) (A B : Schema)
    (hA : old.generate numbering 9 = some A) (hB : new.generate numbering 9 = some B) :=
  audited_call new_parsed old_parsed new_lexed old_lexed new_ok old_ok passed unchecked (serverEnv (Compact.proto {}) B) hA hB
    (fun _ _ n => (.other 1, n + 1) : Handler Nat) none
    (Compact.reads { stringLimit := some 20, containerLimit := some 20 }) (Compact.steadyProto _)
    (Compact.writes {}) (Compact.writes { stringLimit := some 20, containerLimit := some 20 })
    (Compact.reads { stringLimit := some 20, containerLimit := some 20 }) (Compact.steadyProto _)
    { write := fun b w => (.ok (), w ++ [b]), flush := fun w => (.ok (), w) } rfl
    { write := fun b w => (.ok (), w ++ [b]), flush := fun (w : List Bytes) => (.ok (), w) } .dyn 100
    (pyStr "Users") (pyStr "Users") f hf ho 0 (by decide) (by rw [hn]; decide) (by rw [hn]; simp [Within, utf8Len, utf8Width, pyStr]) [some (.int 7)]
    (by rw [hn]; simp only [WT]; rw [get_args numbering hA]; simp only [WTf, WT]; decide)
    (by simp [WithinLimits, Sizes, Sizesf]) (by decide) (by simp [serverEnv, size, sizef]) (by simp [NoDuplicates, NoDuplicatesf])

end Sample

/-! ### What the audit does not see -/

namespace Sample

/-- A program with `struct S { 1: ty x }` -/
def one (typedefs : List (PyStr × Written)) (enums : List Enum) (more : List (StructDecl Written)) (ty : Written) : Source :=
  { typedefs := typedefs, enums := enums, structs := { name := pyStr "S", fields := [{ id := some 1, ty := ty, name := pyStr "x" }] } :: more }

/-- What a reader with another type for the only field sees: nothing -/
theorem reads_nothing {A B : Schema} {i : Nat} {f g : Field} {v : Val} (hA : A i = [f]) (hB : B i = [g]) (ht : f.ty ≠ g.ty) (hd : g.dflt = none) :
    Reads A B (.struct i) (.struct [some v]) (.struct [none]) := by
  have hne : ∀ (x : Field) (w : Val), SetTo (A i) [some v] x w → ∀ (j : Nat) y, (B i)[j]? = some y → x.ty ≠ y.ty := by
    rintro x w ⟨j, h1, _⟩ l y h2
    rw [hA] at h1; rw [hB] at h2
    rw [List.mem_singleton.1 (List.mem_of_getElem? h1), List.mem_singleton.1 (List.mem_of_getElem? h2)]
    exact ht
  refine .struct _ _ _ (by rw [hB]; rfl) (fun j y x w h1 h2 _ h3 => absurd h3 (hne x w h2 j y h1)) (fun j y x w _ h1 h2 _ h3 => absurd h3 (hne x w h2 j y h1)) fun j y h1 _ => ?_
  rw [hB] at h1
  cases j with
  | zero => cases h1; rw [hd]; rfl
  | succ j => simp at h1

end Sample

/-- The full claim is false: the audit accepts a change from `string` to `uuid`, after which what the old program sends is dropped. -/
theorem uuid_unseen : ∃ new old, parse {} 9 (Sample.one [] [] [] (.base .uuid)) = some new ∧ parse {} 9 (Sample.one [] [] [] (.base .string)) = some old ∧ audit new old = [] ∧
    ∀ N, ∃ A B, old.generate N 9 = some A ∧ new.generate N 9 = some B ∧
      ∀ v, Reads A B (.struct (N.num (.type (pyStr "S")))) (.struct [some v]) (.struct [none]) := by
  refine ⟨_, _, rfl, rfl, by decide +kernel, fun N => ⟨_, _, if_pos rfl, if_pos rfl, fun v => ?_⟩⟩
  exact Sample.reads_nothing (f := { fid := 1, ty := .string }) (g := { fid := 1, ty := .uuid }) (by dsimp only; rw [N.ok]; rfl) (by dsimp only; rw [N.ok]; rfl) (by decide) rfl

/-- The same for a typedef that gets another type: the audit compares the names of types. -/
theorem typedef_unseen : ∃ new old, parse {} 9 (Sample.one [(pyStr "Id", .base .i64)] [] [] (.named (pyStr "Id"))) = some new ∧
    parse {} 9 (Sample.one [(pyStr "Id", .base .i32)] [] [] (.named (pyStr "Id"))) = some old ∧ audit new old = [] ∧
    ∀ N, ∃ A B, old.generate N 9 = some A ∧ new.generate N 9 = some B ∧
      ∀ v, Reads A B (.struct (N.num (.type (pyStr "S")))) (.struct [some v]) (.struct [none]) := by
  refine ⟨_, _, rfl, rfl, by decide +kernel, fun N => ⟨_, _, if_pos rfl, if_pos rfl, fun v => ?_⟩⟩
  exact Sample.reads_nothing (f := { fid := 1, ty := .i32 }) (g := { fid := 1, ty := .i64 }) (by dsimp only; rw [N.ok]; rfl) (by dsimp only; rw [N.ok]; rfl) (by decide) rfl

/-- The same for an enum that becomes a struct: that an enum is missing is only a warning. -/
theorem enum_unseen : ∃ new old, parse {} 9 (Sample.one [] [] [{ name := pyStr "Color", fields := [] }] (.named (pyStr "Color"))) = some new ∧
    parse {} 9 (Sample.one [] [{ name := pyStr "Color", values := [1, 2] }] [] (.named (pyStr "Color"))) = some old ∧ audit new old = [] ∧
    ∀ N, ∃ A B, old.generate N 9 = some A ∧ new.generate N 9 = some B ∧
      ∀ v, Reads A B (.struct (N.num (.type (pyStr "S")))) (.struct [some v]) (.struct [none]) := by
  refine ⟨_, _, rfl, rfl, by decide +kernel, fun N => ⟨_, _, if_pos rfl, if_pos rfl, fun v => ?_⟩⟩
  exact Sample.reads_nothing (f := { fid := 1, ty := .i32 }) (g := { fid := 1, ty := .struct (N.num (.type (pyStr "Color"))) }) (by dsimp only; rw [N.ok]; rfl)
    (by dsimp only; rw [N.ok]; rfl) (by simp) rfl

/-- On the other hand, the audit complains about changes that change nothing: a typedef in the place of its type. -/
theorem typedef_alarm : ∃ new old, parse {} 9 (Sample.one [(pyStr "Id", .base .i32)] [] [] (.named (pyStr "Id"))) = some new ∧
    parse {} 9 (Sample.one [] [] [] (.base .i32)) = some old ∧ audit new old = [.fieldType (pyStr "S") 1] ∧
    ∀ N, ∃ A B, old.generate N 9 = some A ∧ new.generate N 9 = some B ∧ A (N.num (.type (pyStr "S"))) = [{ fid := 1, ty := .i32 }] ∧
      B (N.num (.type (pyStr "S"))) = [{ fid := 1, ty := .i32 }] := by
  refine ⟨_, _, rfl, rfl, by decide +kernel, fun N => ⟨_, _, if_pos rfl, if_pos rfl, ?_, ?_⟩⟩ <;> (dsimp only; rw [N.ok]; rfl)

namespace Sample

/-- `exception Busy {}`, `service Store { void clear() throws (…) }` -/
def store (throws : List (Decl Written)) : Source :=
  { structs := [{ kind := .exception, name := pyStr "Busy", fields := [] }], services := [{ name := pyStr "Store", fns := [{ name := pyStr "clear", throws := throws }] }] }

theorem answers_one {B : Schema} {fn : Fn} {sid : Nat} (as : List (Option Val)) (hB : B fn.resultId = [{ fid := 1, ty := .struct sid }]) :
    Answers B fn (.declared sid as) 2 B fn.resultId (.struct [some (.struct as)]) := by
  have h := Answers.declared (sch := B) (fn := fn) sid as { fid := 1, ty := .struct sid } ⟨[], [], hB, by simp, rfl, by simp⟩
  rwa [hB] at h

end Sample

/-- The audit accepts an exception that is added to a function without result, although a client of the old program takes it for success. Nothing else did change. -/
theorem exception_unseen : ∃ new old, parse {} 9 (Sample.store [{ id := some 1, ty := .named (pyStr "Busy"), name := pyStr "busy" }]) = some new ∧
    parse {} 9 (Sample.store []) = some old ∧ audit new old = [] ∧ Unchecked new old ∧
    ∃ f g, Offers old (pyStr "Store") (pyStr "Store") f ∧ Offers new (pyStr "Store") (pyStr "Store") g ∧ f.name = g.name ∧
      ∀ N, ∃ A B, old.generate N 9 = some A ∧ new.generate N 9 = some B ∧
        Answers B (new.fn N 9 (pyStr "Store") g) (.declared (N.num (.type (pyStr "Busy"))) []) 2 B (N.num (.result (pyStr "Store") (pyStr "clear"))) (.struct [some (.struct [])]) ∧
        ToldAcross A B (old.fn N 9 (pyStr "Store") f) (new.fn N 9 (pyStr "Store") g) (.declared (N.num (.type (pyStr "Busy"))) []) (.returned none) := by
  refine ⟨_, _, rfl, rfl, by decide +kernel, unchecked_plain (by decide +kernel) (by decide +kernel) (by decide +kernel) (by decide +kernel), _, _,
    own_of_function (o := {}) (deep := 9) (src := Sample.store []) (b := pyStr "clear") rfl rfl,
    own_of_function (o := {}) (deep := 9) (src := Sample.store [{ id := some 1, ty := .named (pyStr "Busy"), name := pyStr "busy" }]) (b := pyStr "clear") rfl rfl, rfl,
    fun N => ⟨_, _, if_pos rfl, if_pos rfl, ?_, ?_⟩⟩
  · refine Sample.answers_one [] ?_
    dsimp only [Program.fn]; rw [N.ok]; rfl
  · exact .swallowed _ _ List.mem_cons_self (by simp [Program.fn, TStruct.each]) rfl

end Thrift.Audit
