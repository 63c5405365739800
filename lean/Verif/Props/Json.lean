import Verif.Proofs.JsonGood
import Verif.Proofs.Project
import Verif.Proofs.JsonSample
/-
Properties of `TJSONProtocol`: C06, and the JSON parts of C10, C13, C14, C16.
-/

namespace Thrift.Json
open Spec Spec.Json

mutual
theorem texts_true {p : Nat → Prop} (h : ∀ n, p n) : (x : J) → Texts p x
  | .num _ => h _
  | .str _ => h _
  | .arr xs => by simp only [Texts]; exact textsItems_true h xs
  | .obj xs => by simp only [Texts]; exact textsMembers_true h xs
theorem textsItems_true {p : Nat → Prop} (h : ∀ n, p n) : (xs : List J) → TextsItems p xs
  | [] => trivial
  | x :: xs => ⟨texts_true h x, textsItems_true h xs⟩
theorem textsMembers_true {p : Nat → Prop} (h : ∀ n, p n) : (xs : List (Bytes × J)) → TextsMembers p xs
  | [] => trivial
  | (_, x) :: xs => ⟨h _, texts_true h x, textsMembers_true h xs⟩
end

mutual
theorem doubles_true : (v : Val) → Doubles (fun _ => True) v
  | .bool _ | .int _ | .double _ | .str _ | .bin _ | .uuid _ => trivial
  | .list vs => by simp only [Doubles]; exact doubless_true vs
  | .set vs => by simp only [Doubles]; exact doubless_true vs
  | .map kvs => by simp only [Doubles]; exact doublesp_true kvs
  | .struct as => by simp only [Doubles]; exact doublesf_true as
theorem doubless_true : (vs : List Val) → Doubless (fun _ => True) vs
  | [] => trivial
  | v :: vs => ⟨doubles_true v, doubless_true vs⟩
theorem doublesp_true : (kvs : List (Val × Val)) → Doublesp (fun _ => True) kvs
  | [] => trivial
  | (a, b) :: kvs => ⟨doubles_true a, doubles_true b, doublesp_true kvs⟩
theorem doublesf_true : (as : List (Option Val)) → Doublesf (fun _ => True) as
  | [] => trivial
  | some v :: as => ⟨doubles_true v, doublesf_true as⟩
  | none :: as => by simp only [Doublesf]; exact doublesf_true as
end

mutual
theorem binaries_true : (v : Val) → BinariesAreText (fun _ => True) v
  | .bool _ | .int _ | .double _ | .str _ | .bin _ | .uuid _ => trivial
  | .list vs => by simp only [BinariesAreText]; exact binariess_true vs
  | .set vs => by simp only [BinariesAreText]; exact binariess_true vs
  | .map kvs => by simp only [BinariesAreText]; exact binariesp_true kvs
  | .struct as => by simp only [BinariesAreText]; exact binariesf_true as
theorem binariess_true : (vs : List Val) → BinariesAreTexts (fun _ => True) vs
  | [] => trivial
  | v :: vs => ⟨binaries_true v, binariess_true vs⟩
theorem binariesp_true : (kvs : List (Val × Val)) → BinariesAreTextp (fun _ => True) kvs
  | [] => trivial
  | (a, b) :: kvs => ⟨binaries_true a, binaries_true b, binariesp_true kvs⟩
theorem binariesf_true : (as : List (Option Val)) → BinariesAreTextf (fun _ => True) as
  | [] => trivial
  | some v :: as => ⟨binaries_true v, binariesf_true as⟩
  | none :: as => by simp only [BinariesAreTextf]; exact binariesf_true as
end

section
variable {p q : Val → Prop} (h : ∀ u, p u → q u) (sch₁ sch₂ : Schema)
include h
mutual
theorem unknowns_mono : (v : Val) → (t : Ty) → Unknowns p sch₁ sch₂ t v → Unknowns q sch₁ sch₂ t v := by
  intro v t hu
  cases v with
  | list vs =>
    cases t <;> simp only [Unknowns] at hu ⊢
    exact unknownss_mono vs _ hu
  | set vs =>
    cases t <;> simp only [Unknowns] at hu ⊢
    exact unknownss_mono vs _ hu
  | map kvs =>
    cases t <;> simp only [Unknowns] at hu ⊢
    exact unknownsp_mono kvs _ _ hu
  | struct as =>
    cases t <;> simp only [Unknowns] at hu ⊢
    exact unknownsf_mono as _ _ hu
  | _ => cases t <;> simp only [Unknowns]
theorem unknownss_mono : (vs : List Val) → (e : Ty) → Unknownss p sch₁ sch₂ e vs → Unknownss q sch₁ sch₂ e vs := by
  intro vs e hu
  cases vs with
  | nil => simp only [Unknownss]
  | cons v vs =>
    simp only [Unknownss] at hu ⊢
    exact ⟨unknowns_mono v e hu.1, unknownss_mono vs e hu.2⟩
theorem unknownsp_mono : (kvs : List (Val × Val)) → (k v : Ty) → Unknownsp p sch₁ sch₂ k v kvs →
    Unknownsp q sch₁ sch₂ k v kvs := by
  intro kvs k v hu
  match kvs with
  | [] => simp only [Unknownsp]
  | (a, b) :: kvs =>
    simp only [Unknownsp] at hu ⊢
    exact ⟨unknowns_mono a k hu.1, unknowns_mono b v hu.2.1, unknownsp_mono kvs k v hu.2.2⟩
theorem unknownsf_mono : (as : List (Option Val)) → (gs fs : List Field) → Unknownsf p sch₁ sch₂ gs fs as →
    Unknownsf q sch₁ sch₂ gs fs as := by
  intro as gs fs hu
  match as with
  | [] => cases fs <;> simp only [Unknownsf]
  | none :: as =>
    cases fs with
    | nil => simp only [Unknownsf]
    | cons f fs =>
      simp only [Unknownsf] at hu ⊢
      exact unknownsf_mono as gs fs hu
  | some v :: as =>
    cases fs with
    | nil => simp only [Unknownsf]
    | cons f fs =>
      simp only [Unknownsf] at hu ⊢
      refine ⟨?_, unknownsf_mono as gs fs hu.2⟩
      have := hu.1
      split
      · rename_i hk
        rw [if_pos hk] at this
        exact unknowns_mono v f.ty this
      · rename_i hk
        rw [if_neg hk] at this
        exact h v this
end
end

/-! ## Writing -/

theorem write_gen (py : Floats) (mode : Mode) (sch : Schema) (t : Ty) (v : Val) (s : St) (out : Bytes)
    (hs : SchemaOK mode sch) (hv : WT sch t v) (ha : ValueAt t s.stack)
    (hd : mode = .gen → s.depth + structDepth v ≤ 64) :
    writeVal (wr py) sch mode t v s out =
      (.ok (), { s with stack := bump s.stack }, out ++ (sep s.stack ++ value py.fmt17 sch t v)) := by
  have hg := good_value (py := py) (p := fun _ => True) (fd := fun _ => True) sch v t s.stack hv ha
  have hok := hg.ok (fit_value sch (fun sid => (hs sid).1) hv (texts_true (fun _ => trivial) _) (doubles_true v))
  obtain ⟨s', e, r, d⟩ := write_ok sch mode (writer_laws py _ _ s.hasData s.data) hs v t s _ hv hok
    (And.intro rfl (And.intro rfl rfl)) hd out
  rw [hg.enc] at e
  rw [hg.steps] at r
  obtain ⟨r1, r2, r3⟩ := r
  have : s' = { s with stack := bump s.stack } := by
    cases s; cases s'
    simp only [here, HasDepth.depth] at *
    subst r1; subst r2; subst r3; subst d
    rfl
  rw [← this]
  exact e

/-- C06, writing (and the basis of C09): at the outermost level, every well-typed value that is not a number
is written as its JSON document, and the protocol object is left as it was. -/
theorem json_wire_format (py : Floats) (mode : Mode) (sch : Schema) (t : Ty) (v : Val) (s : St) (out : Bytes)
    (hs : SchemaOK mode sch) (hv : WT sch t v) (ht : isNumber t = false) (h0 : s.stack = [.base])
    (hd : mode = .gen → s.depth + structDepth v ≤ 64) :
    writeVal (wr py) sch mode t v s out = (.ok (), s, out ++ value py.fmt17 sch t v) := by
  have h := write_gen py mode sch t v s out hs hv ⟨by rw [h0]; rfl, by simp [ht]⟩ hd
  rw [h, h0]
  have : ({ s with stack := bump [.base] } : St) = s := by
    cases s; simp only at h0; subst h0; rfl
  rw [this]
  rfl

example : writeVal (wr Sample.py) Sample.sch .gen (.struct 0) Sample.value {} [] =
    (.ok (), {}, value Sample.py.fmt17 Sample.sch (.struct 0) Sample.value) :=
  json_wire_format Sample.py .gen Sample.sch (.struct 0) Sample.value {} [] Sample.sch_ok Sample.value_wt rfl rfl
    (fun _ => by decide)

/-! ## Reading -/

theorem read_gen (py : Floats) (cfg : Cfg) (mode : Mode) (sch₁ sch₂ : Schema) (t : Ty) (v : Val) (s : St) (fuel : Nat)
    (hpy : Faithful py.fmt17 py.parse) (h1 : SchemaOK mode sch₁) (h2 : SchemaOK mode sch₂)
    (hc : Compatible sch₁ sch₂) (hv : WT sch₁ t v) (hfin : Doubles Finite v)
    (hl : Texts (fun n => Within cfg.stringLimit n ∧ n < fuel) (tree py.fmt17 sch₁ t v))
    (ha : ValueAt t s.stack) (h0 : s.hasData = false)
    (hd : mode = .gen → s.depth + structDepth v ≤ 64)
    (hu : Unknowns (fun u => nesting u ≤ 64 ∧ BinariesAreText (fun _ => True) u) sch₁ sch₂ t v) (hf : size v ≤ fuel) :
    ∃ s', Holds (readVal (rd py cfg fuel) sch₂ mode fuel t) s (sep s.stack ++ value py.fmt17 sch₁ t v)
      (project sch₁ sch₂ t v) s' ∧ s'.stack = bump s.stack ∧ s'.hasData = false ∧ s'.depth = s.depth := by
  have hg := good_value (py := py) (p := Fits cfg.stringLimit fuel) (fd := Finite) sch₁ v t s.stack hv ha
  have hok := hg.ok (fit_value sch₁ (fun sid => (h1 sid).1) hv hl hfin)
  obtain ⟨s', e, r, d⟩ := read_ok sch₁ sch₂ mode (reader_laws py cfg fuel hpy) h1 h2 hc v t fuel s _ hv hok
    (And.intro rfl h0) hf hd hu
  rw [hg.enc] at e
  rw [hg.steps] at r
  exact ⟨s', e, r.1, r.2, d⟩

theorem skip_gen (py : Floats) (cfg : Cfg) (sch : Schema) (t : Ty) (v : Val) (s : St) (fuel depth : Nat)
    (hpy : Faithful py.fmt17 py.parse) (hs : ∀ sid, FieldsOK (sch sid)) (hv : WT sch t v) (hfin : Doubles Finite v)
    (hl : Texts (fun n => Within cfg.stringLimit n ∧ n < fuel) (tree py.fmt17 sch t v))
    (ha : ValueAt t s.stack) (h0 : s.hasData = false) (hd : nesting v ≤ depth) (hf : size v ≤ fuel) :
    ∃ s', Holds (skip (rd py cfg fuel) fuel depth t.ttype) s (sep s.stack ++ value py.fmt17 sch t v) () s' ∧
      s'.stack = bump s.stack ∧ s'.hasData = false ∧ s'.depth = s.depth := by
  have hg := good_value (py := py) (p := Fits cfg.stringLimit fuel) (fd := Finite) sch v t s.stack hv ha
  have hok := hg.ok (fit_value sch hs hv hl hfin)
  obtain ⟨s', e, r, d⟩ := skip_ok sch (reader_laws py cfg fuel hpy) v t fuel depth s _ hv hok (And.intro rfl h0) hd hf
    (binaries_true v)
  rw [hg.enc] at e
  rw [hg.steps] at r
  exact ⟨s', e, r.1, r.2, d⟩

/-- From a decoding to a run over a transport, at the outermost level. -/
theorem Holds.run {α : Type} {m : P St α} {s s' : St} {b : Bytes} {a : α} (h : Holds m s b a s')
    (h0 : s.hasData = false) (hs : s'.stack = [.base]) (hh : s'.hasData = false) (hd : s'.depth = s.depth)
    {τ : Type} (step : Nat → τ → Option (Except Exc Bytes × τ)) (left : τ → Bytes) (hdel : DeliversUntil step left)
    (x : τ) (rest : Bytes) (hx : left x = b ++ rest) :
    ∃ d x', (m s).run step x = some ((.ok a, { s with stack := [.base], data := d }), x') ∧ left x' = rest := by
  have hf : Follow s' rest := by
    refine ⟨fun e => (by rw [hh] at e; cases e), ?_⟩
    rw [hs]
    intro e
    exact absurd rfl e
  obtain ⟨p', hp', st⟩ := h.2 rest false hf (fun _ => rfl)
  obtain ⟨t', x', e, r⟩ := st τ step left hdel s x
    ⟨rfl, rfl, h0, (fun e => by rw [h0] at e; cases e), by rw [h0]; simpa using hx⟩
  have hp : p' = false := hp' (by rw [hs]; rfl)
  have h1 : t'.stack = [.base] := r.stack.trans hs
  have h2 : t'.depth = s.depth := r.depth.trans hd
  have h3 : t'.hasData = false := r.peeked.trans hp
  have h4 := r.inp
  rw [h3] at h4
  refine ⟨t'.data, x', ?_, by simpa using h4⟩
  rw [e]
  have : t' = { s with stack := [.base], data := t'.data } := by
    cases t'; cases s
    simp only at h0 h1 h2 h3
    subst h1; subst h2; subst h3; subst h0
    rfl
  rw [← this]

theorem same_base {s : St} (h : s.stack = [.base]) (d : Bytes) :
    ({ s with stack := [.base], data := d } : St) = { s with data := d } := by
  cases s; simp only at h; subst h; rfl

/-- C06, reading: over every transport that delivers the document of a value and then anything, in pieces of
any size, reading it with the same schema returns the value and consumes exactly the document. All doubles
inside are finite, and no text inside the document is longer than the limit. -/
theorem json_roundtrip (py : Floats) (cfg : Cfg) (mode : Mode) (sch : Schema) (t : Ty) (v : Val) (s : St) (fuel : Nat)
    (hpy : Faithful py.fmt17 py.parse) (hs : SchemaOK mode sch) (hv : WT sch t v) (ht : isNumber t = false)
    (hn : NoHiddenDefault sch t v) (hq : NoDuplicates v) (hfin : Doubles Finite v)
    (hl : Texts (fun n => Within cfg.stringLimit n ∧ n < fuel) (tree py.fmt17 sch t v))
    (h0 : s.stack = [.base] ∧ s.hasData = false) (hd : mode = .gen → s.depth + structDepth v ≤ 64) (hf : size v ≤ fuel)
    {τ : Type} (step : Nat → τ → Option (Except Exc Bytes × τ)) (left : τ → Bytes) (hdel : DeliversUntil step left)
    (x : τ) (rest : Bytes) (hx : left x = value py.fmt17 sch t v ++ rest) :
    ∃ d x', (readVal (rd py cfg fuel) sch mode fuel t s).run step x = some ((.ok v, { s with data := d }), x') ∧
      left x' = rest := by
  obtain ⟨s', h, r1, r2, r3⟩ := read_gen py cfg mode sch sch t v s fuel hpy hs hs (compatible_self hs) hv hfin hl
    ⟨by rw [h0.1]; rfl, by simp [ht]⟩ h0.2 hd (Unknowns_self _ sch v t) hf
  rw [project_self sch (fun sid => (hs sid).1) v t hv hn hq] at h
  rw [h0.1] at h r1
  obtain ⟨d, x', e, r⟩ := h.run h0.2 r1 r2 r3 step left hdel x rest (by simpa [sep, advance, top] using hx)
  rw [same_base h0.1] at e
  exact ⟨d, x', e, r⟩

example : ∃ d x', (readVal (rd Sample.py { stringLimit := some 36 } 200) Sample.sch .gen 200 (.struct 0) {}).run bytewise
      (value Sample.py.fmt17 Sample.sch (.struct 0) Sample.value ++ [1, 2, 3]) =
        some ((.ok Sample.value, { data := d }), x') ∧ id x' = [1, 2, 3] :=
  json_roundtrip Sample.py { stringLimit := some 36 } .gen Sample.sch (.struct 0) Sample.value {} 200
    Sample.py_faithful Sample.sch_ok Sample.value_wt rfl Sample.value_noHidden Sample.value_noDup Sample.value_finite
    Sample.value_texts ⟨rfl, rfl⟩ (fun _ => by decide) Sample.value_size bytewise id bytewise_delivers.until _ _ rfl

/-- C14, JSON: reading with any compatible schema what was written with another one yields the projection.
The unknown fields are nested at most 64 levels. -/
theorem json_schema_evolution (py : Floats) (cfg : Cfg) (mode : Mode) (sch₁ sch₂ : Schema) (t : Ty) (v : Val) (s : St)
    (fuel : Nat) (hpy : Faithful py.fmt17 py.parse) (h1 : SchemaOK mode sch₁) (h2 : SchemaOK mode sch₂)
    (hc : Compatible sch₁ sch₂) (hv : WT sch₁ t v) (ht : isNumber t = false) (hfin : Doubles Finite v)
    (hl : Texts (fun n => Within cfg.stringLimit n ∧ n < fuel) (tree py.fmt17 sch₁ t v))
    (h0 : s.stack = [.base] ∧ s.hasData = false) (hd : mode = .gen → s.depth + structDepth v ≤ 64)
    (hu : Unknowns (fun u => nesting u ≤ 64) sch₁ sch₂ t v) (hf : size v ≤ fuel)
    {τ : Type} (step : Nat → τ → Option (Except Exc Bytes × τ)) (left : τ → Bytes) (hdel : DeliversUntil step left)
    (x : τ) (rest : Bytes) (hx : left x = value py.fmt17 sch₁ t v ++ rest) :
    ∃ d x', (readVal (rd py cfg fuel) sch₂ mode fuel t s).run step x =
        some ((.ok (project sch₁ sch₂ t v), { s with data := d }), x') ∧ left x' = rest := by
  obtain ⟨s', h, r1, r2, r3⟩ := read_gen py cfg mode sch₁ sch₂ t v s fuel hpy h1 h2 hc hv hfin hl
    ⟨by rw [h0.1]; rfl, by simp [ht]⟩ h0.2 hd (unknowns_mono (fun u h => ⟨h, binaries_true u⟩) sch₁ sch₂ v t hu) hf
  rw [h0.1] at h r1
  obtain ⟨d, x', e, r⟩ := h.run h0.2 r1 r2 r3 step left hdel x rest (by simpa [sep, advance, top] using hx)
  rw [same_base h0.1] at e
  exact ⟨d, x', e, r⟩

example : ∃ d x', (readVal (rd Sample.py {} 200) Sample.older .gen 200 (.struct 0) {}).run bytewise
      (value Sample.py.fmt17 Sample.sch (.struct 0) Sample.value ++ [1, 2, 3]) =
        some ((.ok Sample.valueOlder, { data := d }), x') ∧ id x' = [1, 2, 3] := by
  rw [← Sample.project_eq]
  exact json_schema_evolution Sample.py {} .gen Sample.sch Sample.older (.struct 0) Sample.value {} 200
    Sample.py_faithful Sample.sch_ok Sample.older_ok Sample.compatible Sample.value_wt rfl Sample.value_finite
    (by decide +kernel) ⟨rfl, rfl⟩ (fun _ => by decide) Sample.unknowns Sample.value_size bytewise id
    bytewise_delivers.until _ _ rfl

/-- C13, JSON: `skip` consumes exactly the document of a value. -/
theorem json_skip (py : Floats) (cfg : Cfg) (sch : Schema) (t : Ty) (v : Val) (s : St) (fuel depth : Nat)
    (hpy : Faithful py.fmt17 py.parse) (hs : ∀ sid, FieldsOK (sch sid)) (hv : WT sch t v) (ht : isNumber t = false)
    (hfin : Doubles Finite v)
    (hl : Texts (fun n => Within cfg.stringLimit n ∧ n < fuel) (tree py.fmt17 sch t v))
    (h0 : s.stack = [.base] ∧ s.hasData = false) (hd : nesting v ≤ depth) (hf : size v ≤ fuel)
    {τ : Type} (step : Nat → τ → Option (Except Exc Bytes × τ)) (left : τ → Bytes) (hdel : DeliversUntil step left)
    (x : τ) (rest : Bytes) (hx : left x = value py.fmt17 sch t v ++ rest) :
    ∃ d x', (skip (rd py cfg fuel) fuel depth t.ttype s).run step x = some ((.ok (), { s with data := d }), x') ∧
      left x' = rest := by
  obtain ⟨s', h, r1, r2, r3⟩ := skip_gen py cfg sch t v s fuel depth hpy hs hv hfin hl
    ⟨by rw [h0.1]; rfl, by simp [ht]⟩ h0.2 hd hf
  rw [h0.1] at h r1
  obtain ⟨d, x', e, r⟩ := h.run h0.2 r1 r2 r3 step left hdel x rest (by simpa [sep, advance, top] using hx)
  rw [same_base h0.1] at e
  exact ⟨d, x', e, r⟩

example : ∃ d x', (skip (rd Sample.py {} 200) 200 64 (Ty.struct 0).ttype {}).run bytewise
      (value Sample.py.fmt17 Sample.sch (.struct 0) Sample.value ++ [1, 2, 3]) =
        some ((.ok (), { data := d }), x') ∧ id x' = [1, 2, 3] :=
  json_skip Sample.py {} Sample.sch (.struct 0) Sample.value {} 200 64
    Sample.py_faithful (fun sid => (Sample.sch_ok sid).1) Sample.value_wt rfl Sample.value_finite
    (by decide +kernel) ⟨rfl, rfl⟩ Sample.value_nesting Sample.value_size bytewise id
    bytewise_delivers.until _ _ rfl

/-! ## Messages -/

/-- C10, JSON, writing: a whole message is one JSON document. -/
theorem json_message_write (py : Floats) (mode : Mode) (sch : Schema) (sid : Nat) (v : Val) (name : PyStr)
    (type seqid : Int) (s : St) (out : Bytes) (hn : ∀ c ∈ name, Scalar c) (hs : SchemaOK mode sch)
    (hv : WT sch (.struct sid) v) (hd : mode = .gen → s.depth + structDepth v ≤ 64) :
    (do
      writeMessageBegin name type seqid
      writeVal (wr py) sch mode (.struct sid) v
      writeMessageEnd) s out =
      (.ok (), { s with stack := [.base] },
        out ++ render (message name type seqid (tree py.fmt17 sch (.struct sid) v))) := by
  have h1 : writeMessageBegin name type seqid s out = (.ok (), { s with stack := [.list false, .base] },
      out ++ (91 :: (ascii "1" ++ (44 :: (quoted (escaped name) ++ (44 :: (decimal type ++ (44 :: decimal seqid)))))))) := by
    unfold writeMessageBegin writeInt
    simp only [W.bind_eq, W.modify_eq, writeJSONArrayStart_eq, writeJSONNumber_eq, writeJSONString_eq hn, resetWrite]
    rw [show ascii "1" = decimal 1 by decide +kernel]
    simp [primStep, primBytes, bump, setTop, advance, sep, top, escapeNum, intDigits_eq]
  have h2 := write_gen py mode sch (.struct sid) v { s with stack := [.list false, .base] }
    (out ++ (91 :: (ascii "1" ++ (44 :: (quoted (escaped name) ++ (44 :: (decimal type ++ (44 :: decimal seqid))))))))
    hs hv ⟨rfl, fun h => by cases h⟩ hd
  simp only [W.bind_eq, h1, h2]
  have h3 := fun out => writeJSONArrayEnd_eq (s := { s with stack := bump [.list false, .base] }) (by simp [bump, setTop]) out
  unfold writeMessageEnd
  rw [h3]
  simp [primStep, primBytes, bump, setTop, advance, sep, top, message, render, renderItems, value]

example : (do
      writeMessageBegin [0x70, 0x69, 0x6E, 0x67] 1 (-3)
      writeVal (wr Sample.py) Sample.sch .gen (.struct 0) Sample.value
      writeMessageEnd : W St Unit) {} [] =
    (.ok (), {}, render (message [0x70, 0x69, 0x6E, 0x67] 1 (-3)
      (tree Sample.py.fmt17 Sample.sch (.struct 0) Sample.value))) :=
  json_message_write Sample.py .gen Sample.sch 0 Sample.value _ 1 (-3) {} [] (by decide) Sample.sch_ok Sample.value_wt
    (fun _ => by decide)

/-- C10, JSON, reading: a whole message that arrives in pieces of any size is read back, with its name, type,
sequence id and struct, and exactly its document is consumed. -/
theorem json_message_read (py : Floats) (cfg : Cfg) (mode : Mode) (sch : Schema) (sid : Nat) (v : Val) (name : PyStr)
    (type seqid : Int) (s : St) (fuel : Nat) (hpy : Faithful py.fmt17 py.parse) (hname : ∀ c ∈ name, Scalar c)
    (hs : SchemaOK mode sch) (hv : WT sch (.struct sid) v) (hn : NoHiddenDefault sch (.struct sid) v)
    (hq : NoDuplicates v) (hfin : Doubles Finite v)
    (hl : Texts (fun n => Within cfg.stringLimit n ∧ n < fuel)
      (message name type seqid (tree py.fmt17 sch (.struct sid) v)))
    (h0 : s.hasData = false) (hd : mode = .gen → s.depth + structDepth v ≤ 64) (hf : size v ≤ fuel)
    {τ : Type} (step : Nat → τ → Option (Except Exc Bytes × τ)) (left : τ → Bytes) (hdel : DeliversUntil step left)
    (x : τ) (rest : Bytes)
    (hx : left x = render (message name type seqid (tree py.fmt17 sch (.struct sid) v)) ++ rest) :
    ∃ d x', ((do
        let header ← readMessageBegin cfg fuel
        let body ← readVal (rd py cfg fuel) sch mode fuel (.struct sid)
        readMessageEnd
        pure (header, body) : P St ((PyStr × Int × Int) × Val)) s).run step x =
      some ((.ok ((name, type, seqid), v), { s with stack := [.base], data := d }), x') ∧ left x' = rest := by
  simp only [message, Texts, TextsItems] at hl
  obtain ⟨l1, l2, l3, l4, l5, -⟩ := hl
  rw [show ascii "1" = intDigits 1 by decide +kernel] at l1
  rw [← intDigits_eq] at l3 l4
  let s0 : St := { s with stack := [.base], data := [] }
  let s1 := after s0 (.opn 91 (.list true))
  let s2 := after s1 (.num (intDigits 1))
  let s3 := after s2 (.str name)
  let s4 := after s3 (.num (intDigits type))
  let s5 := after s4 (.num (intDigits seqid))
  have hbegin : Holds (do
      readJSONArrayStart
      let version ← readJSONInteger cfg fuel
      if version ≠ 1 then P.raise TProtocolException.BAD_VERSION
      else
        let name ← readJSONString cfg fuel
        let type ← readJSONInteger cfg fuel
        let seqid ← readJSONInteger cfg fuel
        pure (name, type, seqid) : P St (PyStr × Int × Int)) s0
      (primBytes s0.stack (.opn 91 (.list true)) ++ (primBytes s1.stack (.num (intDigits 1)) ++
        (primBytes s2.stack (.str name) ++ (primBytes s3.stack (.num (intDigits type)) ++
          primBytes s4.stack (.num (intDigits seqid)))))) (name, type, seqid) s5 := by
    refine Holds.bind (holds_arrayStart h0) ?_
    refine Holds.bind (holds_int cfg fuel rfl (by simp [s1, s0, after, primStep, top]) 1 l1) ?_
    rw [if_neg (by simp)]
    refine Holds.bind (holds_str cfg fuel rfl name hname l2) ?_
    refine Holds.bind (holds_int cfg fuel rfl (by simp [s3, s2, s1, s0, after, primStep, top, bump, setTop, advance]) type l3) ?_
    exact Holds.map (holds_int cfg fuel rfl
      (by simp [s4, s3, s2, s1, s0, after, primStep, top, bump, setTop, advance]) seqid l4) rfl
  have hstk : s5.stack = [.list false, .base] := rfl
  obtain ⟨s6, h6, r1, r2, r3⟩ := read_gen py cfg mode sch sch (.struct sid) v s5 fuel hpy hs hs (compatible_self hs) hv
    hfin l5 ⟨rfl, fun h => by cases h⟩ rfl hd (Unknowns_self _ sch v _) hf
  rw [project_self sch (fun sid => (hs sid).1) v _ hv hn hq] at h6
  have hstk6 : s6.stack = [.list false, .base] := r1
  have hend := holds_arrayEnd (s := s6) (by rw [hstk6]; simp) r2
  have hall := Holds.bind (k := fun header => (do
      let body ← readVal (rd py cfg fuel) sch mode fuel (.struct sid)
      readMessageEnd
      pure (header, body) : P St ((PyStr × Int × Int) × Val))) hbegin (Holds.bind h6 (Holds.map (c := ((name, type, seqid), v)) hend rfl))
  have hx0 : left x = _ ++ rest := hx
  obtain ⟨d, x', e, r⟩ := hall.run h0 (by simp [after, primStep, hstk6]) rfl r3 step left hdel x rest (by
    rw [hx, hstk6, hstk]
    simp only [message, render, renderItems]
    rw [show ascii "1" = intDigits 1 by decide +kernel]
    simp [s4, s3, s2, s1, s0, primStep, primBytes, bump, setTop, advance, sep, top, escapeNum, intDigits_eq, after,
      value])
  refine ⟨d, x', ?_, r⟩
  have hstart : resetRead s = s0 := by simp only [resetRead, s0, h0]
  rw [show ({ s with stack := [.base], data := d } : St) = { s0 with stack := [.base], data := d } from rfl, ← e, ← hstart]
  rfl

example : ∃ d x', ((do
      let header ← readMessageBegin { stringLimit := some 36 } 200
      let body ← readVal (rd Sample.py { stringLimit := some 36 } 200) Sample.sch .gen 200 (.struct 0)
      readMessageEnd
      pure (header, body) : P St ((PyStr × Int × Int) × Val)) {}).run bytewise
        (render (message [0x70, 0x69, 0x6E, 0x67] 1 (-3) (tree Sample.py.fmt17 Sample.sch (.struct 0) Sample.value)) ++ [7]) =
      some ((.ok (([0x70, 0x69, 0x6E, 0x67], 1, -3), Sample.value), { data := d }), x') ∧ id x' = [7] :=
  json_message_read Sample.py { stringLimit := some 36 } .gen Sample.sch 0 Sample.value [0x70, 0x69, 0x6E, 0x67] 1 (-3) {}
    200 Sample.py_faithful (by decide) Sample.sch_ok Sample.value_wt Sample.value_noHidden Sample.value_noDup
    Sample.value_finite Sample.message_texts rfl (fun _ => by decide) Sample.value_size bytewise id
    bytewise_delivers.until _ _ rfl

end Thrift.Json
