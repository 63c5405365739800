import Verif.Proofs.Structs
import Verif.Props.Calls
/-
Property C85: declarations of structs and functions mean what they say.
-/

namespace Thrift.Structs
open Rpc Spec Spec.Structs

/-! ## An example

  exception Missing { 1: string why }
  union Key { 2: i32 number, 1: required string text = "x" }
  service Store {
    string get(2: string hint, 1: i32 key) throws (1: Missing m)
    oneway void log(1: i32 key)
  }
-/

namespace Sample

def missing : StructDecl := { kind := .exception, name := pyStr "Missing", fields := [{ id := some 1, ty := .string, name := pyStr "why" }] }

def key : StructDecl :=
  { kind := .union, name := pyStr "Key"
    fields := [{ id := some 2, ty := .i32, name := pyStr "number" }, { id := some 1, req := .required, ty := .string, name := pyStr "text", value := some (.str (pyStr "x")) }] }

def get : FnDecl :=
  { returns := some .string, name := pyStr "get"
    args := [{ id := some 2, ty := .string, name := pyStr "hint" }, { id := some 1, ty := .i32, name := pyStr "key" }]
    throws := [{ id := some 1, ty := .struct 0, name := pyStr "m" }] }

def log : FnDecl := { oneway := true, name := pyStr "log", args := [{ id := some 1, ty := .i32, name := pyStr "key" }] }

def program : Program := { structs := [missing, key], fns := [get, log] }

theorem program_ok : ProgramOK program where
  structs := by
    intro d hd
    simp only [program, List.mem_cons, List.not_mem_nil, or_false] at hd
    rcases hd with rfl | rfl <;> simp [Explicit, missing, key]
  args := by
    intro d hd
    simp only [program, List.mem_cons, List.not_mem_nil, or_false] at hd
    rcases hd with rfl | rfl <;> simp [Explicit, get, log]
  throws := by
    intro d hd
    simp only [program, List.mem_cons, List.not_mem_nil, or_false] at hd
    rcases hd with rfl | rfl
    · exact ⟨by simp [Explicit, get], by simp [get], by simp [get, pyStr]⟩
    · exact ⟨by simp [Explicit, log], by simp [log], by simp [log]⟩

theorem accepted {o : Options} (ho : o.allowNeg = false) : FieldsAccepted o key.fields where
  strict := by
    intro _ d hd h
    rw [ho] at h
    simp only [key, List.mem_cons, List.not_mem_nil, or_false] at hd
    rcases hd with rfl | rfl
    · exact absurd (h 2 rfl).1 (by decide)
    · exact absurd (h 1 rfl).1 (by decide)
  dots := by simp [key, NoDot, pyStr]
  names := by simp [key, pyStr]
  numbers := by
    rintro ⟨a, d, b, e, c, h, hm⟩
    match a, b, c with
    | [], [], [] =>
      simp only [key, List.nil_append, List.cons_append, List.cons.injEq, and_true] at h
      obtain ⟨rfl, rfl⟩ := h
      simp [number] at hm
    | [], [], _ :: _ => simp [key] at h
    | [], _ :: b, c => have := congrArg List.length h; simp [key] at this
    | _ :: a, b, c => have := congrArg List.length h; simp [key] at this; omega

end Sample

/-! ## Which declarations are accepted -/

/-- A struct, union or exception is accepted if and only if no name has a dot, no two fields have the same name or (as 32-bit numbers) the same number, at most one field of a union
has a default, and, with `-strict`, no number was left to the compiler. -/
theorem struct_accepted (o : Options) (d : StructDecl) :
    (∃ s, struct o d = .ok s) ↔
      FieldsAccepted o d.fields ∧ NoDot d.name ∧ (d.kind = .union → (d.fields.filter (·.value.isSome)).length ≤ 1) := by
  rcases struct_cases o d with ⟨e, h, hn⟩ | ⟨s, h, _, ha⟩
  · constructor
    · rintro ⟨s, h'⟩; rw [h] at h'; cases h'
    · intro h'; exact absurd h' hn
  · exact ⟨fun _ => ha, fun _ => ⟨s, h⟩⟩

example : ∃ s, struct { strict := 255 } Sample.key = .ok s :=
  (struct_accepted _ _).2 ⟨Sample.accepted rfl, by simp [Sample.key, NoDot, pyStr], fun _ => by simp [Sample.key]⟩

/-- A function is accepted if and only if its arguments and its exceptions would be accepted as fields of structs, its name has no dot, what it throws are exceptions, and it
throws nothing if it is oneway. -/
theorem function_accepted (o : Options) (isExc : Ty → Bool) (d : FnDecl) :
    (∃ f, function o isExc d = .ok f) ↔
      FieldsAccepted o d.args ∧ FieldsAccepted o d.throws ∧ NoDot d.name ∧ (∀ x ∈ d.throws, isExc x.ty = true) ∧ (d.oneway = true → d.throws = []) := by
  rcases function_cases o isExc d with ⟨e, h, hn⟩ | ⟨s, h, _, _, _, _, _, ha⟩
  · constructor
    · rintro ⟨s, h'⟩; rw [h] at h'; cases h'
    · intro h'; exact absurd h' hn
  · exact ⟨fun _ => ha, fun _ => ⟨s, h⟩⟩

theorem compile_accepted (o : Options) (p : Program) :
    (∃ g, compile o p = .ok g) ↔
      (∀ d ∈ p.structs, ∃ s, struct o d = .ok s) ∧ (∀ d ∈ p.fns, ∃ f, function o p.isExc d = .ok f) ∧ (p.fns.map (·.name)).Nodup := by
  unfold compile
  constructor
  · rintro ⟨g, e⟩
    cases es : structs o p.structs with
    | error x => rw [es] at e; cases e
    | ok ss =>
      rw [es] at e; dsimp only at e
      cases ef : functions o p.isExc p.fns [] with
      | error x => rw [ef] at e; cases e
      | ok fs =>
        obtain ⟨gs, h1, h2, h3, h4⟩ := functions_ok ef (by simp)
        rw [List.nil_append] at h1; subst h1
        refine ⟨fun d hd => ?_, fun d hd => ?_, ?_⟩
        · obtain ⟨i, hi⟩ := List.mem_iff_getElem?.1 hd
          obtain ⟨s, _, h⟩ := (structs_ok es).2 i d hi
          exact ⟨s, h⟩
        · obtain ⟨i, hi⟩ := List.mem_iff_getElem?.1 hd
          obtain ⟨f, _, h⟩ := h3 i d hi
          exact ⟨f, h⟩
        · have : p.fns.map (·.name) = fs.map (·.name) := by
            refine List.ext_getElem? fun i => ?_
            rw [List.getElem?_map, List.getElem?_map]
            cases hd : p.fns[i]? with
            | none =>
              rw [List.getElem?_eq_none_iff] at hd
              rw [List.getElem?_eq_none (by omega)]; rfl
            | some d =>
              obtain ⟨f, hf, hfd⟩ := h3 i d hd
              rw [hf]
              rcases function_cases o p.isExc d with ⟨e, he, _⟩ | ⟨g, hg, _, _, h3, _⟩
              · rw [hfd] at he; cases he
              · rw [hfd] at hg; cases hg; simp [h3]
          rw [this]; exact h4
  · rintro ⟨h1, h2, h3⟩
    obtain ⟨ss, es⟩ := structs_accepts h1
    obtain ⟨fs, ef⟩ := functions_accepts (acc := []) h2 (by simpa using h3)
    rw [es]; dsimp only; rw [ef]; exact ⟨_, rfl⟩

/-! ## The numbers of the fields -/

theorem isExc_iff (p : Program) (t : Ty) : p.isExc t = true ↔ ∃ sid d, t = .struct sid ∧ p.structs[sid]? = some d ∧ d.kind = .exception := by
  cases t with
  | struct sid =>
    unfold Program.isExc
    cases h : p.structs[sid]? with
    | none => simp [h]
    | some d => simp [h]
  | _ => simp [Program.isExc]

/-- A program is accepted if and only if its structs and functions are, what the functions throw are exceptions of the program, and no two functions have the same name. -/
theorem program_accepted (o : Options) (p : Program) :
    (∃ g, compile o p = .ok g) ↔
      (∀ d ∈ p.structs, ∃ s, struct o d = .ok s) ∧
      (∀ d ∈ p.fns, FieldsAccepted o d.args ∧ FieldsAccepted o d.throws ∧ NoDot d.name ∧
        (∀ x ∈ d.throws, ∃ sid e, x.ty = .struct sid ∧ p.structs[sid]? = some e ∧ e.kind = .exception) ∧ (d.oneway = true → d.throws = [])) ∧ (p.fns.map (·.name)).Nodup := by
  rw [compile_accepted]
  simp only [function_accepted, isExc_iff]

/-- An accepted struct has the declared fields, in the order of declaration and in the order of their numbers. Fields of unions are optional. -/
theorem struct_made {o : Options} {d : StructDecl} {s : TStruct} (h : struct o d = .ok s) :
    Made o.allowNeg (if d.kind = .union then fun _ => .optional else id) d.fields s := by
  rcases struct_cases o d with ⟨e, h', _⟩ | ⟨s', h', hm, _⟩
  · rw [h] at h'; cases h'
  · rw [h] at h'; cases h'; exact hm

/-- A number that is written is the number of the field (if it is a positive 32-bit number), whatever the other fields are. -/
theorem written_number {o : Options} {d : StructDecl} {s : TStruct} (h : struct o d = .ok s) (a b : List Decl) (x : Decl) (hd : d.fields = a ++ x :: b) (n : Int)
    (hx : x.id = some n) (hn : 0 < n ∧ n < 2 ^ 31) : ∃ m, s.members[a.length]? = some m ∧ m.name = x.name ∧ m.ty = x.ty ∧ m.value = x.value ∧ m.key = n := by
  obtain ⟨m, h1, h2, _⟩ := (struct_made h).each a x b hd
  have hk := h2.key
  rw [number_written hx hn.1] at hk
  exact ⟨m, h1, h2.name, h2.type, h2.value, wraps_eq hk (by unfold InRange; simp; omega)⟩

/-- Fields without a (valid) number are numbered -1, -2, … -/
theorem counted_number {o : Options} (ho : o.allowNeg = false) {d : StructDecl} {s : TStruct} (h : struct o d = .ok s) (a b : List Decl) (x : Decl)
    (hd : d.fields = a ++ x :: b) (hx : implicit x = true) (hl : a.length < 2 ^ 31) :
    ∃ m, s.members[a.length]? = some m ∧ m.name = x.name ∧ m.ty = x.ty ∧ m.value = x.value ∧ m.key = -(a.countP implicit : Int) - 1 := by
  obtain ⟨m, h1, h2, _⟩ := (struct_made h).each a x b hd
  have hk := h2.key
  rw [ho, number_counted hx] at hk
  have := List.countP_le_length (p := implicit) (l := a)
  exact ⟨m, h1, h2.name, h2.type, h2.value, wraps_eq hk (by unfold InRange; simp; omega)⟩

example : struct {} Sample.key = .ok
    { members := [⟨2, .optional, .i32, pyStr "number", none⟩, ⟨1, .optional, .string, pyStr "text", some (.str (pyStr "x"))⟩]
      sorted := [⟨1, .optional, .string, pyStr "text", some (.str (pyStr "x"))⟩, ⟨2, .optional, .i32, pyStr "number", none⟩] } := rfl

/-- With `-allow-neg-keys`, every number that is written is the number of the field. -/
theorem allowed_number {o : Options} (ho : o.allowNeg = true) {d : StructDecl} {s : TStruct} (h : struct o d = .ok s) (a b : List Decl) (x : Decl) (hd : d.fields = a ++ x :: b)
    (n : Int) (hx : x.id = some n) (hn : InRange 32 n) : ∃ m, s.members[a.length]? = some m ∧ m.name = x.name ∧ m.key = n := by
  obtain ⟨m, h1, h2, _⟩ := (struct_made h).each a x b hd
  have hk := h2.key
  rw [ho, show number true a x = n by unfold number; rw [hx]; simp] at hk
  exact ⟨m, h1, h2.name, wraps_eq hk hn⟩

/-- If the numbers are 16-bit numbers, the fields of the struct are such as the theorems about protocols require. -/
theorem struct_fieldsOK {o : Options} {d : StructDecl} {s : TStruct} (h : struct o d = .ok s)
    (hr : ∀ a x b, d.fields = a ++ x :: b → InRange 16 (number o.allowNeg a x)) : FieldsOK s.schema := (struct_made h).fieldsOK hr

example : ∃ s, struct {} Sample.key = .ok s ∧ FieldsOK s.schema :=
  ⟨_, rfl, ((struct_made (o := {}) (d := Sample.key) rfl).positive (by simp [Explicit, Sample.key])).1⟩

/-- The order of the declarations of fields whose numbers are written does not matter to what is sent. -/
theorem order_free {o : Options} {d d' : StructDecl} {s s' : TStruct} (hk : d'.kind = d.kind) (hp : d'.fields.Perm d.fields)
    (he : ∀ x ∈ d.fields, ∃ n, x.id = some n ∧ 0 < n) (h : struct o d = .ok s) (h' : struct o d' = .ok s') : s'.schema = s.schema := by
  have key : ∀ (d : StructDecl) (s : TStruct), (∀ x ∈ d.fields, ∃ n, x.id = some n ∧ 0 < n) → struct o d = .ok s →
      ∃ f : Member → Member, (f = if d.kind = .union then fun m => { m with req := .optional } else id) ∧
      s.members = (d.fields.map fun d => { key := int32 (d.id.getD 0), req := d.req, ty := d.ty, name := d.name, value := d.value }).map f := by
    intro d s he h
    refine ⟨_, rfl, ?_⟩
    unfold struct at h
    cases e : fields o d.fields with
    | error x => rw [e] at h; cases h
    | ok t =>
      have hb := (fieldList_ok inv_empty e).1
      rw [List.nil_append, built_explicit he] at hb
      rw [e] at h; dsimp only at h
      split at h
      · cases h
      · split at h
        · rename_i hu
          split at h
          · cases h
          · cases h
            rw [if_pos hu]
            show t.members.map _ = _
            rw [hb]
        · rename_i hu
          cases h
          rw [if_neg hu, hb, List.map_id]
  obtain ⟨f, hf, h1⟩ := key d s he h
  obtain ⟨f', hf', h2⟩ := key d' s' (fun x hx => he x (hp.mem_iff.1 hx)) h'
  have hff : f' = f := by rw [hf, hf', hk]
  have hperm : s'.members.Perm s.members := by rw [h1, h2, hff]; exact (hp.map _).map _
  have hs : s'.sorted = s.sorted :=
    sorted_eq (struct_made h').ordered (struct_made h).ordered (((struct_made h').same.trans hperm).trans (struct_made h).same.symm)
  unfold TStruct.schema
  rw [hs]

example : ∃ s s', struct {} Sample.key = .ok s ∧ struct {} { Sample.key with fields := Sample.key.fields.reverse } = .ok s' ∧ s'.schema = s.schema :=
  ⟨_, _, rfl, rfl, order_free (o := {}) (d := Sample.key) (d' := { Sample.key with fields := Sample.key.fields.reverse }) rfl (List.reverse_perm _) (by simp [Sample.key]) rfl rfl⟩

/-- A field whose number is written can be added anywhere, or removed, without a change of the other fields. -/
theorem insert_free {o : Options} {d d' : StructDecl} {s s' : TStruct} (a b : List Decl) (x : Decl) (n : Int) (hx : x.id = some n) (hn : 0 < n) (hk : d'.kind = d.kind)
    (hd : d.fields = a ++ b) (hd' : d'.fields = a ++ x :: b) (h : struct o d = .ok s) (h' : struct o d' = .ok s') :
    ∃ l₁ m l₂, s.members = l₁ ++ l₂ ∧ s'.members = l₁ ++ m :: l₂ ∧ l₁.length = a.length ∧ m.name = x.name := by
  have key : ∀ (d : StructDecl) (s : TStruct), struct o d = .ok s →
      s.members = (built o.allowNeg (-1) d.fields).map (if d.kind = .union then fun m => { m with req := .optional } else id) := by
    intro d s h
    unfold struct at h
    cases e : fields o d.fields with
    | error x => rw [e] at h; cases h
    | ok t =>
      have hb := (fieldList_ok inv_empty e).1
      rw [List.nil_append] at hb
      rw [e] at h; dsimp only at h
      split at h
      · cases h
      · split at h
        · rename_i hu
          split at h
          · cases h
          · cases h
            rw [if_pos hu]
            show t.members.map _ = _
            rw [hb]
        · rename_i hu
          cases h
          rw [if_neg hu, hb, List.map_id]
  obtain ⟨l₁, l₂, h1, h2, h3⟩ := built_insert (neg := o.allowNeg) a b x n hx hn (-1)
  have e1 := key d s h
  have e2 := key d' s' h'
  rw [hd, h1, List.map_append] at e1
  rw [hd', hk, h3, List.map_append, List.map_cons] at e2
  refine ⟨_, _, _, e1, e2, by rw [List.length_map, h2], ?_⟩
  split <;> rfl

example : ∃ s s', struct {} { Sample.key with fields := [{ id := none, ty := Ty.i32, name := pyStr "number" }] } = .ok s ∧
    struct {} { Sample.key with fields := [{ id := some 7, ty := Ty.bool, name := pyStr "new" }, { id := none, ty := Ty.i32, name := pyStr "number" }] } = .ok s' ∧
    ∃ l₁ m l₂, s.members = l₁ ++ l₂ ∧ s'.members = l₁ ++ m :: l₂ ∧ l₁.length = 0 ∧ m.name = pyStr "new" :=
  ⟨_, _, rfl, rfl, insert_free (o := {})
    (d := { Sample.key with fields := [{ id := none, ty := Ty.i32, name := pyStr "number" }] })
    (d' := { Sample.key with fields := [{ id := some 7, ty := Ty.bool, name := pyStr "new" }, { id := none, ty := Ty.i32, name := pyStr "number" }] })
    [] [{ id := none, ty := Ty.i32, name := pyStr "number" }] { id := some 7, ty := Ty.bool, name := pyStr "new" } 7 rfl (by decide) rfl rfl rfl rfl rfl⟩

/-! ## Programs -/

/-- An accepted function -/
theorem function_made {o : Options} {isExc : Ty → Bool} {d : FnDecl} {f : Function} (h : function o isExc d = .ok f) :
    f.oneway = d.oneway ∧ f.returns = d.returns ∧ f.name = d.name ∧ Made o.allowNeg id d.args f.args ∧
      Made o.allowNeg (fun r => if r = .required then .default_ else r) d.throws f.xceptions ∧ ∀ x ∈ d.throws, isExc x.ty = true := by
  rcases function_cases o isExc d with ⟨e, h', _⟩ | ⟨f', h', h1, h2, h3, h4, h5, _, _, _, h6, _⟩
  · rw [h] at h'; cases h'
  · rw [h] at h'; cases h'; exact ⟨h1, h2, h3, h4, h5, h6⟩

theorem compile_cases {o : Options} {p : Program} {g : Generated} (h : compile o p = .ok g) :
    ∃ ss fs, g = { schema := fun i => ((classes ss fs)[i]?.map TStruct.schema).getD [], fns := fnsFrom ss.length fs } ∧
      ss.length = p.structs.length ∧ fs.length = p.fns.length ∧
      (∀ (i : Nat) d, p.structs[i]? = some d → ∃ s, ss[i]? = some s ∧ struct o d = .ok s) ∧
      (∀ (i : Nat) d, p.fns[i]? = some d → ∃ f, fs[i]? = some f ∧ function o p.isExc d = .ok f) ∧ (fs.map (·.name)).Nodup := by
  unfold compile at h
  cases es : structs o p.structs with
  | error x => rw [es] at h; cases h
  | ok ss =>
    rw [es] at h; dsimp only at h
    cases ef : functions o p.isExc p.fns [] with
    | error x => rw [ef] at h; cases h
    | ok fs =>
      rw [ef] at h; cases h
      obtain ⟨gs, h1, h2, h3, h4⟩ := functions_ok ef (by simp)
      rw [List.nil_append] at h1; subst h1
      exact ⟨ss, fs, rfl, (structs_ok es).1, h2, (structs_ok es).2, h3, h4⟩

/-- The generated classes for structs have the declared fields. -/
theorem compile_structs {o : Options} {p : Program} {g : Generated} (h : compile o p = .ok g) (i : Nat) (d : StructDecl) (hd : p.structs[i]? = some d) :
    ∃ s, g.schema i = s.schema ∧ Made o.allowNeg (if d.kind = .union then fun _ => .optional else id) d.fields s := by
  obtain ⟨ss, fs, rfl, hl, _, hs, _⟩ := compile_cases h
  obtain ⟨s, h1, h2⟩ := hs i d hd
  have hi := (List.getElem?_eq_some_iff.1 h1).1
  refine ⟨s, ?_, struct_made h2⟩
  show ((classes ss fs)[i]?.map TStruct.schema).getD [] = _
  unfold classes
  rw [List.getElem?_append_left hi, h1]; rfl

/-- The result field of a function -/
def successOf (r : Option Ty) : List Field :=
  match r with
  | some ty => [{ fid := 0, ty := ty }]
  | none => []

/-- Every declared function is generated: with its name, with a class for its arguments, and, if its `throws` clause is as it should be, with a class that has the result as field
0 and the declared exceptions. -/
theorem compile_fns {o : Options} {p : Program} {g : Generated} (h : compile o p = .ok g) (i : Nat) (d : FnDecl) (hd : p.fns[i]? = some d) :
    ∃ fn a x, g.fns[i]? = some fn ∧ fn.name = d.name ∧ fn.oneway = d.oneway ∧ fn.returns = d.returns.isSome ∧ g.schema fn.argsId = a.schema ∧
      Made o.allowNeg id d.args a ∧ Made o.allowNeg (fun r => if r = .required then .default_ else r) d.throws x ∧
      x.sorted.map (·.ty) = fn.throws.map .struct ∧ (ThrowsOK d → g.schema fn.resultId = successOf d.returns ++ x.schema) := by
  obtain ⟨ss, fs, rfl, _, _, _, hf, _⟩ := compile_cases h
  obtain ⟨f, h1, h2⟩ := hf i d hd
  obtain ⟨e1, e2, e3, e4, e5, e6⟩ := function_made h2
  obtain ⟨c1, c2⟩ := classes_fn ss fs i
  rw [h1] at c1 c2
  refine ⟨f.fn (ss.length + 2 * i) (ss.length + 2 * i + 1), f.args, f.xceptions, ?_, e3, e1, ?_, ?_, e4, e5, ?_, ?_⟩
  · show (fnsFrom ss.length fs)[i]? = _
    rw [fnsFrom_get, h1]; rfl
  · show f.returns.isSome = _; rw [e2]
  · show ((classes ss fs)[ss.length + 2 * i]?.map TStruct.schema).getD [] = _
    rw [c1]; rfl
  · show _ = (f.xceptions.sorted.map fun m => classOf m.ty).map Ty.struct
    rw [List.map_map]
    refine List.map_congr_left fun m hm => ?_
    obtain ⟨a, t, b, ht, _, h3, _⟩ := e5.from (e5.same.mem_iff.1 hm)
    have := e6 t (by rw [ht]; simp)
    rw [← h3.type] at this
    show m.ty = .struct (classOf m.ty)
    unfold Program.isExc at this
    unfold classOf
    split at this
    · rename_i e; rw [e]
    · cases this
  · intro ht
    show ((classes ss fs)[ss.length + 2 * i + 1]?.map TStruct.schema).getD [] = _
    rw [c2]
    show (resultStruct f).schema = _
    unfold TStruct.schema
    rw [result_sorted f e5 (e5.positive ht.explicit).2.2 ht.success, e2, List.map_append]
    congr 1
    cases d.returns <;> rfl

/-- What is generated from a program in which numbers are written and valid satisfies what the theorems about protocols and calls assume: of the fields, in either mode; of the
results of functions; and no two functions have the same name. -/
theorem compile_ok {o : Options} {p : Program} {g : Generated} (h : compile o p = .ok g) (hp : ProgramOK p) :
    (∀ mode, SchemaOK mode g.schema) ∧ ∀ fn ∈ g.fns, ResultOK g.schema fn ∧ Serves g.fns fn.name fn := by
  have hall := @compile_fns o p g h
  obtain ⟨ss, fs, hg, hl, hlf, hs, hf, hnd⟩ := compile_cases h
  have hres : ∀ (i : Nat) f d, fs[i]? = some f → p.fns[i]? = some d → function o p.isExc d = .ok f →
      FieldsOK f.args.schema ∧ (∀ x ∈ f.args.schema, 0 ≤ x.fid) ∧ FieldsOK (resultStruct f).schema ∧ (∀ x ∈ (resultStruct f).schema, 0 ≤ x.fid) := by
    intro i f d _ hd h2
    obtain ⟨e1, e2, e3, e4, e5, e6⟩ := function_made h2
    have hmem := List.mem_of_getElem? hd
    obtain ⟨a1, a2, _⟩ := e4.positive (hp.args d hmem)
    have ht := hp.throws d hmem
    obtain ⟨b1, b2, b3⟩ := e5.positive ht.explicit
    have hr : (resultStruct f).schema = successOf d.returns ++ f.xceptions.schema := by
      unfold TStruct.schema
      rw [result_sorted f e5 b3 ht.success, e2, List.map_append]
      congr 1
      cases d.returns <;> rfl
    refine ⟨a1, fun x hx => by have := a2 x hx; omega, ?_, ?_⟩
    · rw [hr]
      cases d.returns with
      | none => exact b1
      | some ty =>
        refine ⟨List.pairwise_cons.2 ⟨fun x hx => b2 x hx, b1.1⟩, fun x hx => ?_⟩
        rcases List.mem_cons.1 hx with rfl | hx
        · show InRange 16 0; decide
        · exact b1.2 x hx
    · rw [hr]
      intro x hx
      rcases List.mem_append.1 hx with hx | hx
      · cases hret : d.returns with
        | none => rw [hret] at hx; cases hx
        | some ty => rw [hret] at hx; rcases List.mem_singleton.1 hx with rfl; exact Int.le_refl 0
      · have := b2 x hx; omega
  constructor
  · intro mode sid
    suffices hh : FieldsOK (g.schema sid) ∧ ∀ f ∈ g.schema sid, 0 ≤ f.fid from ⟨hh.1, fun _ => hh.2⟩
    rw [hg]
    show FieldsOK (((classes ss fs)[sid]?.map TStruct.schema).getD []) ∧ ∀ f ∈ ((classes ss fs)[sid]?.map TStruct.schema).getD [], 0 ≤ f.fid
    cases hc : (classes ss fs)[sid]? with
    | none => exact ⟨⟨.nil, by simp⟩, by simp⟩
    | some c =>
      show FieldsOK c.schema ∧ ∀ f ∈ c.schema, 0 ≤ f.fid
      rcases List.mem_append.1 (List.mem_of_getElem? hc) with hm | hm
      · obtain ⟨i, hi⟩ := List.mem_iff_getElem?.1 hm
        have hlt := (List.getElem?_eq_some_iff.1 hi).1
        obtain ⟨d, hd⟩ : ∃ d, p.structs[i]? = some d := ⟨_, List.getElem?_eq_getElem (by omega)⟩
        obtain ⟨s, h1, h2⟩ := hs i d hd
        rw [hi] at h1; cases h1
        obtain ⟨a1, a2, _⟩ := (struct_made h2).positive (hp.structs d (List.mem_of_getElem? hd))
        exact ⟨a1, fun x hx => by have := a2 x hx; omega⟩
      · obtain ⟨f, hfm, hcf⟩ := List.mem_flatMap.1 hm
        obtain ⟨i, hi⟩ := List.mem_iff_getElem?.1 hfm
        have hlt := (List.getElem?_eq_some_iff.1 hi).1
        obtain ⟨d, hd⟩ : ∃ d, p.fns[i]? = some d := ⟨_, List.getElem?_eq_getElem (by omega)⟩
        obtain ⟨f', h1, h2⟩ := hf i d hd
        rw [hi] at h1; cases h1
        obtain ⟨r1, r2, r3, r4⟩ := hres i f d hi hd h2
        simp only [List.mem_cons, List.not_mem_nil, or_false] at hcf
        rcases hcf with rfl | rfl
        · exact ⟨r1, r2⟩
        · exact ⟨r3, r4⟩
  · intro fn hfn
    obtain ⟨i, hi⟩ := List.mem_iff_getElem?.1 hfn
    have hget : g.fns[i]? = fs[i]?.map fun f => f.fn (ss.length + 2 * i) (ss.length + 2 * i + 1) := by rw [hg]; exact fnsFrom_get _ _ _
    have hlt : i < fs.length := by
      rw [hi] at hget
      cases hc : fs[i]? with
      | none => rw [hc] at hget; cases hget
      | some f => exact (List.getElem?_eq_some_iff.1 hc).1
    obtain ⟨d, hd⟩ : ∃ d, p.fns[i]? = some d := ⟨_, List.getElem?_eq_getElem (by omega)⟩
    obtain ⟨fn', a, x, e1, e2, e3, e4, e5, e6, e7, e8, e9⟩ := hall i d hd
    rw [hi] at e1; cases e1
    have ht := hp.throws d (List.mem_of_getElem? hd)
    have hr := e9 ht
    obtain ⟨b1, b2, b3⟩ := e7.positive ht.explicit
    have htys : x.schema.map (·.ty) = fn.throws.map .struct := by rw [← e8]; simp [TStruct.schema, Function.comp_def]
    have hplain : ∀ f ∈ x.schema, f.required = false ∧ f.dflt = none := by
      intro f hf
      obtain ⟨m, hm, rfl⟩ := List.mem_map.1 hf
      obtain ⟨u, t, v, htt, _, h2, h3⟩ := e7.from (e7.same.mem_iff.1 hm)
      refine ⟨?_, ?_⟩
      · show decide (m.req = .required) = false
        rw [h3]; cases t.req <;> rfl
      · show m.value = none
        rw [h2.value]; exact ht.plain t (by rw [htt]; simp)
    refine ⟨⟨⟨x.schema, htys, ?_⟩, ?_, ?_, ?_⟩, rfl, g.fns.take i, g.fns.drop (i + 1), ?_, ?_⟩
    · cases hret : d.returns with
      | none => right; rw [hret] at hr e4; exact ⟨e4, hr⟩
      | some ty => left; rw [hret] at hr e4; exact ⟨e4, ty, hr⟩
    · intro f hf
      rw [hr] at hf
      rcases List.mem_append.1 hf with hf | hf
      · cases hret : d.returns with
        | none => rw [hret] at hf; cases hf
        | some ty => rw [hret] at hf; rcases List.mem_singleton.1 hf with rfl; exact ⟨rfl, rfl⟩
      · exact hplain f hf
    · intro f hf h0
      rw [hr] at hf
      cases hret : d.returns with
      | none =>
        rw [hret] at hf
        have := b2 f hf; omega
      | some ty => rw [e4, hret]; rfl
    · rw [hr]
      cases d.returns with
      | none => exact b1.1
      | some ty => exact List.pairwise_cons.2 ⟨fun y hy => b2 y hy, b1.1⟩
    · obtain ⟨hlt', he⟩ := List.getElem?_eq_some_iff.1 hi
      rw [← he, ← List.drop_eq_getElem_cons, List.take_append_drop]
    · intro k hk hkn
      obtain ⟨j, hj⟩ := List.mem_iff_getElem?.1 hk
      rw [List.getElem?_drop] at hj
      have hgj : g.fns[i + 1 + j]? = fs[i + 1 + j]?.map fun f => f.fn (ss.length + 2 * (i + 1 + j)) (ss.length + 2 * (i + 1 + j) + 1) := by rw [hg]; exact fnsFrom_get _ _ _
      rw [hj] at hgj; rw [hi] at hget
      cases hc : fs[i]? with
      | none => rw [hc] at hget; cases hget
      | some f =>
        cases hc' : fs[i + 1 + j]? with
        | none => rw [hc'] at hgj; cases hgj
        | some f' =>
          rw [hc] at hget; rw [hc'] at hgj
          cases hget; cases hgj
          obtain ⟨hl1, he1⟩ := List.getElem?_eq_some_iff.1 hc
          obtain ⟨hl2, he2⟩ := List.getElem?_eq_some_iff.1 hc'
          rw [List.nodup_iff_pairwise_ne, List.pairwise_iff_getElem] at hnd
          refine hnd i (i + 1 + j) (by simpa using hl1) (by simpa using hl2) (by omega) ?_
          rw [List.getElem_map, List.getElem_map, he1, he2]
          exact hkn.symm

example : ∃ g, compile {} Sample.program = .ok g ∧ (∀ mode, SchemaOK mode g.schema) ∧ ∀ fn ∈ g.fns, ResultOK g.schema fn ∧ Serves g.fns fn.name fn :=
  ⟨_, rfl, compile_ok (o := {}) rfl Sample.program_ok⟩

section
variable {σ τ κ χ ω ω' : Type} [HasDepth σ] [HasDepth τ] [HasDepth κ]

/-- From the IDL to the call: a service that the compiler accepts, in which numbers are written and valid, works as `call_end_to_end` tells: what the client sends makes the
server run the handler once, with equal arguments, and what the server sends makes the client return or raise what the handler did. -/
theorem idl_call {o : Options} {prog : Program} {g : Generated} (hc : compile o prog = .ok g) (hprog : ProgramOK prog)
    (env : Env σ τ ω) (hsch : env.sch = g.schema) (h : Handler χ) (cb : Option (PyStr → Int → Int → χ → Except Exc Unit × χ))
    {p : Proto σ} {pc : Proto κ} {F G : Format} {Idle : σ → Prop} {IdleOut : τ → Prop} {IdleC : κ → Prop} {sl cl slc clc : Option Int}
    (hp : Receives p F Idle sl cl) (hps : SteadyProto p) (hq : Sends env.q G IdleOut) (hpc : Sends pc F IdleC) (hrc : Receives pc G IdleC slc clc) (hcs : SteadyProto pc)
    (k : Sink ω) (hk : env.flush = framedFlush k) (kc : Sink ω') (fuel : Nat)
    -- a function of the service, and its arguments
    (i : Nat) (d : FnDecl) (hd : prog.fns[i]? = some d) (htwo : d.oneway = false) (seqid : Int) (hseq : InRange 32 seqid) (hname : TextOK d.name)
    (hlim : Within sl (utf8Len d.name) ∧ Within slc (utf8Len d.name)) :
    ∃ fn, g.fns[i]? = some fn ∧ fn.name = d.name ∧ ∀ (as : List (Option Val))
    (_has : Sendable sl cl env.mode env.sch fn.argsId (.struct as) env.fuel)
    -- what the handler does
    (app app₁ app₂ : χ) (_hcb : Began cb fn.name 1 seqid app app₁) (out : Outcome)
    (_hrun : h fn as app₁ = (out, app₂)) (type : Nat) (sch' : Schema) (sid' : Nat) (w : Val)
    (_hans : Answers env.sch fn out type sch' sid' w) (_hw2 : type = 2 → Sendable slc clc env.mode sch' sid' w fuel)
    (_hw3 : type = 3 → 5 ≤ fuel ∧ ∃ x, w = appVal x ∧ AppOK x ∧ ∀ m ∈ x.message, Within slc (utf8Len m))
    (_hd : structDepth w ≤ 64)
    (_hlen : (F.header fn.name 1 seqid ++ F.value env.sch (.struct fn.argsId) (.struct as)).length < 2 ^ 31)
    (_hlen' : (G.header fn.name type seqid ++ G.value sch' (.struct sid') w).length < 2 ^ 31),
    ∃ (req rep : Bytes) (r : Result), Told fn out r ∧
      (∀ c : Client κ ω', IdleC c.prot → c.buf = [] → c.seqid = seqid → ∃ s', IdleC s' ∧
        send pc (framedFlush kc) env.sch env.mode fn as c
          = ((kc.writeFlush (frame req) c.sink).1, { c with prot := s', sink := (kc.writeFlush (frame req) c.sink).2 })) ∧
      (∀ (ν : Type) (net : Nat → ν → Option (Except Exc Bytes × ν)) (rest : ν → Bytes) (c : Call σ τ χ ω)
        (f : Framed.St) (t : ν) (more : Bytes), DeliversUntil net rest → Idle c.inp → IdleOut c.out →
        c.buf = [] → c.app = app → carried f (rest t) = req ++ more →
        (k.writeFlush (frame rep) c.sink).1 = .ok () →
        ∃ s' o' f' t', Idle s' ∧ IdleOut o' ∧ carried f' (rest t') = more ∧
          (process env h cb g.fns p c).run (P.over Framed.read net) (f, t)
            = some ((.ok (), { inp := s', out := o', buf := [], app := app₂, sink := (k.writeFlush (frame rep) c.sink).2 }), (f', t'))) ∧
      (∀ (ν : Type) (net : Nat → ν → Option (Except Exc Bytes × ν)) (rest : ν → Bytes) (s : κ)
        (f : Framed.St) (t : ν) (more : Bytes), DeliversUntil net rest → IdleC s → carried f (rest t) = rep ++ more →
        ∃ s' f' t', IdleC s' ∧ carried f' (rest t') = more ∧
          (recv pc env.sch env.mode fuel fn s).run (P.over Framed.read net) (f, t) = some ((.ok r, s'), (f', t'))) := by
  obtain ⟨fn, a, x, e1, e2, e3, _⟩ := compile_fns hc i d hd
  obtain ⟨hs, hf⟩ := compile_ok hc hprog
  obtain ⟨hr, hv⟩ := hf fn (List.mem_of_getElem? e1)
  refine ⟨fn, e1, e2, fun as has app app₁ app₂ hcb out hrun type sch' sid' w hans hw2 hw3 hdep hlen hlen' => ?_⟩
  exact call_end_to_end env h cb g.fns hp hps hq hpc hrc hcs k hk kc fuel fn hv (e3.trans htwo) (hsch ▸ hs _) (hsch ▸ hr) seqid hseq (e2 ▸ hname) (e2 ▸ hlim) as has
    app app₁ app₂ hcb out hrun type sch' sid' w hans hw2 hw3 hdep hlen hlen'

end

/-- The hypotheses of `idl_call` hold for `get` of the example and the compact protocol. -/
example (g : Generated) (hg : compile {} Sample.program = .ok g) (h : Handler Nat) :=
  idl_call hg Sample.program_ok ({ sampleEnv (σ := Compact.St) (Compact.proto {}) with sch := g.schema } : Env Compact.St Compact.St (List Bytes)) rfl h none
    (Compact.reads { stringLimit := some 20, containerLimit := some 20 }) (Compact.steadyProto _) (Compact.writes {})
    (Compact.writes { stringLimit := some 20, containerLimit := some 20 }) (Compact.reads { stringLimit := some 20, containerLimit := some 20 }) (Compact.steadyProto _)
    { write := fun b w => (.ok (), w ++ [b]), flush := fun w => (.ok (), w) } rfl
    { write := fun b w => (.ok (), w ++ [b]), flush := fun (w : List Bytes) => (.ok (), w) } 100 0 Sample.get rfl rfl 0 (by decide) (by unfold Sample.get; decide)
    ⟨by intro l h; cases h; decide, by intro l h; cases h; decide⟩

/-- What is generated from the example -/
example : ∃ g fn, compile {} Sample.program = .ok g ∧ g.fns[0]? = some fn ∧ fn.throws = [0] ∧ g.schema fn.argsId = [{ fid := 1, ty := .i32 }, { fid := 2, ty := .string }] ∧
    g.schema fn.resultId = [{ fid := 0, ty := .string }, { fid := 1, ty := .struct 0 }] ∧
    g.schema 1 = [{ fid := 1, ty := .string, dflt := some (.str (pyStr "x")) }, { fid := 2, ty := .i32 }] := ⟨_, _, rfl, rfl, rfl, rfl, rfl, rfl⟩

/-! ## What is false -/

/-- Numbers that are too big for the protocols are accepted (with a warning): the struct cannot be written. -/
theorem number_too_big : ∃ s, struct { strict := 255 } { name := [], fields := [{ id := some 32768, ty := Ty.bool, name := pyStr "x" }] } = .ok s ∧
    (writeVal (Binary.proto {}).wr (fun _ => s.schema) .gen (.struct 0) (.struct [some (.bool true)]) {} []).1 = .error .structError := ⟨_, rfl, rfl⟩

/-- Numbers beyond 32 bits are cut off (with no warning, if what remains is valid): the field has another number. -/
theorem number_cut : ∃ s, struct { strict := 255 } { name := [], fields := [{ id := some 4294967298, ty := Ty.bool, name := pyStr "x" }] } = .ok s ∧
    s.members.map (·.key) = [2] := ⟨_, rfl, rfl⟩

/-- A number that is not positive is replaced, so that the field is not found under the number that is written. -/
theorem number_replaced : ∃ s, struct {} { name := [], fields := [{ id := some (-7), ty := Ty.bool, name := pyStr "x" }] } = .ok s ∧ s.members.map (·.key) = [-1] := ⟨_, rfl, rfl⟩

/-- A field without a number changes the numbers of those behind it. -/
theorem insert_shifts : ∃ s s', struct {} { name := [], fields := [{ id := none, ty := Ty.bool, name := pyStr "x" }] } = .ok s ∧
    struct {} { name := [], fields := [{ id := none, ty := Ty.bool, name := pyStr "y" }, { id := none, ty := Ty.bool, name := pyStr "x" }] } = .ok s' ∧
    (s.members.map fun m => (m.name, m.key)) = [(pyStr "x", -1)] ∧ (s'.members.map fun m => (m.name, m.key)) = [(pyStr "y", -1), (pyStr "x", -2)] := ⟨_, _, rfl, rfl, rfl, rfl⟩

/-- `string get() throws (1: Missing success)` -/
def successProgram : Program :=
  { structs := [Sample.missing]
    fns := [{ returns := some .string, name := pyStr "get", throws := [{ id := some 1, ty := .struct 0, name := pyStr "success" }] }] }

/-- An exception that is called `success` is silently dropped from the result: no field is there for it. -/
theorem success_dropped : ∃ g fn, compile { strict := 255 } successProgram = .ok g ∧ g.fns = [fn] ∧ fn.throws = [0] ∧
    g.schema fn.resultId = [{ fid := 0, ty := .string }] ∧ ¬ ∃ f, DeclaredAs g.schema fn 0 f := by
  refine ⟨_, _, rfl, rfl, rfl, rfl, ?_⟩
  rintro ⟨f, pre, post, h1, h2, h3, _⟩
  have h1 : [({ fid := 0, ty := .string } : Field)] = pre ++ f :: post := h1
  cases pre with
  | nil => cases h1; exact h2 rfl
  | cons x pre => cases pre <;> cases h1

/-- `void clear() throws (1: Missing m = {"why": "x"})` -/
def defaultProgram : Program :=
  { structs := [Sample.missing]
    fns := [{ name := pyStr "clear", throws := [{ id := some 1, ty := .struct 0, name := pyStr "m", value := some (.struct [some (.str (pyStr "x"))]) }] }] }

/-- If an exception of a void function has a default, a new result object (`name_result()`) has it set, and clients raise it. -/
theorem throws_default : ∃ g fn, compile { strict := 255 } defaultProgram = .ok g ∧ g.fns = [fn] ∧ fn.returns = false ∧
    Means g.schema fn (initAttrs (g.schema fn.resultId)) (.declared 0 [some (.str (pyStr "x"))]) :=
  ⟨_, _, rfl, rfl, rfl, .exception 0 (.struct [some (.str (pyStr "x"))]) 0 rfl rfl (by simp) (by intro h; cases h)⟩

end Thrift.Structs
