import Verif.Spec.Callbacks
import Verif.Props.AnyMultiplex
import Verif.Props.HttpServer
/-
C99: callbacks of multiplexed processors, and `THttpServer` with a multiplexer.
-/

namespace Thrift.Callbacks
open Spec Spec.Callbacks Rpc
open Spec.Decorator (Linear)

section
variable {χ : Type}

theorem run_snoc (w : World χ) (ops : List (Op χ)) (op : Op χ) : w.run (ops ++ [op]) = (w.run ops).step op := by
  simp [World.run, List.foldl_append]

/-! ## The dictionary -/

theorem find_setItem (key name : PyStr) (i : Nat) (d : List (PyStr × Nat)) :
    (setItem key i d).find? (·.1 == name) = if key = name then some (key, i) else d.find? (·.1 == name) := by
  induction d with
  | nil => by_cases h : key = name <;> simp [setItem, h]
  | cons kv d ih =>
    obtain ⟨k, v⟩ := kv
    unfold setItem
    by_cases hk : k = key
    · subst hk
      by_cases h : k = name <;> simp [h]
    · rw [if_neg hk, List.find?_cons, List.find?_cons, ih]
      by_cases h : key = name
      · subst h
        have : (k == key) = false := by simpa using hk
        simp [this]
      · simp [h]

/-- No key occurs twice. -/
def Unique (d : List (PyStr × Nat)) : Prop := (d.map (·.1)).Nodup

theorem keys_setItem (key : PyStr) (i : Nat) (d : List (PyStr × Nat)) (k : PyStr) : k ∈ (setItem key i d).map (·.1) ↔ k = key ∨ k ∈ d.map (·.1) := by
  induction d with
  | nil => simp [setItem]
  | cons kv d ih =>
    obtain ⟨a, v⟩ := kv
    unfold setItem
    by_cases ha : a = key
    · subst ha
      simp
    · rw [if_neg ha]
      simp only [List.map_cons, List.mem_cons, ih]
      constructor
      · rintro (h | h | h)
        · exact .inr (.inl h)
        · exact .inl h
        · exact .inr (.inr h)
      · rintro (h | h | h)
        · exact .inr (.inl h)
        · exact .inl h
        · exact .inr (.inr h)

theorem unique_setItem (key : PyStr) (i : Nat) {d : List (PyStr × Nat)} (h : Unique d) : Unique (setItem key i d) := by
  unfold Unique at *
  induction d with
  | nil => simp [setItem]
  | cons kv d ih =>
    obtain ⟨a, v⟩ := kv
    simp only [List.map_cons, List.nodup_cons] at h
    unfold setItem
    by_cases ha : a = key
    · subst ha
      simpa using h
    · rw [if_neg ha]
      simp only [List.map_cons, List.nodup_cons]
      refine ⟨fun hm => ?_, ih h.2⟩
      rcases (keys_setItem key i d a).1 hm with h' | h'
      · exact ha h'
      · exact h.1 h'

theorem mem_iff_find {d : List (PyStr × Nat)} (h : Unique d) (name : PyStr) (i : Nat) : (name, i) ∈ d ↔ d.find? (·.1 == name) = some (name, i) := by
  unfold Unique at h
  induction d with
  | nil => simp
  | cons kv d ih =>
    obtain ⟨a, v⟩ := kv
    simp only [List.map_cons, List.nodup_cons] at h
    rw [List.find?_cons, List.mem_cons, ih h.2]
    by_cases ha : a = name
    · subst ha
      simp only [beq_self_eq_true, Option.some.injEq, Prod.mk.injEq, true_and]
      constructor
      · rintro (h' | h')
        · exact h'.symm
        · have := List.mem_of_find?_eq_some h'
          exact absurd (List.mem_map.2 ⟨_, this, rfl⟩) h.1
      · intro h'
        exact .inl h'.symm
    · have : (a == name) = false := by simpa using ha
      simp only [this, Prod.mk.injEq]
      constructor
      · rintro (h' | h')
        · exact absurd h'.1.symm ha
        · exact h'
      · exact .inr

/-! ## The history -/

theorem arm_services (w : World χ) (i : Nat) (f : Callback χ) : (w.arm i f).services = w.services ∧ (w.arm i f).dflt = w.dflt := ⟨rfl, rfl⟩

theorem armAll (l : List (PyStr × Nat)) (f : Callback χ) : ∀ w : World χ, (l.foldl (fun w s => w.arm s.2 f) w).services = w.services ∧
    (l.foldl (fun w s => w.arm s.2 f) w).dflt = w.dflt ∧
    ∀ i, ((∃ name, (name, i) ∈ l) → (l.foldl (fun w s => w.arm s.2 f) w).callback i = some f) ∧
      ((¬ ∃ name, (name, i) ∈ l) → (l.foldl (fun w s => w.arm s.2 f) w).callback i = w.callback i) := by
  induction l with
  | nil => intro w; simp
  | cons s l ih =>
    intro w
    obtain ⟨h1, h2, h3⟩ := ih (w.arm s.2 f)
    refine ⟨h1, h2, fun i => ?_⟩
    rw [List.foldl_cons]
    obtain ⟨h4, h5⟩ := h3 i
    by_cases hl : ∃ name, (name, i) ∈ l
    · refine ⟨fun _ => h4 hl, fun hn => ?_⟩
      obtain ⟨n, h⟩ := hl
      exact absurd ⟨n, List.mem_cons_of_mem _ h⟩ hn
    · rw [h5 hl]
      by_cases hi : i = s.2
      · subst hi
        exact ⟨fun _ => by simp [World.arm], fun hn => absurd ⟨s.1, List.mem_cons_self⟩ hn⟩
      · refine ⟨fun ⟨n, hn⟩ => ?_, fun _ => by simp [World.arm, hi]⟩
        rcases List.mem_cons.1 hn with h | h
        · exact absurd (by rw [← h]) hi
        · exact absurd ⟨n, h⟩ hl

theorem step_services (w : World χ) (op : Op χ) :
    (w.step op).services = match op with | .registerProcessor name i => setItem name i w.services | _ => w.services := by
  cases op with
  | onMessageBegin f => exact (armAll w.services f w).1
  | _ => rfl

theorem step_dflt (w : World χ) (op : Op χ) : (w.step op).dflt = match op with | .registerDefault i => some i | _ => w.dflt := by
  cases op with
  | onMessageBegin f => exact (armAll w.services f w).2.1
  | _ => rfl

theorem unique_run (ops : List (Op χ)) : Unique (World.run {} ops).services := by
  induction ops using snocInduction with
  | nil => simp [World.run, Unique]
  | append_singleton ops op ih =>
    rw [run_snoc, step_services]
    cases op with
    | registerProcessor name i => exact unique_setItem _ _ ih
    | _ => exact ih

theorem current_snoc (ops : List (Op χ)) (op : Op χ) (name : PyStr) (i : Nat) :
    Current (ops ++ [op]) name i ↔ op = .registerProcessor name i ∨ (∀ j, op ≠ .registerProcessor name j) ∧ Current ops name i := by
  constructor
  · rintro ⟨pre, post, h1, h2⟩
    rcases post.eq_nil_or_concat with rfl | ⟨post, x, rfl⟩
    · have := List.append_inj_right' h1 rfl
      simp only [List.cons.injEq, and_true] at this
      exact .inl this
    · rw [List.concat_eq_append] at h1 h2
      rw [← List.cons_append, ← List.append_assoc] at h1
      have hx := List.append_inj_right' h1 rfl
      have ho := List.append_inj_left' h1 rfl
      simp only [List.cons.injEq, and_true] at hx
      subst hx
      exact .inr ⟨fun j e => h2 j (by simp [e]), pre, post, ho, fun j hj => h2 j (by simp [hj])⟩
  · rintro (rfl | ⟨hn, pre, post, rfl, h2⟩)
    · exact ⟨ops, [], rfl, by simp⟩
    · refine ⟨pre, post ++ [op], by simp, fun j hj => ?_⟩
      rcases List.mem_append.1 hj with h | h
      · exact h2 j h
      · simp only [List.mem_singleton] at h
        exact hn j h.symm

theorem currentDefault_snoc (ops : List (Op χ)) (op : Op χ) (i : Nat) :
    CurrentDefault (ops ++ [op]) i ↔ op = .registerDefault i ∨ (∀ j, op ≠ .registerDefault j) ∧ CurrentDefault ops i := by
  constructor
  · rintro ⟨pre, post, h1, h2⟩
    rcases post.eq_nil_or_concat with rfl | ⟨post, x, rfl⟩
    · have := List.append_inj_right' h1 rfl
      simp only [List.cons.injEq, and_true] at this
      exact .inl this
    · rw [List.concat_eq_append] at h1 h2
      rw [← List.cons_append, ← List.append_assoc] at h1
      have hx := List.append_inj_right' h1 rfl
      have ho := List.append_inj_left' h1 rfl
      simp only [List.cons.injEq, and_true] at hx
      subst hx
      exact .inr ⟨fun j e => h2 j (by simp [e]), pre, post, ho, fun j hj => h2 j (by simp [hj])⟩
  · rintro (rfl | ⟨hn, pre, post, rfl, h2⟩)
    · exact ⟨ops, [], rfl, by simp⟩
    · refine ⟨pre, post ++ [op], by simp, fun j hj => ?_⟩
      rcases List.mem_append.1 hj with h | h
      · exact h2 j h
      · simp only [List.mem_singleton] at h
        exact hn j h.symm

/-- The dictionary holds who was last registered. -/
theorem services_iff (ops : List (Op χ)) (name : PyStr) (i : Nat) : (name, i) ∈ (World.run {} ops).services ↔ Current ops name i := by
  rw [mem_iff_find (unique_run ops)]
  induction ops using snocInduction with
  | nil =>
    simp only [World.run, List.foldl_nil, List.find?_nil, reduceCtorEq, false_iff]
    rintro ⟨pre, post, h, -⟩
    simp at h
  | append_singleton ops op ih =>
    rw [run_snoc, step_services, current_snoc]
    cases op with
    | registerProcessor key j =>
      simp only [find_setItem]
      by_cases h : key = name
      · subst h
        simp
      · rw [if_neg h, ih]
        simp [h]
    | _ => simp [ih]

theorem dflt_iff (ops : List (Op χ)) (i : Nat) : (World.run {} ops).dflt = some i ↔ CurrentDefault ops i := by
  induction ops using snocInduction with
  | nil =>
    simp only [World.run, List.foldl_nil, reduceCtorEq, false_iff]
    rintro ⟨pre, post, h, -⟩
    simp at h
  | append_singleton ops op ih =>
    rw [run_snoc, step_dflt, currentDefault_snoc]
    cases op with
    | registerDefault j => simp
    | _ => simp [ih]

theorem given_snoc (ops : List (Op χ)) (op : Op χ) (i : Nat) (f : Callback χ) :
    Given (ops ++ [op]) i f ↔ Gives ops op i f ∨ (∀ g, ¬ Gives ops op i g) ∧ Given ops i f := by
  constructor
  · rintro ⟨pre, o, post, h1, h2, h3⟩
    rcases post.eq_nil_or_concat with rfl | ⟨post, x, rfl⟩
    · have hx := List.append_inj_right' h1 rfl
      have ho := List.append_inj_left' h1 rfl
      simp only [List.cons.injEq, and_true] at hx
      subst hx ho
      exact .inl h2
    · rw [List.concat_eq_append] at h1 h3
      rw [← List.cons_append, ← List.append_assoc] at h1
      have hx := List.append_inj_right' h1 rfl
      have ho := List.append_inj_left' h1 rfl
      simp only [List.cons.injEq, and_true] at hx
      subst hx ho
      refine .inr ⟨fun g => h3 post op [] g rfl, pre, o, post, rfl, h2, fun mid op' post' g e => h3 mid op' (post' ++ [op]) g (by rw [e]; simp)⟩
  · rintro (h | ⟨hn, pre, o, post, rfl, h2, h3⟩)
    · exact ⟨ops, op, [], rfl, h, fun mid op' post' g e => by simp at e⟩
    · refine ⟨pre, o, post ++ [op], by simp, h2, fun mid op' post' g e => ?_⟩
      rcases post'.eq_nil_or_concat with rfl | ⟨q, x, rfl⟩
      · have hx := List.append_inj_right' e rfl
        have ho := List.append_inj_left' e rfl
        simp only [List.cons.injEq, and_true] at hx
        subst hx ho
        exact hn g
      · rw [List.concat_eq_append] at e
        rw [← List.cons_append, ← List.append_assoc] at e
        have ho := List.append_inj_left' e rfl
        exact h3 mid op' q g ho

/-- C99: the callback of every processor is the one it was last given, by `on_message_begin` of its own or of the multiplexer while it was registered for a service. -/
theorem callback_iff (ops : List (Op χ)) (i : Nat) (f : Callback χ) : (World.run {} ops).callback i = some f ↔ Given ops i f := by
  induction ops using snocInduction with
  | nil =>
    simp only [World.run, List.foldl_nil, reduceCtorEq, false_iff]
    rintro ⟨pre, o, post, h, -⟩
    simp at h
  | append_singleton ops op ih =>
    rw [run_snoc, given_snoc, ← ih]
    cases op with
    | registerDefault j => simp [World.step, Gives]
    | registerProcessor n j => simp [World.step, Gives]
    | onMessageBeginOf j g =>
      simp only [World.step, World.arm, Gives, Op.onMessageBeginOf.injEq, reduceCtorEq, false_and, or_false]
      by_cases h : i = j
      · subst h
        simp
      · simp [h, Ne.symm h]
    | onMessageBegin g =>
      have hall := (armAll (World.run {} ops).services g (World.run {} ops)).2.2 i
      simp only [services_iff] at hall
      simp only [World.step, Gives, Op.onMessageBegin.injEq, reduceCtorEq, false_or]
      by_cases h : ∃ name, Current ops name i
      · rw [hall.1 h]
        simp [h]
      · rw [hall.2 h]
        simp [h]

theorem callback_none (ops : List (Op χ)) (i : Nat) (h : NotGiven ops i) : (World.run {} ops).callback i = none := by
  cases hc : (World.run {} ops).callback i with
  | none => rfl
  | some f =>
    obtain ⟨pre, op, post, h1, h2, -⟩ := (callback_iff ops i f).1 hc
    exact absurd h2 (h pre op post f h1)

/-- C99: after `on_message_begin` of the multiplexer, every processor that is registered for a service has this callback. -/
theorem services_given (ops : List (Op χ)) (f : Callback χ) (name : PyStr) (i : Nat) (h : Current ops name i) :
    Given (ops ++ [.onMessageBegin f]) i f := (given_snoc _ _ _ _).2 (.inl (.inr ⟨rfl, name, h⟩))

/-- What C99 does not promise: the default processor does not get it, unless it is registered for a service, too. -/
theorem default_not_given (ops : List (Op χ)) (f g : Callback χ) (i : Nat) (h : ∀ name, ¬ Current ops name i) :
    (Given (ops ++ [.onMessageBegin f]) i g ↔ Given ops i g) ∧ (NotGiven ops i → NotGiven (ops ++ [.onMessageBegin f]) i) := by
  have hn : ∀ g, ¬ Gives ops (.onMessageBegin f) i g := by
    rintro g (h' | ⟨-, name, h'⟩)
    · cases h'
    · exact h name h'
  constructor
  · rw [given_snoc]
    exact ⟨fun h' => h'.elim (fun h' => absurd h' (hn g)) (·.2), fun h' => .inr ⟨hn, h'⟩⟩
  · intro hng pre op post g' e hg
    rcases post.eq_nil_or_concat with rfl | ⟨q, x, rfl⟩
    · have hx := List.append_inj_right' e rfl
      have ho := List.append_inj_left' e rfl
      simp only [List.cons.injEq, and_true] at hx
      subst hx ho
      exact hn g' hg
    · rw [List.concat_eq_append] at e
      rw [← List.cons_append, ← List.append_assoc] at e
      have ho := List.append_inj_left' e rfl
      exact hng pre op q g' ho hg

/-- Nor does a processor that is registered later. -/
theorem later_not_given (ops : List (Op χ)) (f : Callback χ) (name : PyStr) (i : Nat) (h : ∀ name, ¬ Current ops name i) (hng : NotGiven ops i) :
    Current (ops ++ [.onMessageBegin f] ++ [.registerProcessor name i]) name i ∧
      (World.run {} (ops ++ [.onMessageBegin f] ++ [.registerProcessor name i])).callback i = none := by
  refine ⟨(current_snoc _ _ _ _).2 (.inl rfl), ?_⟩
  rw [run_snoc]
  exact callback_none _ _ ((default_not_given ops f f i h).2 hng)

end

/-! ## Processing -/

section
variable {σ τ χ ω : Type}

/-- The registrations as `Thrift.registry` has them -/
def registrations (code : Nat → Option (Callback χ) → Processor σ τ χ ω) (w : World χ) : List (Registration σ τ χ ω) :=
  (match w.dflt with | some i => [.default (code i (w.callback i))] | none => []) ++
    w.services.reverse.map fun s => .service s.1 (code s.2 (w.callback s.2))

theorem registry_registrations (code : Nat → Option (Callback χ) → Processor σ τ χ ω) (w : World χ) :
    w.process code = multiProcess (registry (registrations code w)) := by
  have key : ∀ (pre : List (Registration σ τ χ ω)) (l : List (PyStr × Nat)),
      registry (pre ++ l.reverse.map fun s => (.service s.1 (code s.2 (w.callback s.2)) : Registration σ τ χ ω)) =
        { registry pre with services := (l.map fun s => (s.1, code s.2 (w.callback s.2))) ++ (registry pre).services } := by
    intro pre l
    induction l with
    | nil => simp
    | cons s l ih =>
      rw [List.reverse_cons, List.map_append, ← List.append_assoc, List.map_singleton, registry_snoc, ih]
      rfl
  unfold World.process registrations
  rw [key]
  cases w.dflt with
  | none => simp [registry]
  | some i => simp [registry, Registry.registerDefault]

/-- C99: a call `service:name` is processed by the processor last registered for the service, with the callback that it was last given; a call `name` by the default. -/
theorem routes (code : Nat → Option (Callback χ) → Processor σ τ χ ω) (ops : List (Op χ)) :
    ∃ regs, (World.run {} ops).process code = multiProcess (registry regs) ∧
      (∀ service name i cb, 58 ∉ service → Current ops service i → (∀ f, cb = some f ↔ Given ops i f) → Routed regs (service ++ [58] ++ name) name (code i cb)) ∧
      (∀ name i cb, 58 ∉ name → CurrentDefault ops i → (∀ f, cb = some f ↔ Given ops i f) → Routed regs name name (code i cb)) ∧
      (∀ service name, 58 ∉ service → (∀ i, ¬ Current ops service i) → Unrouted regs (service ++ [58] ++ name)) ∧
      (∀ name, 58 ∉ name → (∀ i, ¬ CurrentDefault ops i) → Unrouted regs name) := by
  have hcb : ∀ i cb, (∀ f, cb = some f ↔ Given ops i f) → cb = (World.run {} ops).callback i := by
    intro i cb h
    apply Option.ext
    intro f
    rw [h f, ← callback_iff]
  refine ⟨registrations code (World.run {} ops), registry_registrations code _, ?_, ?_, ?_, ?_⟩
  · intro service name i cb hsep hcur hgiven
    rw [hcb i cb hgiven]
    refine .service service name hsep ?_
    have hmem := (services_iff ops service i).2 hcur
    have hun := unique_run ops
    obtain ⟨a, b, hab⟩ := List.append_of_mem hmem
    unfold Unique at hun
    rw [hab] at hun
    simp only [List.map_append, List.map_cons, List.nodup_append, List.nodup_cons] at hun
    unfold registrations
    rw [hab]
    refine ⟨(match (World.run {} ops).dflt with | some i => [.default (code i ((World.run {} ops).callback i))] | none => []) ++
        b.reverse.map fun s => .service s.1 (code s.2 ((World.run {} ops).callback s.2)),
      a.reverse.map fun s => .service s.1 (code s.2 ((World.run {} ops).callback s.2)), by simp, fun q hq => ?_⟩
    obtain ⟨s, hs, he⟩ := List.mem_map.1 hq
    injection he with h1 h2
    exact hun.2.2 s.1 (List.mem_map.2 ⟨s, by simpa using hs, rfl⟩) service (by simp) h1
  · intro name i cb hsep hcur hgiven
    rw [hcb i cb hgiven]
    refine .default name hsep ?_
    unfold registrations
    rw [(dflt_iff ops i).2 hcur]
    exact ⟨[], _, rfl, fun q hq => by
      obtain ⟨s, hs, he⟩ := List.mem_map.1 hq
      cases he⟩
  · intro service name hsep hno
    refine .service service name hsep fun q hq => ?_
    unfold registrations at hq
    rcases List.mem_append.1 hq with h | h
    · cases hd : (World.run {} ops).dflt with
      | none => rw [hd] at h; cases h
      | some i => rw [hd] at h; simp at h
    · obtain ⟨s, hs, he⟩ := List.mem_map.1 h
      injection he with h1 h2
      subst h1
      exact hno s.2 ((services_iff ops s.1 s.2).1 (by simpa using hs))
  · intro name hsep hno
    refine .default hsep fun q hq => ?_
    unfold registrations at hq
    rcases List.mem_append.1 hq with h | h
    · cases hd : (World.run {} ops).dflt with
      | none => rw [hd] at h; cases h
      | some i => exact hno i ((dflt_iff ops i).1 hd)
    · obtain ⟨s, hs, he⟩ := List.mem_map.1 h
      cases he

end

/-! ## `THttpServer` with a multiplexer -/

section
open HttpServer Spec.HttpServer
variable {σ τ χ : Type} [HasDepth σ] [HasDepth τ]

/-- From the buffer to the connection -/
theorem request_run (S : Server σ τ χ) (svc : Nat → Service χ) (w : World (Web χ)) {F : Format} {Idle : σ → Prop} (hst : Starts S.p F Idle) (hi : Idle S.inp)
    (name : PyStr) (type : Nat) (seqid : Int) (value b' : Bytes) (x : χ) (r : Except Exc Unit) (c' : Call σ τ (Web χ) Bytes)
    (h : ((w.step (.onMessageBegin HttpServer.onBegin)).process (code S svc) S.p { inp := S.inp, out := S.out, sink := [], app := { user := x } }).run blockStep
      (F.header name type seqid ++ value) = some ((r, c'), b')) (more : Bytes) (o : Bool) :
    doPost S svc w (.ok (F.header name type seqid ++ value).length) { data := (F.header name type seqid ++ value) ++ more, open_ := o } x =
      some (finish S c' r, { data := more, open_ := o }) := by
  obtain ⟨m, k, hk, hm, hl⟩ := hst S.inp hi
  obtain ⟨k', hk'⟩ : ∃ k', (w.step (.onMessageBegin HttpServer.onBegin)).process (code S svc) S.p
      ({ inp := S.inp, out := S.out, sink := [], app := { user := x } } : Call σ τ (Web χ) Bytes) = .read m k' := by
    show ∃ k', ((S.p.readMessageBegin S.inp).bind _).bind _ = .read m k'
    rw [hk]
    exact ⟨_, rfl⟩
  rw [hk'] at h
  obtain ⟨s', -, e'⟩ := run_request hm (by have := hl name type seqid; simp only [List.length_append]; omega) h more o
  unfold doPost
  simp only [Int.toNat_natCast]
  rw [hk', e']

/-- C99: a call of a two-way function of a service, or of the default: the handler of the processor last registered is called once, and one response carries the answer. -/
theorem post_call (S : Server σ τ χ) (svc : Nat → Service χ) (ops : List (Op (Web χ))) {F G : Format} {Idle : σ → Prop} {IdleOut : τ → Prop} {A : Acceptance}
    (hl : Linear S.p.mro) (hs : .stored ∉ S.p.mro) (hp : Hears S.p F Idle A) (hst : Starts S.p F Idle) (hq : Sends S.q G IdleOut) (hi : Idle S.inp) (ho : IdleOut S.out)
    -- who is called
    (full name : PyStr) (i : Nat) (hwho : (∃ service, full = service ++ [58] ++ name ∧ 58 ∉ service ∧ Current ops service i) ∨
      full = name ∧ 58 ∉ name ∧ CurrentDefault ops i ∧ (∀ service, ¬ Current ops service i) ∧ NotGiven ops i)
    -- the call
    (seqid : Int) (fn : Fn) (hh : Heads A full 1 seqid) (hn : TextOK name)
    (hfn : Serves (svc i).fns name fn) (htwo : fn.oneway = false) (hres : ResultOK (svc i).sch fn) (X : Schema) (v : Val)
    (hv : Suits A (svc i).mode X (svc i).sch fn.argsId v (svc i).fuel) (x x' : χ) (o : Outcome)
    (hrun : (svc i).handler fn (attrsOf (project X (svc i).sch (.struct fn.argsId) v)) x = (o, x'))
    (type' : Nat) (sch' : Schema) (sid' : Nat) (w : Val) (hans : Answers (svc i).sch fn o type' sch' sid' w)
    (hw : WT sch' (.struct sid') w) (hd : structDepth w ≤ 64) (more : Bytes) (keep : Bool) :
    doPost S svc (World.run {} ops) (.ok (F.header full 1 seqid ++ F.value X (.struct fn.argsId) v).length)
        { data := (F.header full 1 seqid ++ F.value X (.struct fn.argsId) v) ++ more, open_ := keep } x =
      some ((.ok (), { user := x', replied := false, log := [.called name,
          .response (some (G.header name type' seqid ++ G.value sch' (.struct sid') w).length) (G.header name type' seqid ++ G.value sch' (.struct sid') w)] }),
        { data := more, open_ := keep }) := by
  obtain ⟨regs, e1, hserv, hdef, -⟩ := routes (code S svc) (ops ++ [.onMessageBegin HttpServer.onBegin])
  obtain ⟨cb, hcb, hroute⟩ : ∃ cb, (cb = none ∨ cb = some HttpServer.onBegin) ∧ Routed regs full name (code S svc i cb) := by
    rcases hwho with ⟨service, rfl, hsep, hcur⟩ | ⟨rfl, hsep, hcur, hno, hng⟩
    · refine ⟨_, .inr rfl, hserv service name i _ hsep ((current_snoc _ _ _ _).2 (.inr ⟨(by simp), hcur⟩)) fun f => ?_⟩
      have hg := services_given ops HttpServer.onBegin service i hcur
      rw [← callback_iff] at hg ⊢
      rw [hg]
    · refine ⟨_, .inl rfl, hdef full i _ hsep ((currentDefault_snoc _ _ _).2 (.inr ⟨(by simp), hcur⟩)) fun f => ?_⟩
      rw [← callback_iff, callback_none _ _ ((default_not_given ops _ HttpServer.onBegin i hno).2 hng)]
  have hb : Began cb name (1 : Nat) seqid ({ user := x } : Web χ) { user := x } := by
    rcases hcb with rfl | rfl
    · rfl
    · show HttpServer.onBegin name _ seqid _ = _
      unfold HttpServer.onBegin
      rw [if_neg (by decide)]
  obtain ⟨s', o', t', -, -, ht, e⟩ := any_multiplexed_reply (withService S (svc i)).env (handle (svc i).handler) cb (svc i).fns regs full name hroute hl hs hp hq
    { inp := S.inp, out := S.out, sink := [], app := { user := x } } hi ho rfl 1 (.inl rfl) seqid fn hh hn hfn htwo hres X v hv _ { user := x', log := [.called fn.name] } hb o
    (by simp only [handle]; rw [show (withService S (svc i)).env.sch = (svc i).sch from rfl, hrun]; rfl) type' sch' sid' w hans hw hd _ blockStep id blockStep_delivers
    (F.header full 1 seqid ++ F.value X (.struct fn.argsId) v) [] (by simp)
  rw [request_run S svc _ hst hi full 1 seqid _ t' x _ _ (by rw [← run_snoc, e1]; exact e) more keep]
  simp only [finish, Bool.false_eq_true, if_false, hfn.1, Server.env, withService, List.nil_append, List.append_nil, List.cons_append]

/-- C99: a message of type `ONEWAY` for a oneway function of a service is answered before the handler is called, and not again. -/
theorem post_oneway_partial (S : Server σ τ χ) (svc : Nat → Service χ) (ops : List (Op (Web χ))) {F : Format} {Idle : σ → Prop} {A : Acceptance}
    (hl : Linear S.p.mro) (hs : .stored ∉ S.p.mro) (hp : Hears S.p F Idle A) (hst : Starts S.p F Idle) (hi : Idle S.inp)
    (service name : PyStr) (i : Nat) (hsep : 58 ∉ service) (hcur : Current ops service i)
    (seqid : Int) (fn : Fn) (hh : Heads A (service ++ [58] ++ name) 4 seqid)
    (hfn : Serves (svc i).fns name fn) (hone : fn.oneway = true) (X : Schema) (v : Val)
    (hv : Suits A (svc i).mode X (svc i).sch fn.argsId v (svc i).fuel) (x x' : χ) (o : Outcome)
    (hrun : (svc i).handler fn (attrsOf (project X (svc i).sch (.struct fn.argsId) v)) x = (o, x'))
    (h1 : ∀ t, o ≠ .transport t) (h2 : ∀ n, o ≠ .base n) (more : Bytes) (keep : Bool) :
    doPost S svc (World.run {} ops) (.ok (F.header (service ++ [58] ++ name) 4 seqid ++ F.value X (.struct fn.argsId) v).length)
        { data := (F.header (service ++ [58] ++ name) 4 seqid ++ F.value X (.struct fn.argsId) v) ++ more, open_ := keep } x =
      some ((.ok (), { user := x', replied := true, log := [.response none [], .called name] }), { data := more, open_ := keep }) := by
  obtain ⟨regs, e1, hserv, -⟩ := routes (code S svc) (ops ++ [.onMessageBegin HttpServer.onBegin])
  have hroute : Routed regs (service ++ [58] ++ name) name (code S svc i (some HttpServer.onBegin)) := by
    refine hserv service name i _ hsep ((current_snoc _ _ _ _).2 (.inr ⟨(by simp), hcur⟩)) fun f => ?_
    have hg := services_given ops HttpServer.onBegin service i hcur
    rw [← callback_iff] at hg ⊢
    rw [hg]
  have hb : Began (some HttpServer.onBegin) name (4 : Nat) seqid ({ user := x } : Web χ) { user := x, replied := true, log := [.response none []] } := by
    show HttpServer.onBegin name _ seqid _ = _
    unfold HttpServer.onBegin
    rw [if_pos (by rfl)]
    rfl
  obtain ⟨s', t', -, ht, e⟩ := any_multiplexed_silent (withService S (svc i)).env (handle (svc i).handler) (some HttpServer.onBegin) (svc i).fns regs _ name hroute hl hs hp
    { inp := S.inp, out := S.out, sink := [], app := { user := x } } hi 4 (.inr rfl) seqid fn hh hfn hone X v hv _
    { user := x', replied := true, log := [.response none [], .called fn.name] } hb o
    (by simp only [handle]; rw [show (withService S (svc i)).env.sch = (svc i).sch from rfl, hrun]; rfl) h1 h2 _ blockStep id blockStep_delivers
    (F.header (service ++ [58] ++ name) 4 seqid ++ F.value X (.struct fn.argsId) v) [] (by simp)
  rw [request_run S svc _ hst hi _ 4 seqid _ t' x _ _ (by rw [← run_snoc, e1]; exact e) more keep]
  simp only [finish, if_true]
  rw [hfn.1]

/-- What C99 does not promise: a oneway message for the default processor is answered after the handler has returned, as it does not get the callback. (The client of
`THttpClient` waits for the response.) -/
theorem post_default_oneway (S : Server σ τ χ) (svc : Nat → Service χ) (ops : List (Op (Web χ))) {F : Format} {Idle : σ → Prop} {A : Acceptance}
    (hl : Linear S.p.mro) (hs : .stored ∉ S.p.mro) (hp : Hears S.p F Idle A) (hst : Starts S.p F Idle) (hi : Idle S.inp)
    (name : PyStr) (i : Nat) (hsep : 58 ∉ name) (hcur : CurrentDefault ops i) (hno : ∀ service, ¬ Current ops service i) (hng : NotGiven ops i)
    (seqid : Int) (fn : Fn) (hh : Heads A name 4 seqid)
    (hfn : Serves (svc i).fns name fn) (hone : fn.oneway = true) (X : Schema) (v : Val)
    (hv : Suits A (svc i).mode X (svc i).sch fn.argsId v (svc i).fuel) (x x' : χ) (o : Outcome)
    (hrun : (svc i).handler fn (attrsOf (project X (svc i).sch (.struct fn.argsId) v)) x = (o, x'))
    (h1 : ∀ t, o ≠ .transport t) (h2 : ∀ n, o ≠ .base n) (more : Bytes) (keep : Bool) :
    doPost S svc (World.run {} ops) (.ok (F.header name 4 seqid ++ F.value X (.struct fn.argsId) v).length)
        { data := (F.header name 4 seqid ++ F.value X (.struct fn.argsId) v) ++ more, open_ := keep } x =
      some ((.ok (), { user := x', replied := false, log := [.called name, .response (some 0) []] }), { data := more, open_ := keep }) := by
  obtain ⟨regs, e1, -, hdef, -⟩ := routes (code S svc) (ops ++ [.onMessageBegin HttpServer.onBegin])
  have hroute : Routed regs name name (code S svc i none) := by
    refine hdef name i _ hsep ((currentDefault_snoc _ _ _).2 (.inr ⟨(by simp), hcur⟩)) fun f => ?_
    rw [← callback_iff, callback_none _ _ ((default_not_given ops _ HttpServer.onBegin i hno).2 hng)]
  obtain ⟨s', t', -, ht, e⟩ := any_multiplexed_silent (withService S (svc i)).env (handle (svc i).handler) none (svc i).fns regs _ name hroute hl hs hp
    { inp := S.inp, out := S.out, sink := [], app := { user := x } } hi 4 (.inr rfl) seqid fn hh hfn hone X v hv { user := x }
    { user := x', log := [.called fn.name] } rfl o
    (by simp only [handle]; rw [show (withService S (svc i)).env.sch = (svc i).sch from rfl, hrun]; rfl) h1 h2 _ blockStep id blockStep_delivers
    (F.header name 4 seqid ++ F.value X (.struct fn.argsId) v) [] (by simp)
  rw [request_run S svc _ hst hi _ 4 seqid _ t' x _ _ (by rw [← run_snoc, e1]; exact e) more keep]
  simp only [finish, Bool.false_eq_true, if_false, hfn.1, List.nil_append, List.append_nil, List.cons_append, List.length_nil]

/-- What C99 does not promise: a call of a service that is not registered is not answered at all: `do_POST` raises. -/
theorem post_unregistered (S : Server σ τ χ) (svc : Nat → Service χ) (ops : List (Op (Web χ))) {F : Format} {Idle : σ → Prop} {A : Acceptance}
    (hp : Hears S.p F Idle A) (hst : Starts S.p F Idle) (hi : Idle S.inp)
    (service name : PyStr) (hsep : 58 ∉ service) (hno : ∀ i, ¬ Current ops service i) (type : Nat)
    (seqid : Int) (hh : Heads A (service ++ [58] ++ name) type seqid) (X : Schema) (sid : Nat) (v : Val) (fuel : Nat)
    (hv : Skips A X sid v fuel) (x : χ) (more : Bytes) (keep : Bool) :
    doPost S svc (World.run {} ops) (.ok (F.header (service ++ [58] ++ name) type seqid ++ F.value X (.struct sid) v).length)
        { data := (F.header (service ++ [58] ++ name) type seqid ++ F.value X (.struct sid) v) ++ more, open_ := keep } x =
      some ((.error TProtocolException.NOT_IMPLEMENTED, { user := x }), { data := more, open_ := keep }) := by
  obtain ⟨regs, e1, -, -, hun, -⟩ := routes (code S svc) (ops ++ [.onMessageBegin HttpServer.onBegin])
  obtain ⟨s', t', e⟩ := any_multiplexed_refused regs (service ++ [58] ++ name) type
    (.inl (hun service name hsep fun i hc => by
      rcases (current_snoc _ _ _ _).1 hc with h | h
      · cases h
      · exact hno i h.2)) hp { inp := S.inp, out := S.out, sink := [], app := { user := x } } hi seqid hh X sid v fuel hv _ blockStep id blockStep_delivers
    (F.header (service ++ [58] ++ name) type seqid ++ F.value X (.struct sid) v) [] (by simp)
  rw [request_run S svc _ hst hi _ type seqid _ t' x _ _ (by rw [← run_snoc, e1]; exact e) more keep]
  rfl

theorem shape_same (fns : List Fn) (a : Web χ) : Shape fns a a := ⟨[], [], by simp, .inl ⟨rfl, rfl⟩, .inl rfl⟩

theorem stored_shape (S : Server σ τ χ) (v : Service χ) {cb : Option (Callback (Web χ))} (hcb : cb = none ∨ cb = some HttpServer.onBegin) (p : Proto σ)
    (m : PyStr × Int × Int) (c : Call σ τ (Web χ) Bytes) :
    (stored (process (withService S v).env (handle v.handler) cb v.fns) p m c).Always fun x => Shape v.fns c.app x.2.app := by
  unfold stored
  cases storedClass p m with
  | error e => exact shape_same _ _
  | ok p' => exact (process_shape _ _ hcb _ _ c).bind fun x hx => hx

theorem multi_shape (S : Server σ τ χ) (svc : Nat → Service χ) (w : World (Web χ)) (hw : ∀ i, w.callback i = none ∨ w.callback i = some HttpServer.onBegin) (p : Proto σ)
    (c : Call σ τ (Web χ) Bytes) : (w.process (code S svc) p c).Always fun x => ∃ i, Shape (svc i).fns c.app x.2.app := by
  unfold World.process multiProcess
  refine Pbind_always ((onIn_always _ c).mono fun y hy => ⟨fun m _ => ?_, fun e _ => ⟨0, by rw [hy]; exact shape_same _ _⟩⟩)
  rw [← hy]
  unfold dispatch
  split
  · exact ⟨0, shape_same _ _⟩
  · cases splitFirst 58 m.1 with
    | none =>
      simp only
      cases w.dflt with
      | some i => exact (stored_shape S (svc i) (hw i) p _ y.2).mono fun z hz => ⟨i, hz⟩
      | none => exact ⟨0, shape_same _ _⟩
    | some sc =>
      simp only
      cases hf : (w.services.map fun s => (s.1, code S svc s.2 (w.callback s.2))).find? (·.1 == sc.1) with
      | none => exact ⟨0, shape_same _ _⟩
      | some np =>
        obtain ⟨n, proc⟩ := np
        obtain ⟨s, -, he⟩ := List.mem_map.1 (List.mem_of_find?_eq_some hf)
        injection he with _ he
        subst he
        exact (stored_shape S (svc s.2) (hw s.2) p _ y.2).mono fun z hz => ⟨s.2, hz⟩

/-- C99: whatever the client sends, to a server that alone uses `on_message_begin`: if `do_POST` returns, it has sent exactly one response, with the right
`Content-Length` or, before the handler was called, without one; if it raises, at most that early one. At most one function of one service was called, once. -/
theorem post_responses (S : Server σ τ χ) (svc : Nat → Service χ) (ops : List (Op (Web χ))) (halone : ∀ i f, Given ops i f → f = HttpServer.onBegin)
    (hover : ∀ n, S.override n = none) (size : Except Exc Int) (f f' : File) (x : χ) (r : Except Exc Unit) (w : Web χ)
    (h : doPost S svc (World.run {} ops) size f x = some ((r, w), f')) :
    calls w.log ≤ 1 ∧ responses w.log ≤ 1 ∧ (r = .ok () → responses w.log = 1) ∧
    (∀ n b, .response n b ∈ w.log → n = some b.length ∧ r = .ok () ∨ n = none ∧ b = [] ∧ w.log.head? = some (.response none [])) ∧
    (∀ name, .called name ∈ w.log → ∃ i, ∃ fn ∈ (svc i).fns, fn.name = name) := by
  unfold doPost at h
  cases size with
  | error e =>
    cases h
    simp [calls, responses]
  | ok n =>
    simp only at h
    have hw : ∀ i, ((World.run {} ops).step (.onMessageBegin HttpServer.onBegin)).callback i = none ∨
        ((World.run {} ops).step (.onMessageBegin HttpServer.onBegin)).callback i = some HttpServer.onBegin := by
      intro i
      rw [← run_snoc]
      cases hc : (World.run {} (ops ++ [.onMessageBegin HttpServer.onBegin])).callback i with
      | none => exact .inl rfl
      | some g =>
        rcases (given_snoc _ _ _ _).1 ((callback_iff _ _ _).1 hc) with (h | ⟨h, -⟩) | ⟨-, h⟩
        · cases h
        · injection h with h
          rw [h]
          exact .inr rfl
        · rw [halone i g h]
          exact .inr rfl
    split at h
    · cases h
    · rename_i y r1 c s' f1 hp
      simp only [Option.some.injEq, Prod.mk.injEq] at h
      obtain ⟨h, -⟩ := h
      obtain ⟨i, hi⟩ := (multi_shape S svc _ hw _ _).run _ hp
      obtain ⟨a, b, c1, d, e⟩ := finish_responses S hover hi h
      exact ⟨a, b, c1, d, fun name hn => ⟨i, e name hn⟩⟩

end

/-! ### The sample service, under the name "store" and as the default -/

section
open SampleService HttpServer

abbrev sampleService (_ : Nat) : Service Nat := { sch := sch, fuel := 100, fns := fns, handler := handler }

/-- Processor 0 is the default, 1 and then 2 are registered as "store". -/
abbrev sampleOps : List (Op (Web Nat)) := [.registerDefault 0, .registerProcessor (pyStr "store") 1, .registerProcessor (pyStr "store") 2]

theorem sample_current : Current sampleOps (pyStr "store") 2 := ⟨[.registerDefault 0, .registerProcessor (pyStr "store") 1], [], rfl, by simp⟩

theorem sample_default : CurrentDefault sampleOps 0 := ⟨[], _, rfl, by simp⟩

theorem sample_none (service : PyStr) (i : Nat) (h : i ≠ 2) : ¬ Current sampleOps service i := by
  intro hc
  have := (services_iff sampleOps service i).2 hc
  simp [World.run, World.step, setItem] at this
  exact h this.2

theorem sample_not_given (i : Nat) : NotGiven sampleOps i := by
  intro pre op post g e hg
  have hm : op ∈ sampleOps := by rw [e]; simp
  rcases hg with rfl | ⟨rfl, -⟩ <;> simp at hm

abbrev sampleAccepts : Acceptance := .limits (some 20) (some 20)

theorem sample_suits : Suits sampleAccepts .gen sch sch 1 (.struct args) 100 :=
  let h := (args_sendable .gen).body (sch_ok _) (sl := some 20) (cl := some 20)
  ⟨h.1, h.2, h.3, h.4, h.5, h.6, h.7, h.8⟩

theorem sample_project : project sch sch (.struct 1) (.struct args) = .struct args := (args_sendable .gen).same (sch_ok _)

/-- `store:log(7, ..)` is answered first. -/
example : doPost sample sampleService (World.run {} sampleOps)
    (.ok (Format.binary.header (pyStr "store" ++ [58] ++ pyStr "log") 4 0 ++ Format.binary.value sch (.struct 1) (.struct args)).length)
    { data := (Format.binary.header (pyStr "store" ++ [58] ++ pyStr "log") 4 0 ++ Format.binary.value sch (.struct 1) (.struct args)) ++ [1, 2] } 5 =
      some ((.ok (), { user := 6, replied := true, log := [.response none [], .called (pyStr "log")] }), { data := [1, 2] }) :=
  post_oneway_partial sample sampleService sampleOps (F := Format.binary) (A := sampleAccepts) ⟨by decide, rfl, by decide⟩ (by decide)
    (hears_of (Binary.reads _) (Binary.steadyProto _)) (binary_starts _) rfl (pyStr "store") (pyStr "log") 2 (by decide) sample_current 0 log
    ⟨by decide, ⟨by omega, by omega⟩, by decide, by intro l h; cases h; decide⟩ serves.2.2 rfl sch (.struct args) sample_suits 5 6 (.returned none)
    (by show handler log (attrsOf (project sch sch (.struct 1) (.struct args))) 5 = _; rw [sample_project]; rfl) (by intro t h; cases h) (by intro n h; cases h) [1, 2] true

/-- `log(7, ..)` goes to the default, and is answered last. -/
example : doPost sample sampleService (World.run {} sampleOps)
    (.ok (Format.binary.header (pyStr "log") 4 0 ++ Format.binary.value sch (.struct 1) (.struct args)).length)
    { data := (Format.binary.header (pyStr "log") 4 0 ++ Format.binary.value sch (.struct 1) (.struct args)) ++ [1, 2] } 5 =
      some ((.ok (), { user := 6, replied := false, log := [.called (pyStr "log"), .response (some 0) []] }), { data := [1, 2] }) :=
  post_default_oneway sample sampleService sampleOps (F := Format.binary) (A := sampleAccepts) ⟨by decide, rfl, by decide⟩ (by decide)
    (hears_of (Binary.reads _) (Binary.steadyProto _)) (binary_starts _) rfl (pyStr "log") 0 (by decide) sample_default (fun s => sample_none s 0 (by decide)) (sample_not_given 0) 0 log
    ⟨by decide, ⟨by omega, by omega⟩, by decide, by intro l h; cases h; decide⟩ serves.2.2 rfl sch (.struct args) sample_suits 5 6 (.returned none)
    (by show handler log (attrsOf (project sch sch (.struct 1) (.struct args))) 5 = _; rw [sample_project]; rfl) (by intro t h; cases h) (by intro n h; cases h) [1, 2] true

/-- The hypotheses of `post_call` hold for `store:get(7)`. -/
example := post_call sample sampleService sampleOps (F := Format.binary) (G := Format.binary) (A := sampleAccepts) ⟨by decide, rfl, by decide⟩ (by decide)
    (hears_of (Binary.reads _) (Binary.steadyProto _)) (binary_starts _) (Binary.writes _ rfl) rfl rfl (pyStr "store" ++ [58] ++ pyStr "get") (pyStr "get") 2
    (.inl ⟨pyStr "store", rfl, by decide, sample_current⟩) 0 get
    ⟨by decide, ⟨by omega, by omega⟩, by decide, by intro l h; cases h; decide⟩ (by decide) serves.1 rfl get_ok sch (.struct args) sample_suits 5 6 (.returned (some (.str (pyStr "seven"))))
    (by show handler get (attrsOf (project sch sch (.struct 1) (.struct args))) 5 = _; rw [sample_project]; rfl) 2 sch 2 seven (.value _ rfl)
    (seven_sendable .gen).typed ((seven_sendable .gen).depth rfl) [1, 2] true

/-- `shop:get(7)` is not answered. -/
example := post_unregistered sample sampleService sampleOps (F := Format.binary) (A := sampleAccepts) (hears_of (Binary.reads _) (Binary.steadyProto _)) (binary_starts _) rfl
    (pyStr "shop") (pyStr "get") (by decide) (fun i h => by
      have := (services_iff sampleOps (pyStr "shop") i).2 h
      simp [World.run, World.step, setItem, pyStr] at this) 1 0
    ⟨by decide, ⟨by omega, by omega⟩, by decide, by intro l h; cases h; decide⟩ sch 1 (.struct args) 100
    ⟨fun sid => (sch_ok .gen sid).1, sample_suits.typed, sample_suits.accepted, by decide, by simp [sampleAccepts, Acceptance.limits, args, BinariesAreText, BinariesAreTextf], sample_suits.fuel⟩ 5 [1, 2] true

/-- The hypothesis of `post_responses` holds. -/
example := post_responses sample sampleService sampleOps (fun i f ⟨pre, op, post, e, hg, _⟩ => absurd hg (sample_not_given i pre op post f e)) (fun _ => rfl)

end
end Thrift.Callbacks
