import Verif.Proofs.Locals
/-
C72: names in the IDL against the variables and methods of the generated code.
-/

namespace Thrift.Locals
open Rpc Names Spec.Locals

variable {V : Type} [DecidableEq V]

/-! ### Reading an immutable struct -/

/-- For every immutable struct and every sequence of fields on the wire: `read` gives each member the last value with its key and type, or
its default, if no member has one of five names.
Missing: those five names, see `read_immutable_iff`. -/
theorem read_immutable_partial {ms : List (Mem V)} (hn : Spec.Locals.Names (ms.map Mem.name)) (hk : (ms.map Mem.key).Nodup)
    (hr : ∀ m ∈ ms, m.name ∉ inRead) (ws : List (Wire V)) :
    readImmutable ms ws = .ok (ms.map fun m => (escape m.name, received ws m)) := by
  have out : ∀ n ∈ inRead, n ∉ ms.map Mem.name := by
    intro n hn hm
    obtain ⟨m, hm, e⟩ := List.mem_map.1 hm
    exact hr m hm (e ▸ hn)
  rw [read_exact ((accepted_iff _).2 hn) hk (out _ (by decide +kernel)), if_neg (out _ (by decide +kernel))]
  congr 1
  refine List.map_congr_left fun m hm => ?_
  have ne : ∀ n ∈ inRead, m.name ≠ n := fun n hn e => hr m hm (e ▸ hn)
  unfold gets Mem.var
  rw [if_neg (ne _ (by decide +kernel)), if_neg (ne _ (by decide +kernel)), if_neg (ne _ (by decide +kernel))]

/-- What happens to the five names, for every sequence of fields: `iprot` and `cls` make `read` raise an exception; members named `fid`
and `ftype` are 0, and one named `fname` is `None`, whatever was sent. -/
theorem read_immutable_wrong {ms : List (Mem V)} (hn : Spec.Locals.Names (ms.map Mem.name)) (hk : (ms.map Mem.key).Nodup) (ws : List (Wire V)) :
    (pyStr "iprot" ∈ ms.map Mem.name → readImmutable ms ws = .error .attributeError) ∧
    (pyStr "iprot" ∉ ms.map Mem.name → pyStr "cls" ∈ ms.map Mem.name → readImmutable ms ws = .error .typeError) ∧
    (∀ as, readImmutable ms ws = .ok as →
      (pyStr "fid" ∈ ms.map Mem.name → (pyStr "fid", .int 0) ∈ as) ∧ (pyStr "ftype" ∈ ms.map Mem.name → (pyStr "ftype", .int 0) ∈ as) ∧
      (pyStr "fname" ∈ ms.map Mem.name → (pyStr "fname", .none) ∈ as)) := by
  have ha := (accepted_iff _).2 hn
  refine ⟨fun hi => read_iprot ha hi ws, fun hi hc => by rw [read_exact ha hk hi, if_pos hc], fun as h => ?_⟩
  have hi : pyStr "iprot" ∉ ms.map Mem.name := by
    intro hi
    rw [read_iprot ha hi ws] at h
    cases h
  rw [read_exact ha hk hi] at h
  by_cases hc : pyStr "cls" ∈ ms.map Mem.name
  · rw [if_pos hc] at h; cases h
  rw [if_neg hc] at h
  injection h with h
  subst h
  refine ⟨?_, ?_, ?_⟩
  all_goals
    intro hm
    obtain ⟨m, hm, e⟩ := List.mem_map.1 hm
    refine List.mem_map.2 ⟨m, hm, ?_⟩
    unfold gets Mem.var
    rw [e]
    rfl

/-- `read` is right for all sequences of fields exactly if no member has one of the five names. -/
theorem read_immutable_iff [Nonempty V] {ms : List (Mem V)} (hn : Spec.Locals.Names (ms.map Mem.name)) (hk : (ms.map Mem.key).Nodup) :
    (∀ ws, readImmutable ms ws = .ok (ms.map fun m => (escape m.name, received ws m))) ↔ ∀ m ∈ ms, m.name ∉ inRead := by
  refine ⟨fun h m hm hin => ?_, fun h ws => read_immutable_partial hn hk h ws⟩
  have hname : m.name ∈ ms.map Mem.name := List.mem_map_of_mem hm
  obtain ⟨v⟩ := ‹Nonempty V›
  have hw := h [⟨m.key, m.ttype, v⟩]
  have wrong := read_immutable_wrong hn hk [⟨m.key, m.ttype, v⟩]
  have hrec : received [⟨m.key, m.ttype, v⟩] m = .val v := by simp [received]
  -- the value of a member that is read
  have only : ∀ o, (escape m.name, o) ∈ (ms.map fun m' => (escape m'.name, received [⟨m.key, m.ttype, v⟩] m')) → o = .val v := by
    intro o ho
    obtain ⟨m', hm', e⟩ := List.mem_map.1 ho
    injection e with e1 e2
    have : m' = m := upd_member.List.inj_on_of_nodup_map' (vars_nodup ((accepted_iff _).2 hn)) hm' hm e1
    rw [← e2, this, hrec]
  have own : ∀ n ∈ inRead, escape n = n := by decide +kernel
  have hin' := hin
  simp only [inRead, List.map_cons, List.map_nil, List.mem_cons, List.not_mem_nil, or_false] at hin'
  rcases hin' with e | e | e | e | e
  · rw [wrong.1 (e ▸ hname)] at hw; cases hw
  · by_cases hi : pyStr "iprot" ∈ ms.map Mem.name
    · rw [wrong.1 hi] at hw; cases hw
    · rw [wrong.2.1 hi (e ▸ hname)] at hw; cases hw
  · have := only .none (by rw [own _ hin, e]; exact (wrong.2.2 _ hw).2.2 (e ▸ hname))
    cases this
  · have := only (.int 0) (by rw [own _ hin, e]; exact (wrong.2.2 _ hw).2.1 (e ▸ hname))
    cases this
  · have := only (.int 0) (by rw [own _ hin, e]; exact (wrong.2.2 _ hw).1 (e ▸ hname))
    cases this

/-! ### Calling -/

/-- A client sends the values that it was given, under the names of the parameters, exactly if no parameter has one of the names of
`inCall`. -/
theorem call_iff {as : List (PyStr × V)} (hn : Spec.Locals.Names (as.map (·.1))) (k : Kind) (oneway : Bool) (n : Int) :
    call k oneway n as = .ok (as.map fun a => (escape a.1, .val a.2)) ↔ ∀ a ∈ as, a.1 ∉ inCall k oneway := by
  rw [call_exact ((accepted_iff _).2 hn)]
  by_cases hw : pyStr "write" ∈ as.map (·.1) ∨ pyStr "validate" ∈ as.map (·.1)
  · rw [if_pos hw]
    refine ⟨(fun h => nomatch h), fun h => ?_⟩
    exfalso
    rcases hw with hw | hw
    all_goals
      obtain ⟨a, ha, e⟩ := List.mem_map.1 hw
      apply h a ha
      rw [e]
      simp [inCall]
  · rw [if_neg hw]
    simp only [not_or] at hw
    have key : ∀ a ∈ as, sends k (a.1, passes k oneway n a) = .val a.2 ↔ a.1 ∉ inCall k oneway := by
      intro a ha
      have w1 : a.1 ≠ pyStr "write" := fun e => hw.1 (e ▸ List.mem_map_of_mem (f := (·.1)) ha)
      have w2 : a.1 ≠ pyStr "validate" := fun e => hw.2 (e ▸ List.mem_map_of_mem (f := (·.1)) ha)
      have d1 : pyStr "oprot" ≠ pyStr "args" := by decide +kernel
      have d2 : pyStr "seqid" ≠ pyStr "args" := by decide +kernel
      have d3 : pyStr "seqid" ≠ pyStr "oprot" := by decide +kernel
      have d4 : pyStr "future" ≠ pyStr "args" := by decide +kernel
      have d5 : pyStr "future" ≠ pyStr "oprot" := by decide +kernel
      by_cases h1 : a.1 = pyStr "args"
      · simp [sends, inCall, h1]
      · cases k with
        | blocking => simp [sends, passes, inCall, h1, w1, w2]
        | twisted =>
          by_cases h2 : a.1 = pyStr "oprot"
          · simp [sends, inCall, h2, d1]
          · by_cases h3 : a.1 = pyStr "seqid"
            · simp [sends, passes, inCall, h3, d2, d3]
            · simp [sends, passes, inCall, h1, h2, h3, w1, w2]
        | tornado =>
          by_cases h2 : a.1 = pyStr "oprot"
          · cases oneway <;> simp [sends, inCall, h2, d1]
          · cases oneway with
            | true => simp [sends, passes, inCall, h1, h2, w1, w2]
            | false =>
              by_cases h3 : a.1 = pyStr "future"
              · simp [sends, passes, inCall, h3, d4, d5]
              · simp [sends, passes, inCall, h1, h2, h3, w1, w2]
    constructor
    · intro h a ha
      injection h with h
      have := List.map_inj_left.1 h a ha
      injection this with _ h2
      exact (key a ha).1 h2
    · intro h
      congr 1
      refine List.map_congr_left fun a ha => ?_
      rw [(key a ha).2 (h a ha)]

/-- What is sent for the other names, without an exception: for a parameter `args` the object `args` itself; with Twisted the sequence id
for a parameter `seqid`; with Tornado the new `Future` for a parameter `future`; with both the protocol for a parameter `oprot`. -/
theorem call_wrong {as : List (PyStr × V)} (hn : Spec.Locals.Names (as.map (·.1))) (k : Kind) (oneway : Bool) (n : Int)
    (hw : pyStr "write" ∉ as.map (·.1)) (hv : pyStr "validate" ∉ as.map (·.1)) :
    ∃ bs, call k oneway n as = .ok bs ∧
      (pyStr "args" ∈ as.map (·.1) → (pyStr "args", .args) ∈ bs) ∧
      (k ≠ .blocking → pyStr "oprot" ∈ as.map (·.1) → (pyStr "oprot", .oprot) ∈ bs) ∧
      (k = .twisted → pyStr "seqid" ∈ as.map (·.1) → (pyStr "seqid", .int n) ∈ bs) ∧
      (k = .tornado → oneway = false → pyStr "future" ∈ as.map (·.1) → (pyStr "future", .future) ∈ bs) := by
  rw [call_exact ((accepted_iff _).2 hn), if_neg (by simp only [hw, hv, or_self, not_false_eq_true])]
  refine ⟨_, rfl, ?_, ?_, ?_, ?_⟩
  · intro hm
    obtain ⟨a, ha, e⟩ := List.mem_map.1 hm
    refine List.mem_map.2 ⟨a, ha, ?_⟩
    unfold sends
    rw [if_pos e, e]
    rfl
  · intro hk hm
    obtain ⟨a, ha, e⟩ := List.mem_map.1 hm
    refine List.mem_map.2 ⟨a, ha, ?_⟩
    unfold sends
    dsimp only
    rw [if_neg (by rw [e]; decide +kernel), if_pos ⟨hk, e⟩, e]
    rfl
  · intro hk hm
    obtain ⟨a, ha, e⟩ := List.mem_map.1 hm
    refine List.mem_map.2 ⟨a, ha, ?_⟩
    unfold sends passes
    subst hk
    dsimp only
    rw [if_neg (by rw [e]; decide +kernel), if_neg (by rw [e]; decide +kernel), if_pos e, e]
    rfl
  · intro hk ho hm
    obtain ⟨a, ha, e⟩ := List.mem_map.1 hm
    refine List.mem_map.2 ⟨a, ha, ?_⟩
    unfold sends passes
    subst hk
    dsimp only
    rw [if_neg (by rw [e]; decide +kernel), if_neg (by rw [e]; decide +kernel), if_pos ⟨ho, e⟩, e]
    rfl

/-- A parameter named `write` or `validate` hides the method of `f_args`: every call fails. -/
theorem call_hidden {as : List (PyStr × V)} (hn : Spec.Locals.Names (as.map (·.1))) (k : Kind) (oneway : Bool) (n : Int)
    (hw : pyStr "write" ∈ as.map (·.1) ∨ pyStr "validate" ∈ as.map (·.1)) : call k oneway n as = .error .typeError := by
  rw [call_exact ((accepted_iff _).2 hn), if_pos hw]

/-! ### Processing -/

/-- When the handler raises a declared exception, the reply has the type REPLY and the sequence id of the call, and carries the exception under
its key; exactly if neither the parameters nor the exceptions have one of these names. -/
theorem process_raises_iff {s : Sig} (hd : Declared s) (hp : Spec.Locals.Names s.params) (hx : Spec.Locals.Names (s.throws.map (·.1))) (k : Kind)
    (q : Int) {x : PyStr × Int} (hm : x ∈ s.throws) (e : V) :
    processRaises k s q x.1 e = .ok ⟨.int 2, .int q, [(x.2, .val e)]⟩ ↔
      pyStr "read" ∉ s.params ∧ x.1 ∉ inProcess ∧ pyStr "write" ∉ s.throws.map (·.1) ∧ pyStr "validate" ∉ s.throws.map (·.1) ∧
      (x.1 = pyStr "success" → s.void = true) := by
  rw [process_exact hd ((accepted_iff _).2 hp) ((accepted_iff _).2 hx) k q hm]
  have hin : x.1 ∈ inProcess ↔ x.1 = pyStr "result" ∨ x.1 = pyStr "oprot" ∨ x.1 = pyStr "seqid" ∨ x.1 = pyStr "msg_type" := by
    simp [inProcess]
  rw [hin]
  by_cases h1 : pyStr "read" ∈ s.params
  · rw [if_pos h1]; exact ⟨(fun h => nomatch h), fun h => absurd h1 h.1⟩
  rw [if_neg h1]
  by_cases h2 : x.1 = pyStr "result"
  · rw [if_pos h2]; exact ⟨(fun h => nomatch h), fun h => absurd (Or.inl h2) h.2.1⟩
  rw [if_neg h2]
  by_cases h3 : x.1 = pyStr "oprot" ∨ x.1 = pyStr "msg_type" ∨ x.1 = pyStr "seqid"
  · rw [if_pos h3]
    refine ⟨(fun h => nomatch h), fun h => absurd ?_ h.2.1⟩
    rcases h3 with h | h | h
    · exact .inr (.inl h)
    · exact .inr (.inr (.inr h))
    · exact .inr (.inr (.inl h))
  rw [if_neg h3]
  simp only [not_or] at h3
  by_cases h4 : pyStr "write" ∈ s.throws.map (·.1) ∨ pyStr "validate" ∈ s.throws.map (·.1)
  · rw [if_pos h4]
    refine ⟨(fun h => nomatch h), fun h => ?_⟩
    rcases h4 with h4 | h4
    · exact absurd h4 h.2.2.1
    · exact absurd h4 h.2.2.2.1
  rw [if_neg h4]
  simp only [not_or] at h4
  have hk : x.2 ≠ 0 := fun h => hd.2.2 (List.mem_map.2 ⟨x, hm, h⟩)
  unfold keyOf
  by_cases h5 : s.void = false ∧ x.1 = pyStr "success"
  · rw [if_pos h5]
    refine ⟨fun h => ?_, fun h => ?_⟩
    · injection h with h
      injection h with _ _ h
      injection h with h _
      injection h with h _
      exact absurd h.symm hk
    · have := h.2.2.2.2 h5.2
      rw [h5.1] at this
      cases this
  · rw [if_neg h5]
    refine ⟨fun _ => ⟨h1, by simp [h2, h3], h4.1, h4.2, fun hs => ?_⟩, fun _ => rfl⟩
    cases hv : s.void with
    | true => rfl
    | false => exact absurd ⟨hv, hs⟩ h5

/-- An exception declared under the name `success` is written in the place of the result of the function. -/
theorem process_success {s : Sig} (hd : Declared s) (hp : Spec.Locals.Names s.params) (hx : Spec.Locals.Names (s.throws.map (·.1))) (k : Kind)
    (q : Int) {x : PyStr × Int} (hm : x ∈ s.throws) (e : V) (hs : x.1 = pyStr "success") (hv : s.void = false) (hr : pyStr "read" ∉ s.params)
    (hw : pyStr "write" ∉ s.throws.map (·.1)) (hva : pyStr "validate" ∉ s.throws.map (·.1)) :
    processRaises k s q x.1 e = .ok ⟨.int 2, .int q, [(0, .val e)]⟩ := by
  rw [process_exact hd ((accepted_iff _).2 hp) ((accepted_iff _).2 hx) k q hm, if_neg hr, if_neg (by rw [hs]; decide +kernel),
    if_neg (by rw [hs]; decide +kernel), if_neg (by simp only [hw, hva, or_self, not_false_eq_true])]
  unfold keyOf
  rw [if_pos ⟨hv, hs⟩]

/-- Exceptions named after a variable of the processor: no reply is sent. -/
theorem process_no_reply {s : Sig} (hd : Declared s) (hp : Spec.Locals.Names s.params) (hx : Spec.Locals.Names (s.throws.map (·.1))) (k : Kind)
    (q : Int) {x : PyStr × Int} (hm : x ∈ s.throws) (e : V) (hs : x.1 ∈ inProcess) :
    processRaises k s q x.1 e = .error .typeError ∨ processRaises k s q x.1 e = .error .unboundLocal := by
  rw [process_exact hd ((accepted_iff _).2 hp) ((accepted_iff _).2 hx) k q hm]
  simp only [inProcess, List.map_cons, List.map_nil, List.mem_cons, List.not_mem_nil, or_false] at hs
  by_cases h1 : pyStr "read" ∈ s.params
  · rw [if_pos h1]; exact .inl rfl
  rw [if_neg h1]
  by_cases h2 : x.1 = pyStr "result"
  · rw [if_pos h2]; exact .inl rfl
  rw [if_neg h2, if_pos ?_]
  · exact .inr rfl
  · rcases hs with h | h | h | h
    · exact absurd h h2
    · exact .inl h
    · exact .inr (.inr h)
    · exact .inr (.inl h)

/-- Names that Python does not accept: nothing of the module can be used. The compiler accepts them. -/
theorem module_unusable {V : Type} [DecidableEq V] {ms : List (Mem V)} (h : ¬ Spec.Locals.Names (ms.map Mem.name)) (ws : List (Wire V)) :
    readImmutable ms ws = .error .syntaxError := by
  unfold readImmutable
  rw [if_neg (fun ha => h ((accepted_iff _).1 ha))]

/-! ### Examples -/

namespace Example

/-- `exception NotFound { 1: string what, 2: i32 code }`; the type of strings is 11, of `i32` 8 -/
def good : List (Mem Nat) := [⟨pyStr "what", 1, 11, none⟩, ⟨pyStr "from", 2, 8, some 7⟩]

theorem good_names : Spec.Locals.Names (good.map Mem.name) := by unfold Spec.Locals.Names; decide +kernel

/-- Two fields, the second twice -/
def wire : List (Wire Nat) := [⟨2, 8, 5⟩, ⟨1, 11, 40⟩, ⟨3, 8, 0⟩, ⟨2, 11, 9⟩, ⟨2, 8, 6⟩]

example : readImmutable good wire = .ok [(pyStr "what", .val 40), (pyStr "from_", .val 6)] :=
  (read_immutable_partial good_names (by decide) (by decide +kernel) wire).trans (by decide +kernel)

/-- `exception BadField { 1: i16 fid, 2: string fname, 3: string what }` -/
def bad : List (Mem Nat) := [⟨pyStr "fid", 1, 6, none⟩, ⟨pyStr "fname", 2, 11, none⟩, ⟨pyStr "what", 3, 11, none⟩]

theorem bad_names : Spec.Locals.Names (bad.map Mem.name) := by unfold Spec.Locals.Names; decide +kernel

example : readImmutable bad [⟨1, 6, 12⟩, ⟨2, 11, 13⟩, ⟨3, 11, 14⟩] =
    .ok [(pyStr "fid", .int 0), (pyStr "fname", .none), (pyStr "what", .val 14)] := by decide +kernel

example : ∃ ws, readImmutable bad ws ≠ .ok (bad.map fun m => (escape m.name, received ws m)) := by
  have := mt (read_immutable_iff bad_names (by decide)).1 (by decide +kernel)
  exact Classical.not_forall.1 this

/-- `exec(1: string cmd, 2: list<string> args)` -/
example : call .blocking false 1 [(pyStr "cmd", 10), (pyStr "args", 11)] =
    Except.ok (ε := PyErr) [(pyStr "cmd", Obj.val 10), (pyStr "args", .args)] := by decide +kernel

example : Spec.Locals.Names ([(pyStr "cmd", 10), (pyStr "args", 11)].map (·.1)) := by unfold Spec.Locals.Names; decide +kernel

/-- `ack(1: i32 seqid)` with Twisted -/
example : call .twisted false 4 [(pyStr "seqid", 99)] = Except.ok (ε := PyErr) [(pyStr "seqid", Obj.int 4)] := by decide +kernel

/-- `chmod(1: string path, 2: bool read, 3: bool write)` -/
example : call .blocking false 1 [(pyStr "path", 1), (pyStr "read", 1), (pyStr "write", 0)] = .error .typeError := by decide +kernel

/-- `i32 f(1: i32 a) throws (1: Error err, 2: Retry result, 3: Odd success)` -/
def sig : Sig := ⟨[pyStr "a"], false, [(pyStr "err", 1), (pyStr "result", 2), (pyStr "success", 3)]⟩

theorem sig_declared : Declared sig := by unfold Declared; decide +kernel
theorem sig_params : Spec.Locals.Names sig.params := by unfold Spec.Locals.Names; decide +kernel
theorem sig_throws : Spec.Locals.Names (sig.throws.map (·.1)) := by unfold Spec.Locals.Names; decide +kernel

example : processRaises .twisted sig 5 (pyStr "err") 70 = .ok ⟨.int 2, .int 5, [(1, .val 70)]⟩ :=
  (process_raises_iff sig_declared sig_params sig_throws .twisted 5 (x := (pyStr "err", 1)) (by decide +kernel) 70).2 (by decide +kernel)

example : processRaises .blocking sig 5 (pyStr "success") 70 = .ok ⟨.int 2, .int 5, [(0, .val 70)]⟩ :=
  process_success sig_declared sig_params sig_throws .blocking 5 (x := (pyStr "success", 3)) (by decide +kernel) 70 rfl rfl
    (by decide +kernel) (by decide +kernel) (by decide +kernel)

example : processRaises .tornado sig 5 (pyStr "result") 70 = .error .typeError := by decide +kernel

/-- `exception E { 1: string self }` -/
example : readImmutable (V := Nat) [⟨pyStr "self", 1, 11, none⟩] [] = .error .syntaxError :=
  module_unusable (by unfold Spec.Locals.Names; decide +kernel) []

end Example

end Thrift.Locals
