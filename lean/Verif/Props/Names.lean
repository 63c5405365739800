import Verif.Model.Names
import Verif.Spec.Names
/-
C60: the names in the generated code.
-/

namespace Thrift.Names
open Rpc Spec.Names

theorem attr_eq {defs : Fn → List (PyStr × Def)} {svc : List (List Fn)} {n : PyStr} {d : Def}
    (hex : ∃ f ∈ svc.flatten, (n, d) ∈ defs f) (hu : ∀ f ∈ svc.flatten, ∀ d', (n, d') ∈ defs f → d' = d) :
    attr defs svc n = some d := by
  unfold attr
  induction svc with
  | nil => obtain ⟨f, hf, _⟩ := hex; cases hf
  | cons fns base ih =>
    rw [List.findSome?_cons]
    cases hfind : (fns.flatMap defs).reverse.find? fun e => e.1 = n with
    | some e =>
      have h1 := List.mem_of_find?_eq_some hfind
      have h2 := List.find?_some hfind
      simp only [List.mem_reverse, List.mem_flatMap] at h1
      obtain ⟨f, hf, he⟩ := h1
      simp only [decide_eq_true_eq] at h2
      have := hu f (by simp [hf]) e.2 (by rw [← h2]; exact he)
      simp [this]
    | none =>
      simp only [Option.map_none]
      refine ih ?_ fun f hf => hu f (by rw [List.flatten_cons]; exact List.mem_append.2 (.inr hf))
      obtain ⟨f, hf, he⟩ := hex
      rw [List.flatten_cons, List.mem_append] at hf
      rcases hf with h | h
      · have := List.find?_eq_none.1 hfind (n, d) (by simp only [List.mem_reverse, List.mem_flatMap]; exact ⟨f, h, he⟩)
        simp at this
      · exact ⟨f, h, he⟩

theorem attr_none {defs : Fn → List (PyStr × Def)} {svc : List (List Fn)} {n : PyStr}
    (hu : ∀ f ∈ svc.flatten, ∀ d', (n, d') ∉ defs f) : attr defs svc n = none := by
  unfold attr
  induction svc with
  | nil => rfl
  | cons fns base ih =>
    rw [List.findSome?_cons]
    have : (fns.flatMap defs).reverse.find? (fun e => e.1 = n) = none := by
      rw [List.find?_eq_none]
      intro e he h2
      simp only [List.mem_reverse, List.mem_flatMap] at he
      obtain ⟨f, hf, he⟩ := he
      simp only [decide_eq_true_eq] at h2
      exact hu f (by simp [hf]) e.2 (by rw [← h2]; exact he)
    rw [this]
    exact ih fun f hf => hu f (by rw [List.flatten_cons]; exact List.mem_append.2 (.inr hf))

theorem mem_clientDefs {k : Kind} {f : Fn} {n : PyStr} {d : Def} (h : (n, d) ∈ clientDefs k f) :
    (n = escape f.name ∧ d = .method f) ∨ (n = pyStr "cb_send_" ++ f.name ∧ d = .cbSend f) ∨ (n = pyStr "eb_send_" ++ f.name ∧ d = .ebSend f) ∨
    (n = pyStr "send_" ++ escape f.name ∧ d = .send f) ∨ (n = pyStr "recv_" ++ escape f.name ∧ d = .recv f) := by
  unfold clientDefs at h
  simp only [List.mem_cons, List.mem_append, Prod.mk.injEq] at h
  rcases h with h | h | h | h
  · exact .inl h
  · split at h
    · simp only [List.mem_cons, Prod.mk.injEq, List.not_mem_nil, or_false] at h
      rcases h with h | h
      · exact .inr (.inl h)
      · exact .inr (.inr (.inl h))
    · cases h
  · exact .inr (.inr (.inr (.inl h)))
  · split at h
    · cases h
    · simp only [List.mem_cons, Prod.mk.injEq, List.not_mem_nil, or_false] at h
      exact .inr (.inr (.inr (.inr h)))

theorem escape_inj {svc : List (List Fn)} (hd : Distinct svc) {f g : Fn} (hf : f ∈ svc.flatten) (hg : g ∈ svc.flatten)
    (h : escape f.name = escape g.name) : f = g := by
  unfold escape at h
  split at h
  · split at h
    · exact hd.names f hf g hg (List.append_cancel_right h)
    · exact (hd.underscore g hg f hf h.symm).elim
  · split at h
    · exact (hd.underscore f hf g hg h).elim
    · exact hd.names f hf g hg h

theorem pyStr_send : pyStr "send_" = [115, 101, 110, 100, 95] := by decide
theorem pyStr_recv : pyStr "recv_" = [114, 101, 99, 118, 95] := by decide
theorem pyStr_cb : pyStr "cb_send_" = [99, 98, 95, 115, 101, 110, 100, 95] := by decide
theorem pyStr_eb : pyStr "eb_send_" = [101, 98, 95, 115, 101, 110, 100, 95] := by decide

/-- The escaped name of a function does not begin as another method of the class does. -/
theorem escape_plain {svc : List (List Fn)} (hp : Plain svc) {f : Fn} (hf : f ∈ svc.flatten) :
    ∀ p ∈ ["send_", "recv_", "cb_send_", "eb_send_"].map pyStr, ∀ x, escape f.name ≠ p ++ x := by
  intro p hpm x h
  unfold escape at h
  split at h
  · rename_i hk
    have table : ∀ k ∈ keywords, ∀ p ∈ ["send_", "recv_", "cb_send_", "eb_send_"].map pyStr, ¬ p <+: k ++ pyStr "_" := by
      decide +kernel
    exact table _ hk p hpm ⟨x, h.symm⟩
  · exact hp f hf p hpm ⟨x, h.symm⟩

theorem mem_prefixes : pyStr "send_" ∈ ["send_", "recv_", "cb_send_", "eb_send_"].map pyStr ∧
    pyStr "recv_" ∈ ["send_", "recv_", "cb_send_", "eb_send_"].map pyStr ∧
    pyStr "cb_send_" ∈ ["send_", "recv_", "cb_send_", "eb_send_"].map pyStr ∧
    pyStr "eb_send_" ∈ ["send_", "recv_", "cb_send_", "eb_send_"].map pyStr := by decide

/-- The methods of a function are what its names mean. -/
theorem own {k : Kind} {svc : List (List Fn)} (hd : Distinct svc) (hp : Plain svc) {f : Fn} (hf : f ∈ svc.flatten) {n : PyStr} {d : Def}
    (h : (n, d) ∈ clientDefs k f) : attr (clientDefs k) svc n = some d := by
  obtain ⟨m1, m2, m3, m4⟩ := mem_prefixes
  refine attr_eq ⟨f, hf, h⟩ fun g hg d' h' => ?_
  have pf := escape_plain hp hf
  have pg := escape_plain hp hg
  rcases mem_clientDefs h with ⟨a, b⟩ | ⟨a, b⟩ | ⟨a, b⟩ | ⟨a, b⟩ | ⟨a, b⟩ <;>
    rcases mem_clientDefs h' with ⟨a', b'⟩ | ⟨a', b'⟩ | ⟨a', b'⟩ | ⟨a', b'⟩ | ⟨a', b'⟩ <;> rw [a] at a' <;> subst b b'
  · rw [escape_inj hd hf hg a']
  · exact (pf _ m3 _ a').elim
  · exact (pf _ m4 _ a').elim
  · exact (pf _ m1 _ a').elim
  · exact (pf _ m2 _ a').elim
  · exact (pg _ m3 _ a'.symm).elim
  · rw [hd.names f hf g hg (List.append_cancel_left a')]
  · simp [pyStr_cb, pyStr_eb] at a'
  · simp [pyStr_cb, pyStr_send] at a'
  · simp [pyStr_cb, pyStr_recv] at a'
  · exact (pg _ m4 _ a'.symm).elim
  · simp [pyStr_cb, pyStr_eb] at a'
  · rw [hd.names f hf g hg (List.append_cancel_left a')]
  · simp [pyStr_eb, pyStr_send] at a'
  · simp [pyStr_eb, pyStr_recv] at a'
  · exact (pg _ m1 _ a'.symm).elim
  · simp [pyStr_cb, pyStr_send] at a'
  · simp [pyStr_eb, pyStr_send] at a'
  · rw [escape_inj hd hf hg (List.append_cancel_left a')]
  · simp [pyStr_send, pyStr_recv] at a'
  · exact (pg _ m2 _ a'.symm).elim
  · simp [pyStr_cb, pyStr_recv] at a'
  · simp [pyStr_eb, pyStr_recv] at a'
  · simp [pyStr_send, pyStr_recv] at a'
  · rw [escape_inj hd hf hg (List.append_cancel_left a')]

/-- The methods that the client method of `f` should use. -/
def wanted (k : Kind) (f : Fn) : List Def :=
  match k with
  | .blocking => .send f :: if f.oneway then [] else [.recv f]
  | .tornado => [.send f]
  | .twisted => [.send f, .cbSend f, .ebSend f]

/-- C60: if the functions of a service have distinct names, none of which begins as the name of a helper, then for a function whose name
is no keyword: the client has a method of this name, it uses the helpers of its own function, and a reply with its name is read by its
own `recv_*`. -/
theorem names_client_partial (k : Kind) (svc : List (List Fn)) (hd : Distinct svc) (hp : Plain svc) (f : Fn) (hf : f ∈ svc.flatten)
    (hk : f.name ∉ keywords) :
    attr (clientDefs k) svc f.name = some (.method f) ∧ (uses k f).map (attr (clientDefs k) svc) = (wanted k f).map some ∧
      (f.oneway = false → receiver k svc f.name = some (.recv f)) := by
  have he : escape f.name = f.name := if_neg hk
  have hm := own (k := k) hd hp hf (n := f.name) (d := .method f) (by simp [clientDefs, he])
  have hs := own (k := k) hd hp hf (n := pyStr "send_" ++ f.name) (d := .send f) (by simp [clientDefs, he])
  have hr : f.oneway = false → attr (clientDefs k) svc (pyStr "recv_" ++ f.name) = some (.recv f) := fun ho =>
    own (k := k) hd hp hf (by simp [clientDefs, he, ho])
  refine ⟨hm, ?_, hr⟩
  cases k with
  | blocking =>
    cases ho : f.oneway with
    | true => simp [uses, wanted, ho, hs]
    | false => simp [uses, wanted, ho, hs, hr ho]
  | tornado => simp [uses, wanted, hs]
  | twisted =>
    have h1 := own (k := .twisted) hd hp hf (n := pyStr "cb_send_" ++ f.name) (d := .cbSend f) (by simp [clientDefs])
    have h2 := own (k := .twisted) hd hp hf (n := pyStr "eb_send_" ++ f.name) (d := .ebSend f) (by simp [clientDefs])
    simp [uses, wanted, hs, h1, h2]

/-- C60 fails for a function whose name is a keyword: its client method is there, under the escaped name, but uses `send_` with the name
as it is, which does not exist: every call raises `AttributeError`, with each kind of client. A reply with this name is not read
either. -/
theorem names_keyword (k : Kind) (svc : List (List Fn)) (hd : Distinct svc) (hp : Plain svc) (f : Fn) (hf : f ∈ svc.flatten)
    (hk : f.name ∈ keywords) :
    attr (clientDefs k) svc (f.name ++ pyStr "_") = some (.method f) ∧ attr (clientDefs k) svc (pyStr "send_" ++ f.name) = none ∧
      pyStr "send_" ++ f.name ∈ uses k f ∧ receiver k svc f.name = none := by
  obtain ⟨m1, m2, m3, m4⟩ := mem_prefixes
  have he : escape f.name = f.name ++ pyStr "_" := if_pos hk
  have table : ∀ k ∈ keywords, ∀ k' ∈ keywords, k' ++ pyStr "_" ≠ k := by decide +kernel
  have hesc : ∀ g ∈ svc.flatten, escape g.name ≠ f.name := by
    intro g hg h
    unfold escape at h
    split at h
    · rename_i hg'
      exact table _ hk _ hg' h
    · rename_i hg'
      exact hg' (h ▸ hk)
  refine ⟨own hd hp hf (by simp [clientDefs, he]), ?_, by cases k <;> simp [uses], ?_⟩
  · refine attr_none fun g hg d h => ?_
    rcases mem_clientDefs h with ⟨a, _⟩ | ⟨a, _⟩ | ⟨a, _⟩ | ⟨a, _⟩ | ⟨a, _⟩
    · exact escape_plain hp hg _ m1 _ a.symm
    · simp [pyStr_cb, pyStr_send] at a
    · simp [pyStr_eb, pyStr_send] at a
    · exact hesc g hg (List.append_cancel_left a).symm
    · simp [pyStr_send, pyStr_recv] at a
  · refine attr_none fun g hg d h => ?_
    rcases mem_clientDefs h with ⟨a, _⟩ | ⟨a, _⟩ | ⟨a, _⟩ | ⟨a, _⟩ | ⟨a, _⟩
    · exact escape_plain hp hg _ m2 _ a.symm
    · simp [pyStr_cb, pyStr_recv] at a
    · simp [pyStr_eb, pyStr_recv] at a
    · simp [pyStr_send, pyStr_recv] at a
    · exact hesc g hg (List.append_cancel_left a).symm

theorem mem_processMap {svc : List (List Fn)} : ∀ {e}, e ∈ processMap svc → ∃ f ∈ svc.flatten, ∃ pre own base, svc = pre ++ own :: base ∧ f ∈ own ∧
    e = (f.name, attr processorDefs (own :: base) (pyStr "process_" ++ escape f.name)) := by
  induction svc with
  | nil => intro e h; cases h
  | cons fns base ih =>
    intro e h
    simp only [processMap, List.mem_append, List.mem_map] at h
    rcases h with h | ⟨f, hf, rfl⟩
    · obtain ⟨f, hf, pre, own, base', rfl, h1, h2⟩ := ih h
      exact ⟨f, by rw [List.flatten_cons]; exact List.mem_append.2 (.inr hf), fns :: pre, own, base', rfl, h1, h2⟩
    · exact ⟨f, by simp [hf], [], fns, base, rfl, hf, rfl⟩

theorem processMap_keys : ∀ {svc : List (List Fn)} {f : Fn}, f ∈ svc.flatten → ∃ d, (f.name, d) ∈ processMap svc
  | [], f, h => by cases h
  | fns :: base, f, h => by
    rw [List.flatten_cons, List.mem_append] at h
    rcases h with h | h
    · exact ⟨_, List.mem_append.2 (.inr (List.mem_map.2 ⟨f, h, rfl⟩))⟩
    · obtain ⟨d, hd⟩ := processMap_keys h
      exact ⟨d, List.mem_append.2 (.inl hd)⟩

/-- C60: the processor finds the method of a function under its name in the message, also if it is a keyword; any other name is
unknown. -/
theorem names_processor (svc : List (List Fn)) (hd : Distinct svc) :
    (∀ f ∈ svc.flatten, dispatch svc f.name = some (some (.process f))) ∧
    (∀ n, (∀ f ∈ svc.flatten, f.name ≠ n) → dispatch svc n = none) := by
  have hval : ∀ e ∈ processMap svc, ∀ f ∈ svc.flatten, e.1 = f.name → e.2 = some (.process f) := by
    intro e he f hf h1
    obtain ⟨g, hg, pre, own, base, hsvc, hgo, rfl⟩ := mem_processMap he
    have hgf := hd.names g hg f hf h1
    subst hgf
    have sub : ∀ x ∈ (own :: base).flatten, x ∈ svc.flatten := by
      intro x hx
      rw [hsvc, List.flatten_append]
      exact List.mem_append.2 (.inr hx)
    refine attr_eq ⟨g, by simp [hgo], by simp [processorDefs]⟩ fun x hx d' h' => ?_
    simp only [processorDefs, List.mem_singleton, Prod.mk.injEq] at h'
    rw [h'.2, escape_inj hd hg (sub x hx) (List.append_cancel_left h'.1)]
  constructor
  · intro f hf
    unfold dispatch
    cases hfind : (processMap svc).reverse.find? fun e => e.1 = f.name with
    | some e =>
      have h1 := List.mem_of_find?_eq_some hfind
      have h2 := List.find?_some hfind
      rw [Option.map_some, hval e (by simpa using h1) f hf (by simpa using h2)]
    | none =>
      obtain ⟨d, hm⟩ := processMap_keys hf
      have := List.find?_eq_none.1 hfind _ (List.mem_reverse.2 hm)
      simp at this
  · intro n hn
    unfold dispatch
    have : (processMap svc).reverse.find? (fun e => e.1 = n) = none := by
      rw [List.find?_eq_none]
      intro e he h2
      obtain ⟨f, hf, _, _, _, _, _, rfl⟩ := mem_processMap (List.mem_reverse.1 he)
      exact hn f hf (by simpa using h2)
    rw [this]
    rfl

/-- C60: no generated identifier is a reserved word of Python 3, with the exception of `await` (`async` is a reserved word of Thrift
itself). -/
theorem names_reserved_partial (n : PyStr) (h1 : n ≠ pyStr "await") (h2 : n ≠ pyStr "async") : escape n ∉ reserved := by
  unfold escape
  split
  · rename_i hk
    have table : ∀ k ∈ keywords, k ++ pyStr "_" ∉ reserved := by decide +kernel
    exact table n hk
  · rename_i hk
    intro hr
    have table : ∀ r ∈ reserved, r ∈ keywords ∨ r = pyStr "await" ∨ r = pyStr "async" := by decide +kernel
    rcases table n hr with h | h | h
    · exact hk h
    · exact h1 h
    · exact h2 h

/-- A struct field, argument or function named `await` is generated as it is, so that the module does not compile. -/
theorem names_await : escape (pyStr "await") ∈ reserved := by decide +kernel

/-! ### Examples -/

section
/-- a function with this name -/
def named (s : String) : Fn := { name := pyStr s, argsId := 0 }

/-- A service that extends another; one function is named as a keyword. -/
def sample : List (List Fn) := [[named "get", named "print"], [{ named "ping" with oneway := true }]]

theorem named_inj {svc : List (List Fn)} (h : (svc.flatten.map (·.name)).Nodup) : ∀ f ∈ svc.flatten, ∀ g ∈ svc.flatten, f.name = g.name → f = g := by
  intro f hf g hg hfg
  generalize svc.flatten = l at *
  induction l with
  | nil => cases hf
  | cons x l ih =>
    simp only [List.map_cons, List.nodup_cons, List.mem_map, not_exists, not_and] at h
    rcases List.mem_cons.1 hf with h1 | h1 <;> rcases List.mem_cons.1 hg with h2 | h2
    · rw [h1, h2]
    · subst h1; exact (h.1 g h2 hfg.symm).elim
    · subst h2; exact (h.1 f h1 hfg).elim
    · exact ih h.2 h1 h2

theorem sample_distinct : Distinct sample :=
  ⟨named_inj (by decide +kernel), by
    intro f hf g hg
    have table : ∀ a ∈ sample.flatten.map (·.name), ∀ b ∈ sample.flatten.map (·.name), a ≠ b ++ pyStr "_" := by decide +kernel
    exact table _ (List.mem_map_of_mem hf) _ (List.mem_map_of_mem hg)⟩

theorem sample_plain : Plain sample := by
  intro f hf
  have table : ∀ a ∈ sample.flatten.map (·.name), ∀ p ∈ ["send_", "recv_", "cb_send_", "eb_send_"].map pyStr, ¬ p <+: a := by
    decide +kernel
  exact table _ (List.mem_map_of_mem hf)

example (k : Kind) : (uses k (named "get")).map (attr (clientDefs k) sample) = (wanted k (named "get")).map some :=
  (names_client_partial k sample sample_distinct sample_plain (named "get") (by simp [sample]) (by decide +kernel)).2.1

example (k : Kind) : attr (clientDefs k) sample (pyStr "send_print") = none := by
  have := (names_keyword k sample sample_distinct sample_plain (named "print") (by simp [sample]) (by decide +kernel)).2.1
  rwa [show pyStr "send_" ++ (named "print").name = pyStr "send_print" by decide +kernel] at this

example : dispatch sample (pyStr "print") = some (some (.process (named "print"))) :=
  (names_processor sample sample_distinct).1 (named "print") (by simp [sample])

/-- C60 fails if a function is named as the helper of another: here `foo` calls the client method `send_foo`. -/
theorem names_clash : attr (clientDefs .blocking) [[named "foo", named "send_foo"]] (pyStr "send_" ++ (named "foo").name)
    = some (.method (named "send_foo")) := by rfl

/-- C60 fails if one function is named `print` and another `print_`: both messages go to the second. -/
theorem names_underscore : dispatch [[named "print", named "print_"]] (pyStr "print") = some (some (.process (named "print_"))) := by rfl

end
end Thrift.Names
