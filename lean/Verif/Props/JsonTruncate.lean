import Verif.Props.JsonReject
import Verif.Proofs.JsonWhole
/-
C63: the readers of `TJSONProtocol` and documents that end too early; what stands behind a document.
-/

namespace Thrift.Json
open Spec Spec.Json

/-- A whole message: header, struct, closing bracket. -/
def readWhole (py : Floats) (cfg : Cfg) (sch : Schema) (mode : Mode) (fuel : Nat) (t : Ty) :
    P St ((PyStr × Int × Int) × Val) := do
  let header ← readMessageBegin cfg fuel
  let body ← readVal (rd py cfg fuel) sch mode fuel t
  readMessageEnd
  pure (header, body)

theorem keeps_messageBegin (cfg : Cfg) (fuel : Nat) : Keeps (readMessageBegin cfg fuel) := by
  unfold readMessageBegin
  refine Keeps.bind keeps_modify fun _ => ?_
  refine Keeps.bind (strict_arrayStart).keeps fun _ => ?_
  refine Keeps.bind (strict_integer cfg fuel).keeps fun _ => ?_
  refine Keeps.ite Keeps.raise ?_
  refine Keeps.bind (strict_string cfg fuel).keeps fun _ => ?_
  refine Keeps.bind (strict_integer cfg fuel).keeps fun _ => ?_
  exact Keeps.bind (strict_integer cfg fuel).keeps fun _ => Keeps.pure

theorem keeps_whole (py : Floats) (cfg : Cfg) (sch : Schema) (mode : Mode) (fuel : Nat) (t : Ty) :
    Keeps (readWhole py cfg sch mode fuel t) := by
  unfold readWhole
  refine Keeps.bind (keeps_messageBegin cfg fuel) fun _ => ?_
  refine Keeps.bind (readVal_keeps (keepsOps cfg py fuel) sch mode fuel t) fun _ => ?_
  exact Keeps.bind (strict_arrayEnd).keeps fun _ => Keeps.pure

/-- C63, any input: a reader that returned a value, skipped one, or read a whole message does not depend on what
stands behind the bytes it was given: with more bytes the result is the same, and all of them are left. -/
theorem json_trailing (py : Floats) (cfg : Cfg) (mode : Mode) (sch : Schema) (t : Ty) (tt : Int) (s s' : St)
    (fuel depth : Nat) (b b' q : Bytes) :
    (∀ v, exec (readVal (rd py cfg fuel) sch mode fuel t) s b = some ((.ok v, s'), b') →
      exec (readVal (rd py cfg fuel) sch mode fuel t) s (b ++ q) = some ((.ok v, s'), b' ++ q)) ∧
    (exec (skip (rd py cfg fuel) fuel depth tt) s b = some ((.ok (), s'), b') →
      exec (skip (rd py cfg fuel) fuel depth tt) s (b ++ q) = some ((.ok (), s'), b' ++ q)) ∧
    (∀ m, exec (do
        let header ← readMessageBegin cfg fuel
        let body ← readVal (rd py cfg fuel) sch mode fuel t
        readMessageEnd
        pure (header, body) : P St ((PyStr × Int × Int) × Val)) s b = some ((.ok m, s'), b') →
      exec (do
        let header ← readMessageBegin cfg fuel
        let body ← readVal (rd py cfg fuel) sch mode fuel t
        readMessageEnd
        pure (header, body) : P St ((PyStr × Int × Int) × Val)) s (b ++ q) = some ((.ok m, s'), b' ++ q)) :=
  ⟨fun _ h => (readVal_keeps (keepsOps cfg py fuel) sch mode fuel t).extend h q,
    fun h => (skip_keeps (keepsOps cfg py fuel) fuel depth tt).extend h q,
    fun _ h => (keeps_whole py cfg sch mode fuel t).extend h q⟩

/-- C63: no proper prefix of the document of a value is accepted as a value of its type. -/
theorem json_truncated_partial (py : Floats) (cfg : Cfg) (mode : Mode) (sch : Schema) (t : Ty) (v : Val) (s : St)
    (fuel : Nat) (hpy : Faithful py.fmt17 py.parse) (hs : SchemaOK mode sch) (hv : WT sch t v) (ht : isNumber t = false)
    (hn : NoHiddenDefault sch t v) (hq : NoDuplicates v) (hfin : Doubles Finite v)
    (hl : Texts (fun n => Within cfg.stringLimit n ∧ n < fuel) (tree py.fmt17 sch t v))
    (h0 : s.stack = [.base] ∧ s.hasData = false) (hd : mode = .gen → s.depth + structDepth v ≤ 64) (hf : size v ≤ fuel)
    (p q : Bytes) (hb : value py.fmt17 sch t v = p ++ q) (hne : q ≠ []) (w : Val) (s' : St) (b' : Bytes) :
    exec (readVal (rd py cfg fuel) sch mode fuel t) s p ≠ some ((.ok w, s'), b') := by
  intro h
  have h1 := (readVal_keeps (keepsOps cfg py fuel) sch mode fuel t).extend h q
  obtain ⟨d, x', e, r⟩ := json_roundtrip py cfg mode sch t v s fuel hpy hs hv ht hn hq hfin hl h0 hd hf memStep id
    memStep_until (p ++ q) [] (by rw [hb]; simp)
  have h2 : exec (readVal (rd py cfg fuel) sch mode fuel t) s (p ++ q) = _ := e
  rw [h2] at h1
  simp only [Option.some.injEq, Prod.mk.injEq] at h1
  have : b' ++ q = [] := h1.2 ▸ r
  exact hne (List.append_eq_nil_iff.mp this).2

example (n : Nat) (hn : n < (value Sample.py.fmt17 Sample.sch (.struct 0) Sample.value).length) (w : Val) (s' : St) (b' : Bytes) :
    exec (readVal (rd Sample.py { stringLimit := some 36 } 200) Sample.sch .gen 200 (.struct 0)) {}
      ((value Sample.py.fmt17 Sample.sch (.struct 0) Sample.value).take n) ≠ some ((.ok w, s'), b') :=
  json_truncated_partial Sample.py { stringLimit := some 36 } .gen Sample.sch (.struct 0) Sample.value {} 200
    Sample.py_faithful Sample.sch_ok Sample.value_wt rfl Sample.value_noHidden Sample.value_noDup Sample.value_finite
    Sample.value_texts ⟨rfl, rfl⟩ (fun _ => by decide) Sample.value_size _
    ((value Sample.py.fmt17 Sample.sch (.struct 0) Sample.value).drop n) (List.take_append_drop _ _).symm
    (fun e => by have := congrArg List.length e; simp at this; omega) w s' b'

/-- C63: no proper prefix of the document of a message is accepted as a message. -/
theorem json_message_truncated_partial (py : Floats) (cfg : Cfg) (mode : Mode) (sch : Schema) (sid : Nat) (v : Val)
    (name : PyStr) (type seqid : Int) (s : St) (fuel : Nat) (hpy : Faithful py.fmt17 py.parse)
    (hname : ∀ c ∈ name, Scalar c) (hs : SchemaOK mode sch) (hv : WT sch (.struct sid) v)
    (hn : NoHiddenDefault sch (.struct sid) v) (hq : NoDuplicates v) (hfin : Doubles Finite v)
    (hl : Texts (fun n => Within cfg.stringLimit n ∧ n < fuel)
      (message name type seqid (tree py.fmt17 sch (.struct sid) v)))
    (h0 : s.hasData = false) (hd : mode = .gen → s.depth + structDepth v ≤ 64) (hf : size v ≤ fuel)
    (p q : Bytes) (hb : render (message name type seqid (tree py.fmt17 sch (.struct sid) v)) = p ++ q) (hne : q ≠ [])
    (m : (PyStr × Int × Int) × Val) (s' : St) (b' : Bytes) :
    exec (do
        let header ← readMessageBegin cfg fuel
        let body ← readVal (rd py cfg fuel) sch mode fuel (.struct sid)
        readMessageEnd
        pure (header, body) : P St ((PyStr × Int × Int) × Val)) s p ≠ some ((.ok m, s'), b') := by
  intro h
  have h1 := (keeps_whole py cfg sch mode fuel (.struct sid)).extend h q
  obtain ⟨d, x', e, r⟩ := json_message_read py cfg mode sch sid v name type seqid s fuel hpy hname hs hv hn hq hfin hl
    h0 hd hf memStep id memStep_until (p ++ q) [] (by rw [hb]; simp)
  have h2 : exec (readWhole py cfg sch mode fuel (.struct sid)) s (p ++ q) = _ := e
  rw [h2] at h1
  simp only [Option.some.injEq, Prod.mk.injEq] at h1
  have : b' ++ q = [] := h1.2 ▸ r
  exact hne (List.append_eq_nil_iff.mp this).2

example (n : Nat) (hn : n < (render (message [0x70, 0x69, 0x6E, 0x67] 1 (-3)
      (tree Sample.py.fmt17 Sample.sch (.struct 0) Sample.value))).length)
    (m : (PyStr × Int × Int) × Val) (s' : St) (b' : Bytes) :
    exec (do
        let header ← readMessageBegin { stringLimit := some 36 } 200
        let body ← readVal (rd Sample.py { stringLimit := some 36 } 200) Sample.sch .gen 200 (.struct 0)
        readMessageEnd
        pure (header, body) : P St ((PyStr × Int × Int) × Val)) {}
      ((render (message [0x70, 0x69, 0x6E, 0x67] 1 (-3)
        (tree Sample.py.fmt17 Sample.sch (.struct 0) Sample.value))).take n) ≠ some ((.ok m, s'), b') :=
  json_message_truncated_partial Sample.py { stringLimit := some 36 } .gen Sample.sch 0 Sample.value
    [0x70, 0x69, 0x6E, 0x67] 1 (-3) {} 200 Sample.py_faithful (by decide) Sample.sch_ok Sample.value_wt
    Sample.value_noHidden Sample.value_noDup Sample.value_finite Sample.message_texts rfl (fun _ => by decide)
    Sample.value_size _ _ (List.take_append_drop n _).symm
    (fun e => by have := congrArg List.length e; simp at this; omega) m s' b'

/-- A list of strings in the middle of other bytes. -/
example : ∃ s', exec (readVal (rd Sample.py {} 20) Sample.sch .gen 20 (.list .string)) {} (ascii "[\"str\",1,\"a\"]" ++ [7, 8]) =
    some ((.ok (.list [.str [0x61]]), s'), [7, 8]) := by
  obtain ⟨d, x', e, r⟩ := json_roundtrip Sample.py {} .gen Sample.sch (.list .string) (.list [.str [0x61]]) {} 20
    Sample.py_faithful Sample.sch_ok (by simp [WT, WTs]; decide) rfl (by simp [NoHiddenDefault, NoHiddenDefaults])
    (by simp [NoDuplicates, NoDuplicatess]) (by simp [Doubles, Doubless]) (by decide +kernel) ⟨rfl, rfl⟩
    (fun _ => by decide) (by decide) memStep id memStep_until (ascii "[\"str\",1,\"a\"]") []
    (by decide +kernel)
  have := (json_trailing Sample.py {} .gen Sample.sch (.list .string) 0 {} _ 20 0 _ _ [7, 8]).1 _ e
  simp only [id] at r
  subst r
  exact ⟨_, this⟩

end Thrift.Json
