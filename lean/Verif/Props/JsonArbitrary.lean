import Verif.Proofs.JsonSafe
import Verif.Props.Arbitrary
import Verif.Props.JsonTruncate
/-
C65, C63, C12, C19: the readers of `TJSONProtocol` and arbitrary bytes.
-/

namespace Thrift.Json
open Spec Spec.Json

theorem num_limit {cfg : Cfg} {l : Int} {n fuel : Nat} (hl : cfg.stringLimit = some l) (hf : n + l.toNat + 3 ≤ fuel) :
    Arb.Num False cfg (l.toNat + 3) fuel (n + 1) := .inr ⟨l, hl, Nat.le_refl _, by omega⟩

theorem within_zero {cfg : Cfg} {l : Int} (hl : cfg.stringLimit = some l) (h0 : 0 ≤ l) : Within cfg.stringLimit 0 := by
  intro x hx
  rw [hl] at hx
  cases hx
  omega

/-- C65: with a string length limit `l`, reading a value of any type from any finite buffer ends; the bytes left
are a suffix of the buffer; `trans.read` is called at most once per byte consumed, plus `l + 3`; an exception is
one of seven. The reader holds no byte or one byte looked ahead, as it does between any two calls. -/
theorem json_total (py : Floats) (cfg : Cfg) (l : Int) (sch : Schema) (mode : Mode) (t : Ty) (s : St) (b : Bytes) (fuel : Nat)
    (hl : cfg.stringLimit = some l) (h0 : 0 ≤ l) (hs : s.hasData = true → s.data.length = 1)
    (hf : b.length + l.toNat + 3 ≤ fuel) :
    ∃ r s' b' k, (readVal (rd py cfg fuel) sch mode fuel t s).run countStep (b, 0) = some ((r, s'), (b', k)) ∧
      b' <:+ b ∧ k ≤ b.length - b'.length + (l.toNat + 3) ∧
      ∀ e, r = .error e → e ∈ [.typeError, .valueError, .unicodeError, .keyError, TTransportException.SIZE_LIMIT,
        TProtocolException.INVALID_DATA, TProtocolException.DEPTH_LIMIT] :=
  Out.total (L := ⟨False, l.toNat + 3, some b.length⟩) id (fun n h => by cases h; exact Nat.le_refl _)
    (readVal_out (Arb.safeOps cfg (E := (· ∈ Arb.catalogue)) (fun _ h => h) (within_zero hl h0) fuel
      ⟨False, l.toNat + 3, some b.length⟩ b.length rfl (num_limit hl hf) py) sch mode fuel t s b hs (.inr (by omega))
      (.inl (by simp [Arb.catalogue])))

/-- C65, skipping. -/
theorem json_skip_total (py : Floats) (cfg : Cfg) (l : Int) (tt : Int) (d : Nat) (s : St) (b : Bytes) (fuel : Nat)
    (hl : cfg.stringLimit = some l) (h0 : 0 ≤ l) (hs : s.hasData = true → s.data.length = 1)
    (hf : b.length + l.toNat + 3 ≤ fuel) :
    ∃ r s' b' k, (skip (rd py cfg fuel) fuel d tt s).run countStep (b, 0) = some ((r, s'), (b', k)) ∧
      b' <:+ b ∧ k ≤ b.length - b'.length + (l.toNat + 3) ∧
      ∀ e, r = .error e → e ∈ [.typeError, .valueError, .unicodeError, .keyError, TTransportException.SIZE_LIMIT,
        TProtocolException.INVALID_DATA, TProtocolException.DEPTH_LIMIT] :=
  Out.total (L := ⟨False, l.toNat + 3, some b.length⟩) id (fun n h => by cases h; exact Nat.le_refl _)
    (skip_out (Arb.safeOps cfg (E := (· ∈ Arb.catalogue)) (fun _ h => h) (within_zero hl h0) fuel
      ⟨False, l.toNat + 3, some b.length⟩ b.length rfl (num_limit hl hf) py) fuel d tt s b hs (.inr (by omega)))

/-- The header of a message, for either kind of claim. -/
theorem out_messageBegin {E : Exc → Prop} (cfg : Cfg) (hcat : ∀ e ∈ Arb.catalogue, E e)
    (hv : E TProtocolException.BAD_VERSION) (h0 : Within cfg.stringLimit 0) (fuel : Nat) (L : Lim) (cap : Nat)
    (hcap : L.cap = some cap) (hn : Arb.Num L.hang cfg L.slack fuel (cap + 1)) (s : St) (b : Bytes) :
    Out L E (readMessageBegin cfg fuel) s b fun r s' _ => Arb.In1 { s with stack := [.base] } s' ∧
      Within cfg.stringLimit (utf8Len r.1) := by
  have hE := Arb.chars_of hcat
  refine Arb.Tr.out fun hb => ?_
  have num := Arb.num_of cfg fuel L cap hcap hn (s := resetRead s) (Arb.live_off rfl) hb
  unfold readMessageBegin
  refine Arb.Tr.bind (Q := fun _ s' b' c' => s' = resetRead s ∧ b' = b ∧ c' = L.slack) (Arb.Tr.modify ⟨rfl, rfl, rfl⟩) ?_
  rintro _ s1 b1 c1 - ⟨rfl, rfl, rfl⟩
  refine Arb.Tr.bind (Arb.tr_open hE num.one 91 (.list true) _ b1 ((Arb.live_off rfl).sane _)) ?_
  rintro _ s1 b2 c1 - ⟨rfl, m1, m2, m3, stk, m4, m5⟩
  have hc1 : Arb.chars s1 b2 = b2.length := Arb.chars_off m1 b2
  have i1 : Arb.In1 { s with stack := [.base] } s1 := ⟨Arb.live_off m1, m3, _, stk, m4, m5⟩
  refine Arb.Tr.bind (Arb.tr_int cfg hE fuel s1 b2 (i1.1.sane _) ((num.le cfg (by omega)).more cfg (by omega))) ?_
  rintro v s2 b3 c2 - ⟨rfl, k1, k2, -⟩
  refine Arb.Tr.ite (fun _ => Arb.Tr.raise hv) fun _ => ?_
  have hc2 := k1.chars
  refine Arb.Tr.bind (Arb.tr_string cfg hE h0 num.one fuel s2 b3 (k2.sane _) ((num.le cfg (by omega)).fuel cfg)) ?_
  rintro x s3 b4 c3 - ⟨rfl, n1, n2, n3, n4⟩
  refine Arb.Tr.bind (Arb.tr_int cfg hE fuel s3 b4 n1.sane ((num.le cfg (by omega)).more cfg (by omega))) ?_
  rintro ty s4 b5 c4 - ⟨rfl, p1, p2, -⟩
  have hc4 := p1.chars
  refine Arb.Tr.bind (Arb.tr_int cfg hE fuel s4 b5 (p2.sane _) ((num.le cfg (by omega)).more cfg (by omega))) ?_
  rintro sq s5 b6 c5 - ⟨rfl, q1, q2, -⟩
  exact Arb.Tr.pure ⟨rfl, (((i1.less k1).less n1).less p1).less q1, n4.within⟩

/-- C65, a whole message. -/
theorem json_message_total (py : Floats) (cfg : Cfg) (l : Int) (sch : Schema) (mode : Mode) (t : Ty) (s : St) (b : Bytes)
    (fuel : Nat) (hl : cfg.stringLimit = some l) (h0 : 0 ≤ l) (hf : b.length + l.toNat + 3 ≤ fuel) :
    ∃ r s' b' k, ((do
        let header ← readMessageBegin cfg fuel
        let body ← readVal (rd py cfg fuel) sch mode fuel t
        readMessageEnd
        pure (header, body) : P St ((PyStr × Int × Int) × Val)) s).run countStep (b, 0) = some ((r, s'), (b', k)) ∧
      b' <:+ b ∧ k ≤ b.length - b'.length + (l.toNat + 3) ∧
      ∀ e, r = .error e → e ∈ [.typeError, .valueError, .unicodeError, .keyError, TTransportException.SIZE_LIMIT,
        TProtocolException.INVALID_DATA, TProtocolException.DEPTH_LIMIT] ∨ e = TProtocolException.BAD_VERSION := by
  let L : Lim := ⟨False, l.toNat + 3, some b.length⟩
  refine Out.total (L := L) id (fun n h => by cases h; exact Nat.le_refl _)
    (E := fun e => e ∈ Arb.catalogue ∨ e = TProtocolException.BAD_VERSION) (Q := fun _ _ _ => True) ?_
  have hcat : ∀ e ∈ Arb.catalogue, e ∈ Arb.catalogue ∨ e = TProtocolException.BAD_VERSION := fun _ h => .inl h
  refine Out.bind (out_messageBegin cfg hcat (.inr rfl) (within_zero hl h0) fuel L b.length rfl (num_limit hl hf) s b)
    fun r s1 b1 hb1 h1 => ?_
  have hlen := hb1.length_le
  refine Out.bind (readVal_out (Arb.safeOps cfg hcat (within_zero hl h0) fuel L b.length rfl (num_limit hl hf) py) sch mode
    fuel t s1 b1 h1.1.1 (.inr (by omega)) (.inl (hcat _ (by simp [Arb.catalogue])))) fun v s2 b2 hb2 h2 => ?_
  refine Out.bind (Arb.out_close cfg hcat fuel L b.length rfl (num_limit hl hf) 93 _ s2 b2 (h1.1.same h2.1))
    fun _ s3 b3 _ _ => ?_
  exact Out.pure trivial

/-- C63 with a limit: a truncated document makes the reader raise. -/
theorem json_truncated_raises (py : Floats) (cfg : Cfg) (l : Int) (mode : Mode) (sch : Schema) (t : Ty) (v : Val) (s : St)
    (fuel : Nat) (hpy : Faithful py.fmt17 py.parse) (hs : SchemaOK mode sch) (hv : WT sch t v) (ht : isNumber t = false)
    (hn : NoHiddenDefault sch t v) (hq : NoDuplicates v) (hfin : Doubles Finite v)
    (hl : Texts (fun n => Within cfg.stringLimit n ∧ n < fuel) (tree py.fmt17 sch t v))
    (h0 : s.stack = [.base] ∧ s.hasData = false) (hd : mode = .gen → s.depth + structDepth v ≤ 64) (hf : size v ≤ fuel)
    (hlim : cfg.stringLimit = some l) (hl0 : 0 ≤ l) (p q : Bytes) (hb : value py.fmt17 sch t v = p ++ q) (hne : q ≠ [])
    (hfp : p.length + l.toNat + 3 ≤ fuel) :
    ∃ e s' b', exec (readVal (rd py cfg fuel) sch mode fuel t) s p = some ((.error e, s'), b') ∧
      e ∈ [.typeError, .valueError, .unicodeError, .keyError, TTransportException.SIZE_LIMIT,
        TProtocolException.INVALID_DATA, TProtocolException.DEPTH_LIMIT] := by
  obtain ⟨r, s', b', k, h1, -, -, h2⟩ := json_total py cfg l sch mode t s p fuel hlim hl0 (fun h => by rw [h0.2] at h; cases h) hfp
  have e : exec (readVal (rd py cfg fuel) sch mode fuel t) s p = some ((r, s'), b') := by
    rw [exec_count _ s p 0]
    unfold cexec
    rw [h1]
    rfl
  cases r with
  | error x => exact ⟨x, s', b', e, h2 x rfl⟩
  | ok w =>
    exact absurd e (json_truncated_partial py cfg mode sch t v s fuel hpy hs hv ht hn hq hfin hl h0 hd hf p q hb hne w s' b')

example (n : Nat) (hn : n < (value Sample.py.fmt17 Sample.sch (.struct 0) Sample.value).length) :
    ∃ e s' b', exec (readVal (rd Sample.py { stringLimit := some 36 } 1000) Sample.sch .gen 1000 (.struct 0)) {}
      ((value Sample.py.fmt17 Sample.sch (.struct 0) Sample.value).take n) = some ((.error e, s'), b') ∧
      e ∈ [.typeError, .valueError, .unicodeError, .keyError, TTransportException.SIZE_LIMIT,
        TProtocolException.INVALID_DATA, TProtocolException.DEPTH_LIMIT] :=
  json_truncated_raises Sample.py { stringLimit := some 36 } 36 .gen Sample.sch (.struct 0) Sample.value {} 1000
    Sample.py_faithful Sample.sch_ok Sample.value_wt rfl Sample.value_noHidden Sample.value_noDup Sample.value_finite
    (by decide +kernel) ⟨rfl, rfl⟩ (fun _ => by decide) (Nat.le_trans Sample.value_size (by decide)) rfl (by decide) _
    ((value Sample.py.fmt17 Sample.sch (.struct 0) Sample.value).drop n) (List.take_append_drop _ _).symm
    (fun e => by have := congrArg List.length e; simp at this; omega) (by
      have h : (value Sample.py.fmt17 Sample.sch (.struct 0) Sample.value).length ≤ 900 := by decide +kernel
      simp only [List.length_take]
      have : (36 : Int).toNat = 36 := rfl
      omega)

/-- The document that hangs without a limit, with one: `[“i64”,1,5` and the end. -/
example : ((readVal (rd Sample.py { stringLimit := some 4 } 40) Sample.sch .gen 40 (.list .i64) {}).run countStep
    (ascii "[\"i64\",1,5", 0)).map (fun r => (r.1.1.toOption.isNone, r.2)) = some (true, ([], 14)) := by decide +kernel

/-- C19 and C12, except for the range of integers and the sizes of containers, for which there is no limit: a value
returned for type `t`, whatever the bytes, inhabits `t`, its texts consist of scalar values and all strings are within
the limit. With or without a limit, and for every bound on the loops. -/
theorem json_decoded_values_partial (py : Floats) (cfg : Cfg) (sch : Schema) (mode : Mode) (t : Ty) (s s' : St)
    (b b' : Bytes) (fuel fuel' : Nat) (v : Val) (h0 : Within cfg.stringLimit 0) (hs : s.hasData = true → s.data.length = 1)
    (h : exec (readVal (rd py cfg fuel) sch mode fuel' t) s b = some ((.ok v, s'), b')) :
    Decoded (fun _ _ => True) cfg.stringLimit none sch t v ∧ b' <:+ b ∧ s'.depth = s.depth ∧
      s'.stack.tail = s.stack.tail := by
  have := Out.value (L := ⟨True, 0, some b.length⟩) (fun n h => by cases h; exact Nat.le_refl _)
    (readVal_out (Arb.safeOps cfg (E := fun _ => True) (fun _ _ => trivial) h0 fuel ⟨True, 0, some b.length⟩ b.length rfl
      (.inl trivial) py) sch mode fuel' t s b hs (.inl trivial) (.inl trivial)) h
  have hsame : Arb.Same s s' := this.1.1
  exact ⟨this.1.2, this.2, hsame.depth, hsame.stack.1⟩

/-- C12: the name of a message is within the limit. -/
theorem json_message_name_limit (cfg : Cfg) (s s' : St) (b b' : Bytes) (fuel : Nat) (name : PyStr) (type seqid : Int)
    (h0 : Within cfg.stringLimit 0)
    (h : exec (readMessageBegin cfg fuel) s b = some ((.ok (name, type, seqid), s'), b')) :
    Within cfg.stringLimit (utf8Len name) :=
  (Out.value (L := ⟨True, 0, some b.length⟩) (fun n h => by cases h; exact Nat.le_refl _)
    (out_messageBegin cfg (E := fun _ => True) (fun _ _ => trivial) trivial h0 fuel ⟨True, 0, some b.length⟩ b.length rfl
      (.inl trivial) s b) h).1.2

/-- The call returned a list with this one integer and left nothing. -/
def oneInt (i : Int) (r : Option ((Except Exc Val × St) × Bytes)) : Bool :=
  match r with
  | some ((.ok (.list [.int j]), _), []) => i == j
  | _ => false

theorem of_oneInt {i : Int} {r : Option ((Except Exc Val × St) × Bytes)} (h : oneInt i r = true) :
    ∃ s, r = some ((.ok (.list [.int i]), s), []) := by
  unfold oneInt at h
  split at h
  · exact ⟨_, by rw [eq_of_beq h]⟩
  · cases h

/-- C19 fails for the JSON protocol: a list of `i16` decodes to 40000, a list of `byte` to 300. -/
theorem json_out_of_range :
    (∃ s', exec (readVal (rd Sample.py {} 40) Sample.sch .gen 40 (.list .i16)) {} (ascii "[\"i16\",1,40000]") =
      some ((.ok (.list [.int 40000]), s'), [])) ∧ ¬ InRange 16 40000 ∧
    (∃ s', exec (readVal (rd Sample.py {} 40) Sample.sch .gen 40 (.list .byte)) {} (ascii "[\"i8\",1,300]") =
      some ((.ok (.list [.int 300]), s'), [])) ∧ ¬ InRange 8 300 :=
  ⟨of_oneInt (by decide +kernel), by decide, of_oneInt (by decide +kernel), by decide⟩

end Thrift.Json
