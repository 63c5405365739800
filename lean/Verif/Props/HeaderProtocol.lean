import Verif.Proofs.HeaderProtocol
/-
C84: calls through `THeaderProtocol`.
-/

namespace Thrift.HeaderProtocol
open Spec Spec.HeaderProtocol Spec.Header Rpc
open Thrift.Header (Meta received)

/-- A message of this kind -/
structure IsMessage (k : Kind) (p : Bytes) : Prop where
  length : 4 < p.length
  unframed : unframedType (p.take 4) = some (Dialect.unframed.type k)
  framed : framedType (p.take 4) = some (Dialect.framed.type k)

theorem isMessage (k : Kind) (name : PyStr) (type : Nat) (seqid : Int) (ht : IsMessageType type) (b : Bytes) (hb : b ≠ []) :
    IsMessage k (k.format.header name type seqid ++ b) := by
  cases k with
  | binary =>
    refine ⟨?_, rfl, rfl⟩
    simp only [Kind.format, Format.binary, Spec.Binary.messageStrict, List.length_append, List.length_cons, List.length_nil, beInt_length]
    omega
  | compact =>
    have hv : ∀ n : Nat, 0 < (Spec.Compact.varint n).length := by
      intro n
      rw [Spec.Compact.varint]
      split <;> simp
    have hl : 0 < b.length := List.length_pos_iff.2 hb
    have hw : word (((Kind.compact.format.header name type seqid ++ b)).take 4) = .compact := by
      show word (0x82 :: UInt8.ofNat (32 * type + 1) :: _) = .compact
      obtain ⟨h1, h2⟩ := ht
      have : type = 1 ∨ type = 2 ∨ type = 3 ∨ type = 4 := by omega
      rcases this with rfl | rfl | rfl | rfl <;> rfl
    refine ⟨?_, by rw [unframedType, hw]; rfl, by rw [framedType, hw]; rfl⟩
    simp only [Kind.format, Format.compact, Spec.Compact.message, Spec.Compact.blob, List.length_append, List.length_cons, List.length_nil]
    have := hv (seqid % 2 ^ 32).toNat
    have := hv (utf8 name).length
    omega

/-- A new object for `self._protocol` -/
def fresh : Kind → Sub
  | .binary => .binary {}
  | .compact => .compact {}

/-- The transport after the beginning of a message was read -/
def opened (s : Header.St) (k : Kind) (p : Bytes) : Dialect → Header.St
  | .headers m => received s m p
  | .framed => { s with clientType := Dialect.framed.type k, rbuf := BytesIO.of p }
  | .unframed => { s with clientType := Dialect.unframed.type k, rbuf := BytesIO.of (p.take 4) }

/-- What is then still to come from the underlying transport -/
def behind (p more : Bytes) : Dialect → Bytes
  | .unframed => p.drop 4 ++ more
  | _ => more

theorem readFrame_steady (z : Zlib) : Steady (Header.readFrame z 0) := by
  have hu : ∀ first, Steady (Header.startUnframed 0 first) := by
    intro first
    unfold Header.startUnframed
    rw [if_neg (by omega)]
    exact Steady.modify _
  unfold Header.readFrame
  refine Steady.bind (Steady.readAll 4) fun first => ?_
  refine Steady.ite (Steady.bind (Header.setClientTypeP_steady _) fun _ => hu _) ?_
  refine Steady.ite (Steady.bind (Header.setClientTypeP_steady _) fun _ => hu _) ?_
  unfold Header.readFramed
  refine Steady.bind Steady.get fun s => Steady.ite (Steady.raise _) ?_
  exact Steady.bind (Steady.readAll _) fun _ => Header.openFrameP_steady _ _

theorem exec_readFrame_dialect {z : Zlib} (hz : ZlibOk z) (s : Header.St) (k : Kind) (d : Dialect) (p more : Bytes) (hp : IsMessage k p)
    (ha : d.type k ∈ s.allowed) (hl : d.Readable z s.maxFrame s.maxDecomp p) :
    exec (Header.readFrame z 0) s (d.wire z p ++ more) = some ((.ok (), opened s k p d), behind p more d) := by
  cases d with
  | headers m =>
    obtain ⟨h1, h2, h3, h4, h5⟩ := hl
    exact Header.header_receive hz 0 s h1 h2 ha p more h3 h4 h5
  | framed =>
    have := (Header.header_framed z 0 s p more hl.1 hl.2 (by have := hp.length; omega)).1 _ hp.framed ha (by cases k <;> decide)
    rw [← List.append_assoc] at this
    exact this
  | unframed =>
    have h4 : (p.take 4).length = 4 := by have := hp.length; simp; omega
    have := Header.header_unframed z 0 s (p.take 4) (p.drop 4 ++ more) h4 _ hp.unframed
    rw [if_pos ha, ← List.append_assoc, List.take_append_drop] at this
    show exec (Header.readFrame z 0) s (p ++ more) = _
    rw [this]
    simp [opened, behind]

theorem protocolId_opened (s : Header.St) (k : Kind) (p : Bytes) (d : Dialect) (hk : d.Tells k) : Header.protocolIdOf (opened s k p d) = .ok (k.id : Int) := by
  cases d with
  | headers m =>
    have : m.pid = k.id := hk
    show Except.ok ((m.pid : Nat) : Int) = _
    rw [this]
  | framed => cases k <;> rfl
  | unframed => cases k <;> rfl

theorem begin_dialect {ν : Type} {z : Zlib} (hz : ZlibOk z) {net : Nat → ν → Option (Except Exc Bytes × ν)} {rest : ν → Bytes} (hd : DeliversUntil net rest)
    (o : Obj) (k : Kind) (d : Dialect) (p more : Bytes) (hp : IsMessage k p) (ha : d.type k ∈ o.trans.allowed) (hk : d.Tells k)
    (hl : d.Readable z o.trans.maxFrame o.trans.maxDecomp p) (t : ν) (ht : rest t = d.wire z p ++ more) :
    ∃ t', begin_ z net o t = some ((.ok (), { trans := opened o.trans k p d, sub := fresh k }), t') ∧ rest t' = behind p more d := by
  obtain ⟨t', e, hr⟩ := (readFrame_steady z).upTo _ _ _ hd o.trans t () _ _ (by rw [ht]; exact exec_readFrame_dialect hz o.trans k d p more hp ha hl)
  refine ⟨t', ?_, hr⟩
  unfold begin_
  rw [e]
  simp only [setProtocol]
  rw [protocolId_opened o.trans k p d hk]
  cases k <;> rfl

/-! ### Reading the message -/

theorem exec_more {σ α : Type} {m : P σ α} {s : σ} {r : Except Exc α × σ} {p : Bytes} (h : exec m s (p ++ [0]) = some (r, [0])) (more : Bytes) :
    exec m s (p ++ more) = some (r, more) := by
  obtain ⟨t', h1, h2⟩ := run_within (step := memStep) (R := fun t b => t = b ++ more) (more := [0]) (by
    intro n t b ht hn
    subst ht
    refine ⟨b.drop n ++ more, ?_, rfl⟩
    simp only [memStep, List.take_append_of_le_length hn, List.drop_append_of_le_length hn]) (by simp) (m s) p r h (p ++ more) rfl
  rw [h2] at h1
  exact h1

section
variable {ν : Type}

theorem run_inv {α τ : Type} {step : Nat → τ → Option (Except Exc Bytes × τ)} {I : τ → Prop} (hI : ∀ n t r t', I t → step n t = some (r, t') → I t') (q : Prog α) :
    ∀ t a t', I t → q.run step t = some (a, t') → I t' := by
  induction q with
  | ret a => intro t a' t' ht h; cases h; exact ht
  | diverge => intro t a t' ht h; cases h
  | read n k ih =>
    intro t a t' ht h
    simp only [Prog.run] at h
    cases hs : step n t with
    | none => rw [hs] at h; cases h
    | some x =>
      rw [hs] at h
      exact ih _ _ _ _ (hI n t x.1 x.2 ht hs) h

/-- A message is read from the transport as from memory, and nothing behind it is touched. -/
theorem run_opened {σ α : Type} (z : Zlib) {net : Nat → ν → Option (Except Exc Bytes × ν)} {rest : ν → Bytes} (hd : DeliversUntil net rest)
    {m : P σ α} (hm : Steady m) {s s' : σ} {a : α} {p : Bytes} (h : exec m s (p ++ [0]) = some ((.ok a, s'), [0])) (h0 : Header.St) (k : Kind) (d : Dialect)
    (hl : 4 < p.length) (more : Bytes) (t : ν) (ht : rest t = behind p more d) :
    ∃ r t', (m s).run (P.over (Header.read z) net) (opened h0 k p d, t) = some ((.ok a, s'), ({ opened h0 k p d with rbuf := r }, t')) ∧ rest t' = more := by
  have framed : ∀ h1 : Header.St, h1.rbuf = BytesIO.of p → rest t = more →
      ∃ r t', (m s).run (P.over (Header.read z) net) (h1, t) = some ((.ok a, s'), ({ h1 with rbuf := r }, t')) ∧ rest t' = more := by
    intro h1 hb hr
    obtain ⟨⟨h2, t'⟩, e, -, rfl, r, h4⟩ := run_within (inside_step z net h1 t) (by simp) (m s) p _ h (h1, t) ⟨by rw [hb]; rfl, rfl, h1.rbuf, rfl⟩
    simp only at h4
    subst h4
    exact ⟨r, _, e, hr⟩
  cases d with
  | headers m => exact framed _ rfl ht
  | framed => exact framed _ rfl ht
  | unframed =>
    have hu : Unframed (opened h0 k p .unframed) := by cases k; exact .inl rfl; exact .inr rfl
    simp only [behind] at ht
    have hne : rest t ≠ [] := by
      rw [ht]
      intro hh
      have := congrArg List.length (List.append_eq_nil_iff.1 hh).1
      simp only [List.length_drop, List.length_nil] at this
      omega
    have hleft : left rest (opened h0 k p .unframed, t) = p ++ more := by
      unfold left
      rw [if_neg hne, ht]
      show p.take 4 ++ _ = _
      rw [← List.append_assoc, List.take_append_drop]
    obtain ⟨⟨r, t'⟩, e, hr⟩ := hm.upTo _ _ _ (unframed_until hd z _ hu) s (BytesIO.of (p.take 4), t) a s' more (by
      rw [show left rest ({ opened h0 k p .unframed with rbuf := BytesIO.of (p.take 4) }, t) = p ++ more from hleft]
      exact exec_more h more)
    refine ⟨r, t', ?_, ?_⟩
    · have := run_unframed z net _ hu (m s) (BytesIO.of (p.take 4)) t
      rw [e] at this
      exact this
    · have hinv := run_inv (I := fun x : BytesIO × ν => x.1.unread ≠ [] → x.2 = t) (by
        rintro n ⟨r1, t1⟩ rr ⟨r2, t2⟩ h1 h2 h3
        simp only at h1 h2 h3 ⊢
        by_cases hn : n ≤ r1.unread.length
        · rw [read_inside z net n { opened h0 k p .unframed with rbuf := r1 } t1 hn] at h2
          cases h2
          refine h1 fun hh => h3 ?_
          rw [BytesIO.read_unread, hh]
          simp
        · exfalso
          rw [read_unframed z net n { opened h0 k p .unframed with rbuf := r1 } t1 hu (by simp only; omega)] at h2
          have : r2 = (r1.read n).2 := by
            cases hnn : net (n - r1.unread.length) t1 with
            | none => rw [hnn] at h2; cases h2
            | some y =>
              rw [hnn] at h2
              obtain ⟨yr, yt⟩ := y
              cases yr <;> cases h2 <;> rfl
          rw [this, BytesIO.read_unread, List.drop_of_length_le (by omega)] at h3
          exact h3 rfl) (m s) _ _ _ (fun _ => rfl) e
      simp only [left] at hr hinv
      by_cases h1 : rest t' = []
      · rw [if_pos h1] at hr; rw [h1, hr]
      · rw [if_neg h1] at hr
        by_cases h2 : r.unread = []
        · rw [h2] at hr; exact hr
        · exfalso
          rw [hinv h2, ht] at hr
          have := congrArg List.length hr
          simp only [List.length_append, List.length_drop] at this
          omega

end

/-! ### Writing the answer -/

theorem flush_dialect {ω : Type} (z : Zlib) (kk : Sink ω) (s : Header.St) (k : Kind) (d : Dialect) (p b : Bytes) (r : BytesIO) (seqid : Int) (n : Nat)
    (hn : s.writeTransforms = List.replicate n 1) (hmax : s.maxFrame < 2 ^ 31)
    (hw : (d.answer seqid n s.writeHeaders).Writable z s.maxFrame b) (w : ω) :
    Header.flush z kk { opened s k p d with rbuf := r, wbuf := bufOf b, sequenceId := seqid } w =
      (let x := kk.writeFlush ((d.answer seqid n s.writeHeaders).wire z b) w
       (x.1, { opened s k p d with rbuf := r, wbuf := BytesIO.of [], sequenceId := seqid, writeHeaders := if d.sent = none then s.writeHeaders else [] }, x.2)) := by
  cases d with
  | headers m =>
    have hs : Header.Sends { opened s k p (.headers m) with rbuf := r, wbuf := bufOf b, sequenceId := seqid }
        { flags := m.flags, seq := seqid, pid := m.pid, zlibs := n, headers := s.writeHeaders } := ⟨rfl, rfl, rfl, rfl, hn, rfl⟩
    rw [Header.header_flush z kk hs hw.1 w hmax hw.2]
    rfl
  | framed =>
    rw [(Header.header_flush_other z kk { opened s k p .framed with rbuf := r, wbuf := bufOf b, sequenceId := seqid } w hmax hw).1
      (by cases k; exact .inl rfl; exact .inr rfl)]
    rfl
  | unframed =>
    rw [(Header.header_flush_other z kk { opened s k p .unframed with rbuf := r, wbuf := bufOf b, sequenceId := seqid } w hmax hw).2
      (by cases k; exact .inl rfl; exact .inr rfl)]
    rfl

/-! ## Servers -/

section
variable {σ χ ω ν : Type} [HasDepth σ]

theorem value_ne (k : Kind) (sch : Schema) (sid : Nat) (v : Val) (hv : WT sch (.struct sid) v) : k.format.value sch (.struct sid) v ≠ [] := by
  cases v <;> simp only [WT] at hv
  cases k <;> simp [Kind.format, Format.binary, Format.compact, Spec.Binary.value, Spec.Compact.value]

theorem message_ok (k : Kind) (name : PyStr) (type : Nat) (seqid : Int) (ht : IsMessageType type) (sch : Schema) (sid : Nat) (v : Val) (hv : WT sch (.struct sid) v) :
    IsMessage k (k.message name type seqid sch sid v) := isMessage k name type seqid ht _ (value_ne k sch sid v hv)

theorem opened_wbuf (h : Header.St) (k : Kind) (p : Bytes) (d : Dialect) : (opened h k p d).wbuf = h.wbuf := by cases d <;> rfl

theorem serveWith_of (z : Zlib) (kk : Sink ω) {net : Nat → ν → Option (Except Exc Bytes × ν)} {rest : ν → Bytes} (hd : DeliversUntil net rest) (S : Service χ)
    {p : Proto σ} (hps : SteadyProto p) (wrap : σ → Sub) (s : σ) {c' : Call σ σ (χ × Int) (List Bytes)} {msg : Bytes} (x : χ)
    (h : exec (process (S.env p) S.handle (some remember) S.fns p) { inp := s, out := s, buf := [], sink := [], app := (x, 0) } (msg ++ [0]) = some ((.ok (), c'), [0]))
    (h0 : Header.St) (hw : h0.wbuf = BytesIO.of []) (k : Kind) (d : Dialect) (hl : 4 < msg.length) (more : Bytes) (w : ω) (t : ν) (ht : rest t = behind msg more d) :
    ∃ rb t', serveWith z kk net S p wrap s (opened h0 k msg d) x w t = some (finish z kk wrap [] (.ok ()) c' { opened h0 k msg d with rbuf := rb } w t') ∧ rest t' = more := by
  obtain ⟨rb, t', e, hr⟩ := run_opened z hd (process_steady (S.env p) S.handle (some remember) S.fns hps) h h0 k d hl more t ht
  refine ⟨rb, t', ?_, hr⟩
  unfold serveWith
  rw [show (opened h0 k msg d).wbuf.value = [] by rw [opened_wbuf, hw]; rfl, e]

omit [HasDepth σ] in
/-- From what the processor has left to what the peer sees -/
theorem finish_answered (z : Zlib) (kk : Sink ω) {rest : ν → Bytes} (wrap : σ → Sub) (c' : Call σ σ (χ × Int) (List Bytes)) (o : Obj) (n : Nat) (hr : Ready o n) (k : Kind) (d : Dialect)
    (msg : Bytes) (rb : BytesIO) (w : ω) (t : ν) (more : Bytes) (ht : rest t = more) (out : Option Bytes) (hbuf : c'.buf = []) (hsink : c'.sink = out.toList)
    (hw : ∀ b, out = some b → (d.answer c'.app.2 n o.trans.writeHeaders).Writable z o.trans.maxFrame b) :
    Answered kk rest o n d (out.map fun b => (d.answer c'.app.2 n o.trans.writeHeaders).wire z b) w c'.app.1 more
      (finish z kk wrap [] (.ok ()) c' { opened o.trans k msg d with rbuf := rb } w t) := by
  cases out with
  | none =>
    simp only [finish, hsink, Option.toList, hbuf]
    refine ⟨rfl, rfl, ht, ⟨rfl, ?_, ?_⟩, ⟨?_, ?_, ?_, ?_⟩, ?_, ?_⟩
    · cases d <;> exact hr.transforms
    · cases d <;> exact hr.limit
    iterate 4 cases d <;> rfl
    · cases d <;> rfl
    · cases d <;> simp [opened, received]
  | some b =>
    have hf := flush_dialect z kk o.trans k d msg b rb c'.app.2 n hr.transforms hr.limit (hw b rfl) w
    simp only [finish, hsink, Option.toList]
    have : ({ opened o.trans k msg d with rbuf := rb, wbuf := bufOf b, sequenceId := c'.app.2 } : Header.St) =
      { ({ opened o.trans k msg d with rbuf := rb } : Header.St) with wbuf := bufOf b, sequenceId := c'.app.2 } := rfl
    rw [← this, hf]
    refine ⟨rfl, rfl, ht, ⟨rfl, ?_, ?_⟩, ⟨?_, ?_, ?_, ?_⟩, ?_, ?_⟩
    · cases d <;> exact hr.transforms
    · cases d <;> exact hr.limit
    iterate 4 cases d <;> rfl
    · cases d <;> rfl
    · cases d <;> simp [Dialect.sent]

end

section
variable {χ ω ν : Type}

/-- From the processor with one of the two protocols to the processor with `THeaderProtocol` -/
theorem serve_of {z : Zlib} (hz : ZlibOk z) (kk : Sink ω) {net : Nat → ν → Option (Except Exc Bytes × ν)} {rest : ν → Bytes} (hd : DeliversUntil net rest) (S : Service χ)
    (o : Obj) (n : Nat) (hr : Ready o n) (k : Kind) (d : Dialect) (msg : Bytes) (hp : IsMessage k msg) (ha : d.type k ∈ o.trans.allowed) (hk : d.Tells k)
    (hl : d.Readable z o.trans.maxFrame o.trans.maxDecomp msg) (x x' : χ) (seqid : Int) (out : Option Bytes)
    (hw : ∀ b, out = some b → (d.answer seqid n o.trans.writeHeaders).Writable z o.trans.maxFrame b)
    (hrun : ∀ {σ : Type} [HasDepth σ] (p : Proto σ) (Idle : σ → Prop), Receives p k.format Idle none none → Spec.Sends p k.format Idle → ∀ s, Idle s →
      ∃ s' o', exec (process (S.env p) S.handle (some remember) S.fns p) { inp := s, out := s, buf := [], sink := [], app := (x, 0) } (msg ++ [0]) =
        some ((.ok (), { inp := s', out := o', buf := [], sink := out.toList, app := (x', seqid) }), [0]))
    (more : Bytes) (w : ω) (t : ν) (ht : rest t = d.wire z msg ++ more) :
    ∃ r, serve z kk net S o x w t = some r ∧ Answered kk rest o n d (out.map fun b => (d.answer seqid n o.trans.writeHeaders).wire z b) w x' more r := by
  obtain ⟨t1, e1, h1⟩ := begin_dialect hz hd o k d msg more hp ha hk hl t ht
  unfold serve
  rw [e1]
  cases k with
  | binary =>
    obtain ⟨s', o', e⟩ := hrun (Binary.proto {}) Binary.Idle (Binary.reads {}) (Binary.writes {} rfl) {} rfl
    obtain ⟨rb, t', e2, h2⟩ := serveWith_of z kk hd S (Binary.steadyProto {}) Sub.binary {} x e o.trans hr.buffer .binary d hp.length more w t1 h1
    exact ⟨_, e2, finish_answered z kk Sub.binary { inp := s', out := o', buf := [], sink := out.toList, app := (x', seqid) } o n hr .binary d msg rb w t' more h2 out rfl rfl hw⟩
  | compact =>
    obtain ⟨s', o', e⟩ := hrun (Compact.proto {}) Compact.Idle (Compact.reads {}) (Compact.writes {}) {} ⟨rfl, rfl, rfl⟩
    obtain ⟨rb, t', e2, h2⟩ := serveWith_of z kk hd S (Compact.steadyProto {}) Sub.compact {} x e o.trans hr.buffer .compact d hp.length more w t1 h1
    exact ⟨_, e2, finish_answered z kk Sub.compact { inp := s', out := o', buf := [], sink := out.toList, app := (x', seqid) } o n hr .compact d msg rb w t' more h2 out rfl rfl hw⟩

/-- C84: a call of a two-way function, in any dialect that the server allows. The handler is called once, with equal arguments; the answer is one message in the protocol
and dialect of the request, with the sequence id of the request. -/
theorem serve_call {z : Zlib} (hz : ZlibOk z) (kk : Sink ω) {net : Nat → ν → Option (Except Exc Bytes × ν)} {rest : ν → Bytes} (hd : DeliversUntil net rest) (S : Service χ)
    (o : Obj) (n : Nat) (hr : Ready o n) (k : Kind) (d : Dialect) (ha : d.type k ∈ o.trans.allowed) (hk : d.Tells k)
    (name : PyStr) (type : Nat) (seqid : Int) (fn : Fn) (hh : HeaderOK none name type seqid) (hfn : Serves S.fns name fn) (htwo : fn.oneway = false)
    (hres : ResultOK S.sch fn) (sch₁ : Schema) (v : Val) (hv : BodyOK none none S.mode sch₁ S.sch fn.argsId v S.fuel)
    (hl : d.Readable z o.trans.maxFrame o.trans.maxDecomp (k.message name type seqid sch₁ fn.argsId v)) (x x' : χ) (oc : Outcome)
    (hrun : S.handler fn (attrsOf (project sch₁ S.sch (.struct fn.argsId) v)) x = (oc, x'))
    (type' : Nat) (sch' : Schema) (sid' : Nat) (u : Val) (hans : Answers S.sch fn oc type' sch' sid' u)
    (hu : WT sch' (.struct sid') u) (hdep : structDepth u ≤ 64)
    (hw : (d.answer seqid n o.trans.writeHeaders).Writable z o.trans.maxFrame (k.message name type' seqid sch' sid' u)) (more : Bytes) (w : ω) (t : ν)
    (ht : rest t = d.wire z (k.message name type seqid sch₁ fn.argsId v) ++ more) :
    ∃ r, serve z kk net S o x w t = some r ∧
      Answered kk rest o n d (some ((d.answer seqid n o.trans.writeHeaders).wire z (k.message name type' seqid sch' sid' u))) w x' more r :=
  serve_of hz kk hd S o n hr k d _ (message_ok k name type seqid hh.kind sch₁ fn.argsId v hv.typed) ha hk hl x x' seqid (some (k.message name type' seqid sch' sid' u))
    (fun b hb => by cases hb; exact hw)
    (fun p Idle hp hq s hs => by
      obtain ⟨s', o', -, -, e⟩ := process_reply (S.env p) S.handle (some remember) S.fns hp hq { inp := s, out := s, buf := [], sink := [], app := (x, 0) } hs hs rfl
        name type seqid fn hh hfn htwo hres sch₁ v hv (x, seqid) (x', seqid) rfl oc (by
          unfold Service.handle
          show (let r := S.handler fn (attrsOf (project sch₁ S.sch (.struct fn.argsId) v)) x; (r.1, (r.2, seqid))) = _
          rw [hrun]) type' sch' sid' u hans hu hdep [0]
      exact ⟨s', o', by unfold Kind.message; rw [List.append_assoc]; exact e⟩) more w t ht

/-- C84: a call of a oneway function: the handler is called once, and nothing is sent. -/
theorem serve_oneway {z : Zlib} (hz : ZlibOk z) (kk : Sink ω) {net : Nat → ν → Option (Except Exc Bytes × ν)} {rest : ν → Bytes} (hd : DeliversUntil net rest) (S : Service χ)
    (o : Obj) (n : Nat) (hr : Ready o n) (k : Kind) (d : Dialect) (ha : d.type k ∈ o.trans.allowed) (hk : d.Tells k)
    (name : PyStr) (type : Nat) (seqid : Int) (fn : Fn) (hh : HeaderOK none name type seqid) (hfn : Serves S.fns name fn) (hone : fn.oneway = true)
    (sch₁ : Schema) (v : Val) (hv : BodyOK none none S.mode sch₁ S.sch fn.argsId v S.fuel)
    (hl : d.Readable z o.trans.maxFrame o.trans.maxDecomp (k.message name type seqid sch₁ fn.argsId v)) (x x' : χ) (oc : Outcome)
    (hrun : S.handler fn (attrsOf (project sch₁ S.sch (.struct fn.argsId) v)) x = (oc, x')) (h1 : ∀ t, oc ≠ .transport t) (h2 : ∀ n, oc ≠ .base n)
    (more : Bytes) (w : ω) (t : ν) (ht : rest t = d.wire z (k.message name type seqid sch₁ fn.argsId v) ++ more) :
    ∃ r, serve z kk net S o x w t = some r ∧ Answered kk rest o n d none w x' more r :=
  serve_of hz kk hd S o n hr k d _ (message_ok k name type seqid hh.kind sch₁ fn.argsId v hv.typed) ha hk hl x x' seqid none (fun b hb => by cases hb)
    (fun p Idle hp hq s hs => by
      obtain ⟨s', -, e⟩ := process_oneway (S.env p) S.handle (some remember) S.fns hp { inp := s, out := s, buf := [], sink := [], app := (x, 0) } hs
        name type seqid fn hh hfn hone sch₁ v hv (x, seqid) (x', seqid) rfl oc (by
          unfold Service.handle
          show (let r := S.handler fn (attrsOf (project sch₁ S.sch (.struct fn.argsId) v)) x; (r.1, (r.2, seqid))) = _
          rw [hrun]) h1 h2 [0]
      exact ⟨s', s, by unfold Kind.message; rw [List.append_assoc]; exact e⟩) more w t ht

/-- C84: a function that the service does not have -/
theorem serve_unknown {z : Zlib} (hz : ZlibOk z) (kk : Sink ω) {net : Nat → ν → Option (Except Exc Bytes × ν)} {rest : ν → Bytes} (hd : DeliversUntil net rest) (S : Service χ)
    (o : Obj) (n : Nat) (hr : Ready o n) (k : Kind) (d : Dialect) (ha : d.type k ∈ o.trans.allowed) (hk : d.Tells k)
    (name : PyStr) (type : Nat) (seqid : Int) (hh : HeaderOK none name type seqid) (hfn : ∀ g ∈ S.fns, g.name ≠ name) (sch₁ : Schema) (sid : Nat) (v : Val)
    (hs : ∀ sid, FieldsOK (sch₁ sid)) (hv : WT sch₁ (.struct sid) v) (hn : nesting v ≤ 64) (hb : BinariesAreText IsUtf8 v) (hlim : WithinLimits none none v)
    (hf : size v ≤ S.fuel) (hx : AppOK (unknownMethod name))
    (hl : d.Readable z o.trans.maxFrame o.trans.maxDecomp (k.message name type seqid sch₁ sid v)) (x : χ)
    (hw : (d.answer seqid n o.trans.writeHeaders).Writable z o.trans.maxFrame (k.format.header name 3 seqid ++ k.format.app (unknownMethod name))) (more : Bytes) (w : ω) (t : ν)
    (ht : rest t = d.wire z (k.message name type seqid sch₁ sid v) ++ more) :
    ∃ r, serve z kk net S o x w t = some r ∧
      Answered kk rest o n d (some ((d.answer seqid n o.trans.writeHeaders).wire z (k.format.header name 3 seqid ++ k.format.app (unknownMethod name)))) w x more r :=
  serve_of hz kk hd S o n hr k d _ (message_ok k name type seqid hh.kind sch₁ sid v hv) ha hk hl x x seqid (some (k.format.header name 3 seqid ++ k.format.app (unknownMethod name)))
    (fun b hb => by cases hb; exact hw)
    (fun p Idle hp hq s hs' => by
      obtain ⟨s', o', -, -, e⟩ := process_unknown (S.env p) S.handle (some remember) S.fns hp hq { inp := s, out := s, buf := [], sink := [], app := (x, 0) } hs' hs' rfl
        name type seqid hh hfn sch₁ sid v hs hv hlim hn hb hf (x, seqid) rfl hx [0]
      exact ⟨s', o', by unfold Kind.message; rw [List.append_assoc]; exact e⟩) more w t ht

end

section
variable {χ ω ν : Type}

theorem serve_exchange {z : Zlib} (hz : ZlibOk z) (kk : Sink ω) {net : Nat → ν → Option (Except Exc Bytes × ν)} {rest : ν → Bytes} (hd : DeliversUntil net rest) (S : Service χ)
    {s : Settings} {h h' : Header.Dict} {x x' : χ} {q : Bytes} {a : Option Bytes} (he : Exchange z S s h x q a h' x') (o : Obj) (ho : Has s h o) (more : Bytes) (w : ω) (t : ν)
    (ht : rest t = q ++ more) :
    ∃ r, serve z kk net S o x w t = some r ∧ (r.result, r.sink) = (match (generalizing := false) a with | some b => kk.writeFlush b w | none => (.ok (), w)) ∧ r.app = x' ∧ rest r.net = more ∧
      Has s h' r.obj := by
  obtain ⟨hr, h1, h2, h3, h4⟩ := ho
  have key : ∀ {d : Dialect} {r : Served χ ω ν} {more : Bytes}, Answered kk rest o s.transforms d a w x' more r → h' = (if a = none ∨ d.sent = none then h else []) →
      (r.result, r.sink) = (match (generalizing := false) a with | some b => kk.writeFlush b w | none => (.ok (), w)) ∧ r.app = x' ∧ rest r.net = more ∧ Has s h' r.obj := by
    intro d r more ha hh
    refine ⟨ha.answer, ha.app, ha.behind, ha.ready, ha.kept.allowed.trans h1, ha.kept.maxFrame.trans h2, ha.kept.maxDecomp.trans h3, ?_⟩
    rw [ha.once, hh, h4]
  cases he with
  | call _ k d name type seqid fn sch₁ v oc type' sch' sid' u a1 a2 a3 a4 a5 a6 a7 a8 a9 a10 a11 a12 a13 =>
    obtain ⟨r, e, ha⟩ := serve_call hz kk hd S o s.transforms hr k d (by rw [h1]; exact a1) a2 name type seqid fn a3 a4 a5 a6 sch₁ v a7 (by rw [h2, h3]; exact a8) x x' oc a9
      type' sch' sid' u a10 a11 a12 (by rw [h2, h4]; exact a13) more w t ht
    rw [h4] at ha
    exact ⟨r, e, key ha (by simp)⟩
  | oneway _ k d name type seqid fn sch₁ v oc a1 a2 a3 a4 a5 a6 a7 a8 a9 a10 =>
    obtain ⟨r, e, ha⟩ := serve_oneway hz kk hd S o s.transforms hr k d (by rw [h1]; exact a1) a2 name type seqid fn a3 a4 a5 sch₁ v a6 (by rw [h2, h3]; exact a7) x x' oc a8 a9 a10
      more w t ht
    exact ⟨r, e, key ha (by simp)⟩
  | unknown k d name type seqid sch₁ sid v a1 a2 a3 a4 a5 a6 a7 a8 a9 a10 a11 a12 a13 =>
    obtain ⟨r, e, ha⟩ := serve_unknown hz kk hd S o s.transforms hr k d (by rw [h1]; exact a1) a2 name type seqid a3 a4 sch₁ sid v a5 a6 a7 a8 a9 a10 a11
      (by rw [h2, h3]; exact a12) x (by rw [h2, h4]; exact a13) more w t ht
    rw [h4] at ha
    exact ⟨r, e, key ha (by simp)⟩

/-- C84: any number of requests on one connection, each in a dialect and protocol of its own: the answers are sent in the order of the requests, each in one piece, and nothing else
is sent. -/
theorem serve_session {z : Zlib} (hz : ZlibOk z) (kk : Sink ω) (hk : ∀ b w, (kk.writeFlush b w).1 = .ok ()) {net : Nat → ν → Option (Except Exc Bytes × ν)} {rest : ν → Bytes}
    (hd : DeliversUntil net rest) (S : Service χ) {s : Settings} {h h' : Header.Dict} {x x' : χ} {l : List (Bytes × Option Bytes)} (hl : Spec.HeaderProtocol.Session z S s h x l h' x') (o : Obj)
    (ho : Has s h o) (more : Bytes) (w : ω) (t : ν) (ht : rest t = (l.map (·.1)).flatten ++ more) :
    ∃ r, serveN z kk net S l.length o x w t = some r ∧ r.result = .ok () ∧ r.sink = (l.filterMap (·.2)).foldl (fun w b => (kk.writeFlush b w).2) w ∧ r.app = x' ∧
      rest r.net = more ∧ Has s h' r.obj := by
  induction hl generalizing o w t with
  | nil h x => exact ⟨_, rfl, rfl, rfl, rfl, ht, ho⟩
  | cons he hl ih =>
    rename_i h h' h'' x x' x'' q a l
    obtain ⟨r, e, hres, happ, hrest, hhas⟩ := serve_exchange hz kk hd S he o ho ((l.map (·.1)).flatten ++ more) w t (by simpa using ht)
    have hok : r.result = .ok () ∧ r.sink = (match a with | some b => (kk.writeFlush b w).2 | none => w) := by
      cases a with
      | none => exact ⟨congrArg Prod.fst hres, congrArg Prod.snd hres⟩
      | some b => exact ⟨(congrArg Prod.fst hres).trans (hk b w), congrArg Prod.snd hres⟩
    obtain ⟨r', e', g1, g2, g3, g4, g5⟩ := ih r.obj hhas r.sink r.net hrest
    refine ⟨r', ?_, g1, ?_, g3, g4, g5⟩
    · rw [List.length_cons, serveN, e]
      dsimp only
      rw [hok.1, happ]
      exact e'
    · rw [g2, hok.2]
      cases a <;> rfl

end

/-! ## Clients -/

section
variable {σ ω ν : Type} [HasDepth σ]

theorem sendWith_transmits (z : Zlib) (kk : Sink ω) (sch : Schema) (mode : Mode) (fn : Fn) (as : List (Option Val)) (seqid : Int) {p : Proto σ} {k : Kind} {Idle : σ → Prop}
    (hp : Spec.Sends p k.format Idle) (wrap : σ → Sub) (s : σ) (hs : Idle s) (hn : TextOK fn.name) (hq : InRange 32 seqid) (hsch : SchemaOK mode sch)
    (hv : WT sch (.struct fn.argsId) (.struct as)) (hd : mode = .gen → structDepth (.struct as) ≤ 64) (h : Header.St) (hw : h.wbuf = BytesIO.of []) (w : ω) :
    ∃ s', Idle s' ∧ sendWith z kk sch mode fn as seqid p wrap s h w =
      (let r := Header.flush z kk { h with wbuf := bufOf (k.message fn.name (if fn.oneway then 4 else 1) seqid sch fn.argsId (.struct as)), sequenceId := seqid } w
       (r.1, { trans := { r.2.1 with wbuf := bufOf [] }, sub := wrap s' }, r.2.2)) := by
  obtain ⟨s', hi, e⟩ := send_transmits hp
    (fun b (x : Header.St × ω) => let r := Header.flush z kk { x.1 with wbuf := bufOf b, sequenceId := seqid } x.2; (r.1, (r.2.1, r.2.2)))
    mode sch fn as { prot := s, buf := [], sink := (h, w), seqid := seqid } hs hn hq hsch hv hd
  refine ⟨s', hi, ?_⟩
  unfold sendWith
  rw [hw]
  simp only [BytesIO.of]
  rw [e]
  rfl

end

section
variable {ω ν : Type}

/-- C84: what a client sends: one message, in the protocol of the client, with the headers that were set and not yet sent. -/
theorem client_send (z : Zlib) (kk : Sink ω) (sch : Schema) (mode : Mode) (fn : Fn) (as : List (Option Val)) (seqid : Int) (o : Obj) (n : Nat) (hr : Ready o n) (k : Kind)
    (hk : Speaks o k) (hn : TextOK fn.name) (hq : InRange 32 seqid) (hsch : SchemaOK mode sch) (hv : WT sch (.struct fn.argsId) (.struct as))
    (hd : mode = .gen → structDepth (.struct as) ≤ 64) (fl : Nat) (hfl : o.trans.flags = fl)
    (hw : (Dialect.headers { flags := fl, seq := seqid, pid := k.id, zlibs := n, headers := o.trans.writeHeaders }).Writable z o.trans.maxFrame
      (k.message fn.name (if fn.oneway then 4 else 1) seqid sch fn.argsId (.struct as))) (w : ω) :
    ∃ o' out, out = (Dialect.headers { flags := fl, seq := seqid, pid := k.id, zlibs := n, headers := o.trans.writeHeaders }).wire z
        (k.message fn.name (if fn.oneway then 4 else 1) seqid sch fn.argsId (.struct as)) ∧
      send z kk sch mode fn as seqid o w = ((kk.writeFlush out w).1, o', (kk.writeFlush out w).2) ∧
      Ready o' n ∧ Kept o o' ∧ Speaks o' k ∧ o'.trans.flags = fl ∧ o'.trans.writeHeaders = [] := by
  have key : ∀ b : Bytes, (Dialect.headers { flags := fl, seq := seqid, pid := k.id, zlibs := n, headers := o.trans.writeHeaders }).Writable z o.trans.maxFrame b →
      Header.flush z kk { o.trans with wbuf := bufOf b, sequenceId := seqid } w =
      (let x := kk.writeFlush ((Dialect.headers { flags := fl, seq := seqid, pid := k.id, zlibs := n, headers := o.trans.writeHeaders }).wire z b) w
       (x.1, { o.trans with wbuf := BytesIO.of [], sequenceId := seqid, writeHeaders := [] }, x.2)) := by
    intro b hb
    have hs : Header.Sends { o.trans with wbuf := bufOf b, sequenceId := seqid }
        { flags := fl, seq := seqid, pid := k.id, zlibs := n, headers := o.trans.writeHeaders } := ⟨hk.client, hfl, rfl, hk.pid, hr.transforms, rfl⟩
    rw [Header.header_flush z kk hs hb.1 w hr.limit hb.2]
    rfl
  refine ⟨?_, _, rfl, ?_⟩
  · exact (send z kk sch mode fn as seqid o w).2.1
  rcases hk.idle with ⟨s, rfl, hs, hi⟩ | ⟨s, rfl, hs, hi⟩
  · obtain ⟨s', hi', e⟩ := sendWith_transmits (k := .binary) z kk sch mode fn as seqid (Binary.writes {} rfl) Sub.binary s hi hn hq hsch hv hd o.trans hr.buffer w
    unfold send
    rw [hs]
    simp only [e, key _ hw]
    exact ⟨trivial, ⟨rfl, hr.transforms, hr.limit⟩, ⟨rfl, rfl, rfl, rfl⟩, ⟨hk.client, hk.pid, .inl ⟨s', rfl, rfl, hi'⟩⟩, hfl, trivial⟩
  · obtain ⟨s', hi', e⟩ := sendWith_transmits (k := .compact) z kk sch mode fn as seqid (Compact.writes {}) Sub.compact s hi hn hq hsch hv hd o.trans hr.buffer w
    unfold send
    rw [hs]
    simp only [e, key _ hw]
    exact ⟨trivial, ⟨rfl, hr.transforms, hr.limit⟩, ⟨rfl, rfl, rfl, rfl⟩, ⟨hk.client, hk.pid, .inr ⟨s', rfl, rfl, hi'⟩⟩, hfl, trivial⟩

/-- What a client does with an answer that has headers -/
theorem client_recv {z : Zlib} (hz : ZlibOk z) {net : Nat → ν → Option (Except Exc Bytes × ν)} {rest : ν → Bytes} (hd : DeliversUntil net rest) (sch : Schema) (mode : Mode)
    (fuel : Nat) (fn : Fn) (o : Obj) (n : Nat) (hr : Ready o n) (k : Kind) (m : Meta) (hm : m.pid = k.id) (ha : 0 ∈ o.trans.allowed) (msg : Bytes) (hp : IsMessage k msg)
    (hl : (Dialect.headers m).Readable z o.trans.maxFrame o.trans.maxDecomp msg) (res : Result)
    (hrun : ∀ {σ : Type} [HasDepth σ] (p : Proto σ) (Idle : σ → Prop), Receives p k.format Idle none none → ∀ s, Idle s →
      ∃ s', Idle s' ∧ exec (Rpc.recv p sch mode fuel fn) s (msg ++ [0]) = some ((.ok res, s'), [0]))
    (more : Bytes) (t : ν) (ht : rest t = (Dialect.headers m).wire z msg ++ more) :
    ∃ o' t', recv z net sch mode fuel fn o t = some ((.ok res, o'), t') ∧ rest t' = more ∧ Ready o' n ∧ Kept o o' ∧ Speaks o' k ∧
      o'.trans.readHeaders = m.headers ∧ o'.trans.writeHeaders = o.trans.writeHeaders ∧ o'.trans.flags = m.flags := by
  obtain ⟨t1, e1, h1⟩ := begin_dialect hz hd o k (.headers m) msg more hp ha hm hl t ht
  unfold recv
  rw [e1]
  cases k with
  | binary =>
    obtain ⟨s', hi, e⟩ := hrun (Binary.proto {}) Binary.Idle (Binary.reads {}) {} rfl
    obtain ⟨rb, t', e2, h2⟩ := run_opened z hd (recv_steady (Binary.steadyProto {}) sch mode fuel fn) e o.trans .binary (.headers m) hp.length more t1 h1
    simp only [fresh, recvWith]
    rw [e2]
    exact ⟨_, t', rfl, h2, ⟨hr.buffer, hr.transforms, hr.limit⟩, ⟨rfl, rfl, rfl, rfl⟩, ⟨rfl, by show ((m.pid : Nat) : Int) = _; rw [hm], .inl ⟨s', rfl, rfl, hi⟩⟩, rfl, rfl, rfl⟩
  | compact =>
    obtain ⟨s', hi, e⟩ := hrun (Compact.proto {}) Compact.Idle (Compact.reads {}) {} ⟨rfl, rfl, rfl⟩
    obtain ⟨rb, t', e2, h2⟩ := run_opened z hd (recv_steady (Compact.steadyProto {}) sch mode fuel fn) e o.trans .compact (.headers m) hp.length more t1 h1
    simp only [fresh, recvWith]
    rw [e2]
    exact ⟨_, t', rfl, h2, ⟨hr.buffer, hr.transforms, hr.limit⟩, ⟨rfl, rfl, rfl, rfl⟩, ⟨rfl, by show ((m.pid : Nat) : Int) = _; rw [hm], .inr ⟨s', rfl, rfl, hi⟩⟩, rfl, rfl, rfl⟩

end

theorem told_unique {fn : Fn} {o : Outcome} {r r' : Result} (h : Told fn o r) (h' : Told fn o r') : r = r' := by
  cases h <;> cases h' <;> first | rfl | (exfalso; simp_all; done)

section
variable {χ ν μ : Type}

/-- C84: a call of a two-way function through a generated client and a generated processor, both with `THeaderProtocol`: the handler is called once, with equal arguments, and the
client returns or raises what it did. Each side gets the headers that the other had set, once, and is ready for the next call. -/
theorem header_call {z : Zlib} (hz : ZlibOk z) {net : Nat → ν → Option (Except Exc Bytes × ν)} {rest : ν → Bytes} (hd : DeliversUntil net rest)
    {net' : Nat → μ → Option (Except Exc Bytes × μ)} {rest' : μ → Bytes} (hd' : DeliversUntil net' rest') (S : Service χ) (fuel : Nat) (k : Kind)
    -- the client and the server
    (oc os : Obj) (n n' fl : Nat) (hc : Ready oc n) (hk : Speaks oc k) (hfl : oc.trans.flags = fl) (hac : 0 ∈ oc.trans.allowed)
    (hs : Ready os n') (has : 0 ∈ os.trans.allowed)
    -- the function, its arguments
    (fn : Fn) (hfn : Serves S.fns fn.name fn) (htwo : fn.oneway = false) (hsch : SchemaOK S.mode S.sch) (hres : ResultOK S.sch fn) (hname : TextOK fn.name)
    (seqid : Int) (hq : InRange 32 seqid) (as : List (Option Val)) (harg : Sendable none none S.mode S.sch fn.argsId (.struct as) S.fuel)
    -- what the handler does
    (x x' : χ) (o : Outcome) (hrun : S.handler fn as x = (o, x')) (type : Nat) (sch' : Schema) (sid' : Nat) (u : Val)
    (hans : Answers S.sch fn o type sch' sid' u) (hw2 : type = 2 → Sendable none none S.mode sch' sid' u fuel)
    (hw3 : type = 3 → 5 ≤ fuel ∧ ∃ x, u = appVal x ∧ AppOK x ∧ ∀ m ∈ x.message, Within none (utf8Len m)) (hdep : structDepth u ≤ 64)
    -- the limits
    (call answer : Dialect) (hcall : call = .headers { flags := fl, seq := seqid, pid := k.id, zlibs := n, headers := oc.trans.writeHeaders })
    (hanswer : answer = .headers { flags := fl, seq := seqid, pid := k.id, zlibs := n', headers := os.trans.writeHeaders })
    (hl1 : call.Writable z oc.trans.maxFrame (k.message fn.name 1 seqid S.sch fn.argsId (.struct as)))
    (hl2 : call.Readable z os.trans.maxFrame os.trans.maxDecomp (k.message fn.name 1 seqid S.sch fn.argsId (.struct as)))
    (hl3 : answer.Writable z os.trans.maxFrame (k.message fn.name type seqid sch' sid' u))
    (hl4 : answer.Readable z oc.trans.maxFrame oc.trans.maxDecomp (k.message fn.name type seqid sch' sid' u)) :
    ∃ oc₁ wire, send z Header.recorder S.sch S.mode fn as seqid oc [] = (.ok (), oc₁, wire) ∧
      ∀ (t : ν) (more : Bytes), rest t = wire ++ more →
      ∃ r, serve z Header.recorder net S os x [] t = some r ∧ r.result = .ok () ∧ r.app = x' ∧ rest r.net = more ∧
        r.obj.trans.readHeaders = oc.trans.writeHeaders ∧ r.obj.trans.writeHeaders = [] ∧ Ready r.obj n' ∧ Kept os r.obj ∧
        ∀ (t : μ) (more : Bytes), rest' t = r.sink ++ more →
        ∃ res oc₂ t', Told fn o res ∧ recv z net' S.sch S.mode fuel fn oc₁ t = some ((.ok res, oc₂), t') ∧ rest' t' = more ∧
          oc₂.trans.readHeaders = os.trans.writeHeaders ∧ oc₂.trans.writeHeaders = [] ∧ Ready oc₂ n ∧ Kept oc oc₂ ∧ Speaks oc₂ k ∧ oc₂.trans.flags = fl := by
  subst hcall hanswer
  have hw1 : ((if fn.oneway then 4 else 1 : Nat)) = 1 := by rw [htwo]; rfl
  obtain ⟨oc₁, wire, hwire, hsend, hr1, hk1, hsp1, hf1, hwh1⟩ := client_send z Header.recorder S.sch S.mode fn as seqid oc n hc k hk hname hq hsch harg.typed harg.depth fl hfl
    (by rw [hw1]; exact hl1) []
  rw [hw1] at hwire
  refine ⟨oc₁, wire, by rw [hsend]; simp [Sink.writeFlush, Header.recorder], ?_⟩
  intro t more ht
  have htype : IsMessageType type := by cases hans <;> exact ⟨by omega, by omega⟩
  have hwu : WT sch' (.struct sid') u := by
    obtain ⟨_, _, h, _⟩ := recv_told (Binary.reads {}) S.mode S.sch fuel fn hsch hres o type sch' sid' u seqid hans
      ⟨hname, (by intro l h; cases h), htype, hq⟩ hw2 hw3
    exact h
  obtain ⟨r, hserve, ha⟩ := serve_call hz Header.recorder hd S os n' hs k (.headers { flags := fl, seq := seqid, pid := k.id, zlibs := n, headers := oc.trans.writeHeaders }) has rfl
    fn.name 1 seqid fn ⟨hname, (by intro l h; cases h), ⟨by omega, by omega⟩, hq⟩ hfn htwo hres S.sch (.struct as) (harg.body hsch) hl2 x x' o
    (by rw [harg.same hsch]; exact hrun) type sch' sid' u hans hwu hdep hl3 more [] t (by rw [ht, hwire])
  have hans' := ha.answer
  simp only [Sink.writeFlush, Header.recorder, List.nil_append, Prod.mk.injEq] at hans'
  refine ⟨r, hserve, hans'.1, ha.app, ha.behind, ha.told, by rw [ha.once]; simp [Dialect.sent], ha.ready, ha.kept, ?_⟩
  intro t more ht
  rw [hans'.2] at ht
  -- what the client makes of it does not depend on the protocol
  have hmean : ∃ res, Told fn o res ∧ ∀ {σ : Type} [HasDepth σ] (p : Proto σ) (Idle : σ → Prop), Receives p k.format Idle none none → ∀ s, Idle s →
      ∃ s', Idle s' ∧ exec (Rpc.recv p S.sch S.mode fuel fn) s (k.message fn.name type seqid sch' sid' u ++ [0]) = some ((.ok res, s'), [0]) := by
    obtain ⟨res, h1, -⟩ := recv_told (Binary.reads {}) S.mode S.sch fuel fn hsch hres o type sch' sid' u seqid hans
      ⟨hname, (by intro l h; cases h), htype, hq⟩ hw2 hw3
    refine ⟨res, h1, fun p Idle hp s hi => ?_⟩
    obtain ⟨res', h1', -, h2⟩ := recv_told hp S.mode S.sch fuel fn hsch hres o type sch' sid' u seqid hans
      ⟨hname, (by intro l h; cases h), htype, hq⟩ hw2 hw3
    obtain ⟨s', hi', e⟩ := h2 s hi
    rw [told_unique h1 h1']
    exact ⟨s', hi', e [0]⟩
  obtain ⟨res, htold, hrecv⟩ := hmean
  obtain ⟨oc₂, t', e, h1, h2, h3, h4, h5, h6, h7⟩ := client_recv hz hd' S.sch S.mode fuel fn oc₁ n hr1 k
    { flags := fl, seq := seqid, pid := k.id, zlibs := n', headers := os.trans.writeHeaders } rfl
    (by rw [hk1.allowed]; exact hac) _ (message_ok k fn.name type seqid htype sch' sid' u hwu) (by rw [hk1.maxFrame, hk1.maxDecomp]; exact hl4) res hrecv more t ht
  exact ⟨res, oc₂, t', htold, e, h1, h5, by rw [h6, hwh1], h2, ⟨h3.allowed.trans hk1.allowed, h3.transforms.trans hk1.transforms, h3.maxFrame.trans hk1.maxFrame,
    h3.maxDecomp.trans hk1.maxDecomp⟩, h4, h7⟩

end

/-! ## What C84 does not promise -/

section
variable {χ ω ν : Type}

/-- The server has given up without an answer: the handler was not called and nothing was sent. -/
structure Silent (r : Served χ ω ν) (x : χ) (w : ω) : Prop where
  raised : r.result = .error .typeError ∨ r.result = .error .assertion
  app : r.app = x
  sink : r.sink = w

theorem reject_error (o : Obj) : (reject o).1 = .typeError ∨ (reject o).1 = .assertion := by
  unfold reject
  split
  · exact .inl rfl
  · split
    · exact .inl rfl
    · exact .inr rfl

/-- A message with headers whose protocol id is not known: `readMessageBegin` wants to answer with an exception, but the caller is told nothing. -/
theorem bad_protocol_silent {z : Zlib} (hz : ZlibOk z) (kk : Sink ω) {net : Nat → ν → Option (Except Exc Bytes × ν)} {rest : ν → Bytes} (hd : DeliversUntil net rest) (S : Service χ)
    (o : Obj) (m : Meta) (h0 : m.pid ≠ 0) (h2 : m.pid ≠ 2) (ha : 0 ∈ o.trans.allowed) (p more : Bytes)
    (hl : (Dialect.headers m).Readable z o.trans.maxFrame o.trans.maxDecomp p) (x : χ) (w : ω) (t : ν) (ht : rest t = (Dialect.headers m).wire z p ++ more) :
    ∃ r, serve z kk net S o x w t = some r ∧ Silent r x w := by
  obtain ⟨h1, h3, h4, h5, h6⟩ := hl
  obtain ⟨t', e, hr⟩ := (readFrame_steady z).upTo _ _ _ hd o.trans t () _ _ (by rw [ht]; exact Header.header_receive hz 0 o.trans h1 h3 ha p more h4 h5 h6)
  have hs : setProtocol { o with trans := received o.trans m p } = (.error (.tapplication 7), { o with trans := received o.trans m p }) := by
    have : Header.protocolIdOf (received o.trans m p) = .ok (m.pid : Int) := rfl
    have hn : newSub (m.pid : Int) = none := by
      unfold newSub
      rw [if_neg (by simp only [Header.BINARY]; omega), if_neg (by simp only [Header.COMPACT]; omega)]
    simp only [setProtocol, this, hn]
  have hb : begin_ z net o t = some ((.error (reject { o with trans := received o.trans m p }).1, (reject { o with trans := received o.trans m p }).2), t') := by
    unfold begin_
    rw [e]
    simp only [hs]
  unfold serve
  rw [hb]
  refine ⟨_, rfl, ?_, rfl, rfl⟩
  rcases reject_error { o with trans := received o.trans m p } with h | h
  · exact .inl (by simp only [h])
  · exact .inr (by simp only [h])

theorem takeTransforms_bad (ids : List Nat) (hlt : ∀ id ∈ ids, id < 2 ^ 70) (hbad : ∃ id ∈ ids, id ≠ 1) (x : Bytes) :
    Header.takeTransforms ids.length (ids.flatMap Spec.Compact.varint ++ x) = .error TApplicationException.INVALID_TRANSFORM := by
  induction ids with
  | nil => obtain ⟨_, h, _⟩ := hbad; cases h
  | cons id ids ih =>
    simp only [List.length_cons, List.flatMap_cons, List.append_assoc, Header.takeTransforms]
    rw [Header.takeVarint_ok (hlt id (by simp))]
    simp only
    by_cases h1 : id = 1
    · rw [if_neg (by simp only [Header.ZLIB]; omega), ih (fun i hi => hlt i (by simp [hi])) (by
        obtain ⟨i, hi, hne⟩ := hbad
        rcases List.mem_cons.1 hi with rfl | hi
        · exact absurd h1 hne
        · exact ⟨i, hi, hne⟩)]
    · rw [if_pos (by simp only [Header.ZLIB]; omega)]

/-- A message with headers that names a transform that is not known: the same -/
theorem bad_transform_silent {z : Zlib} (kk : Sink ω) {net : Nat → ν → Option (Except Exc Bytes × ν)} {rest : ν → Bytes} (hd : Delivers net rest) (S : Service χ)
    (o : Obj) (flags : Nat) (seq : Int) (pid : Nat) (ids : List Nat) (headers : Header.Dict) (payload more : Bytes) (hf : flags < 2 ^ 16) (hq : InRange 32 seq) (hp : pid < 2 ^ 70)
    (hids : ∀ id ∈ ids, id < 2 ^ 70) (hbad : ∃ id ∈ ids, id ≠ 1) (ha : 0 ∈ o.trans.allowed) (hsize : (pad (block pid ids headers)).length / 4 < 2 ^ 16)
    (hl : 10 + (pad (block pid ids headers)).length + payload.length < 2 ^ 31)
    (hl' : ((10 + (pad (block pid ids headers)).length + payload.length : Nat) : Int) ≤ o.trans.maxFrame) (x : χ) (w : ω) (t : ν)
    (ht : rest t = Spec.Header.frame flags seq (pad (block pid ids headers)) payload ++ more) :
    ∃ r, serve z kk net S o x w t = some r ∧ Silent r x w := by
  have hlen : ids.length < 2 ^ 70 := by
    have h1 : ids.length ≤ (ids.flatMap Spec.Compact.varint).length := by
      generalize ids = is
      induction is with
      | nil => simp
      | cons i is ih =>
        have : 0 < (Spec.Compact.varint i).length := by rw [Spec.Compact.varint]; split <;> simp
        simp only [List.flatMap_cons, List.length_append, List.length_cons]
        omega
    have h2 : (ids.flatMap Spec.Compact.varint).length ≤ (pad (block pid ids headers)).length := by
      unfold pad block
      simp only [List.length_append]
      omega
    omega
  have hblk : ∀ y : Bytes, ∃ y', pad (block pid ids headers) ++ y = Spec.Compact.varint pid ++ (Spec.Compact.varint ids.length ++ (ids.flatMap Spec.Compact.varint ++ y')) := by
    intro y
    refine ⟨info headers ++ (List.replicate (((block pid ids headers).length + 3) / 4 * 4 - (block pid ids headers).length) 0 ++ y), ?_⟩
    unfold pad
    conv => lhs; arg 1; arg 1; unfold block
    simp only [List.append_assoc]
  generalize hH : pad (block pid ids headers) = H at *
  generalize hbody : [0x0F, 0xFF] ++ beInt 2 flags ++ beInt 4 seq ++ beInt 2 (H.length / 4 : Nat) ++ H ++ payload = body
  have hbl : body.length = 10 + H.length + payload.length := by
    rw [← hbody]
    simp only [List.length_append, beInt_length, List.length_cons, List.length_nil]
  have hmod : H.length / 4 * 4 = H.length := by
    rw [← hH, Header.pad_length]
    omega
  have hopen : Header.openFrame z body o.trans = some (.error TApplicationException.INVALID_TRANSFORM,
      { o.trans with clientType := 0, flags := flags, sequenceId := seq, protocolId := pid }) := by
    rw [Header.openFrame_eq z _ _ (by omega), show framedType (List.take 4 body) = some Header.ClientType.HEADERS by
      rw [← hbody]; simp only [List.append_assoc]; exact Header.word_magic _]
    simp only [Header.ClientType.HEADERS, if_pos ha, if_true]
    have hph : Header.parseHeader z { o.trans with clientType := 0 } body = some (.error TApplicationException.INVALID_TRANSFORM,
        { o.trans with clientType := 0, flags := flags, sequenceId := seq, protocolId := pid }) := by
      unfold Header.parseHeader
      have e0 : body.drop 2 = beInt 2 flags ++ (beInt 4 seq ++ (beInt 2 (H.length / 4 : Nat) ++ (H ++ payload))) := by
        rw [← hbody]; simp only [List.append_assoc]; rfl
      rw [e0, Header.takeU16_beInt hf]
      simp only
      rw [Header.takeI32_beInt hq]
      simp only
      rw [Header.takeU16_beInt hsize]
      simp only [Int.toNat_natCast, List.length_append, hmod]
      rw [if_neg (by omega)]
      unfold Header.parseIds
      obtain ⟨y, hy⟩ := hblk payload
      rw [hy, Header.takeVarint_ok hp]
      simp only
      rw [Header.takeVarint_ok hlen]
      simp only [Int.toNat_natCast]
      rw [takeTransforms_bad ids hids hbad]
    rw [hph]
  have hexec : exec (Header.readFrame z 0) o.trans (rest t) = some ((.error TApplicationException.INVALID_TRANSFORM,
      { o.trans with clientType := 0, flags := flags, sequenceId := seq, protocolId := pid }), more) := by
    have : rest t = beInt 4 body.length ++ (body ++ more) := by
      rw [ht, hbl, ← hbody]
      simp only [Spec.Header.frame, List.append_assoc]
    rw [this, Header.exec_frame z 0 o.trans body more (by omega) (by omega), hopen]
    rfl
  have hany := (readFrame_steady z).any _ _ _ hd o.trans t
  rw [hexec] at hany
  obtain ⟨t', e, -⟩ := hany
  generalize hh : ({ o.trans with clientType := 0, flags := flags, sequenceId := seq, protocolId := pid } : Header.St) = h at e
  have hb : begin_ z net o t = some ((.error (reject { o with trans := h }).1, (reject { o with trans := h }).2), t') := by
    unfold begin_
    rw [e]
    rfl
  unfold serve
  rw [hb]
  refine ⟨_, rfl, ?_, rfl, rfl⟩
  rcases reject_error { o with trans := h } with h | h
  · exact .inl (by simp only [h])
  · exact .inr (by simp only [h])

end

/-! ## Examples -/

section
open SampleService

/-- The sample service -/
abbrev sample : Service Nat where
  sch := sch
  fuel := 100
  fns := fns
  handler := handler

/-- An object that allows all dialects, with a header to be sent -/
abbrev peer (key value : Bytes) : Obj := { trans := { allowed := [0, 1, 2, 3, 4], writeHeaders := [(key, value)] }, sub := .binary {} }

theorem peer_ready (key value : Bytes) : Ready (peer key value) 0 := ⟨rfl, rfl, by simp [Header.DEFAULT_MAX_FRAME_SIZE]⟩

theorem mem_delivers : Delivers memStep id := by
  intro n t
  refine ⟨t.take (n + 1), t.drop (n + 1), rfl, by simp, by simp; omega, ?_⟩
  cases t <;> simp

theorem args_free : Sendable none none .gen sch 1 (.struct args) 100 :=
  ⟨(args_sendable .gen).typed, (args_sendable .gen).hidden, (args_sendable .gen).duplicates, by simp [args, WithinLimits, Sizes, Sizesf, Within],
    (args_sendable .gen).depth, (args_sendable .gen).fuel⟩

theorem seven_free : Sendable none none .gen sch 2 seven 100 :=
  ⟨(seven_sendable .gen).typed, (seven_sendable .gen).hidden, (seven_sendable .gen).duplicates, by
    show Sizesf (Within none) (Within none) [some (.str (pyStr "seven")), none]
    simp [Sizesf, Sizes, Within],
    (seven_sendable .gen).depth, (seven_sendable .gen).fuel⟩

/-- A new object is `peer` without a header. -/
example : create [0, 1, 2, 3, 4] 0 = .ok { (peer [] []) with trans := { (peer [] []).trans with writeHeaders := [] } } := rfl

/-- The hypotheses of `serve_call` hold for `get(7)` from a peer that uses the compact protocol and frames. -/
example := serve_call storedZlib_ok Header.recorder mem_delivers.until sample (peer [1] [9]) 0 (peer_ready _ _) .compact .framed (by decide) trivial get.name 1 0 get
  ⟨by unfold SampleService.get; decide, (by intro l h; cases h), ⟨by omega, by omega⟩, by decide⟩ serves.1 rfl get_ok sch (.struct args) (args_free.body (sch_ok .gen))
  ⟨by decide +kernel, by decide +kernel⟩ 5 6
  (.returned (some (.str (pyStr "seven")))) (by rw [show project sch sample.sch (.struct SampleService.get.argsId) (.struct args) = .struct args from args_free.same (sch_ok _)]; rfl)
  2 sch 2 seven (.value _ rfl) seven_free.typed (by decide) (by show _ ≤ _; decide +kernel) [7, 7] []

/-- The same with bytes: what is sent -/
example : (serve storedZlib Header.recorder memStep sample (peer [1] [9]) 5 [] [0, 0, 0, 10, 0x82, 0x21, 0, 3, 103, 101, 116, 0x15, 14, 0, 7, 7]).map
    (fun r => (r.result, r.app, r.sink, r.net)) =
    some (.ok (), 6, [0, 0, 0, 16, 0x82, 0x41, 0, 3, 103, 101, 116, 8, 0, 5, 115, 101, 118, 101, 110, 0], [7, 7]) := by decide +kernel

/-- `get(7)` is an exchange, in every dialect, when the limits allow it. -/
theorem get_exchange {s : Settings} {h : Header.Dict} {n : Nat} (k : Kind) (d : Dialect) (h1 : d.type k ∈ s.allowed) (h2 : d.Tells k)
    (h3 : d.Readable storedZlib s.maxFrame s.maxDecomp (k.message get.name 1 0 sch 1 (.struct args)))
    (h4 : (d.answer 0 s.transforms h).Writable storedZlib s.maxFrame (k.message get.name 2 0 sch 2 seven)) :
    Exchange storedZlib sample s h n (d.wire storedZlib (k.message get.name 1 0 sch 1 (.struct args)))
      (some ((d.answer 0 s.transforms h).wire storedZlib (k.message get.name 2 0 sch 2 seven))) (if d.sent = none then h else []) (n + 1) :=
  .call h n (n + 1) k d get.name 1 0 get sch (.struct args) (.returned (some (.str (pyStr "seven")))) 2 sch 2 seven h1 h2
    ⟨by unfold SampleService.get; decide, (by intro l h; cases h), ⟨by omega, by omega⟩, by decide⟩ serves.1 rfl get_ok (args_free.body (sch_ok .gen)) h3
    (by rw [show project sch sample.sch (.struct SampleService.get.argsId) (.struct args) = .struct args from args_free.same (sch_ok _)]; rfl)
    (.value _ rfl) seven_free.typed (by decide) h4

/-- `log(7, ..)` is an exchange without an answer. -/
theorem log_exchange {s : Settings} {h : Header.Dict} {n : Nat} (k : Kind) (d : Dialect) (h1 : d.type k ∈ s.allowed) (h2 : d.Tells k)
    (h3 : d.Readable storedZlib s.maxFrame s.maxDecomp (k.message SampleService.log.name 4 0 sch 1 (.struct args))) :
    Exchange storedZlib sample s h n (d.wire storedZlib (k.message SampleService.log.name 4 0 sch 1 (.struct args))) none h (n + 1) :=
  .oneway h n (n + 1) k d SampleService.log.name 4 0 SampleService.log sch (.struct args) (.returned none) h1 h2
    ⟨by unfold SampleService.log; decide, (by intro l h; cases h), ⟨by omega, by omega⟩, by decide⟩ serves.2.2 rfl (args_free.body (sch_ok .gen)) h3
    (by rw [show project sch sample.sch (.struct SampleService.log.argsId) (.struct args) = .struct args from args_free.same (sch_ok _)]; rfl) (by intro t h; cases h)
    (by intro t h; cases h)

/-- Three requests on one connection: in the compact protocol with frames; oneway, in the binary protocol without frames; in the binary protocol with frames. -/
example := serve_session storedZlib_ok Header.recorder (fun _ _ => rfl) mem_delivers.until sample
  (s := ⟨[0, 1, 2, 3, 4], Header.DEFAULT_MAX_FRAME_SIZE, Header.DEFAULT_MAX_FRAME_SIZE, 0⟩) (h := [([1], [9])]) (x := 5)
  (.cons (get_exchange .compact .framed (by decide) trivial ⟨by decide +kernel, by decide +kernel⟩ (by show _ ≤ _; decide +kernel))
    (.cons (log_exchange .binary .unframed (by decide) trivial trivial)
      (.cons (get_exchange .binary .framed (by decide) trivial ⟨by decide +kernel, by decide +kernel⟩ (by show _ ≤ _; decide +kernel)) (.nil _ _))))
  (peer [1] [9]) ⟨peer_ready _ _, rfl, rfl, rfl, rfl⟩ [7, 7] []

/-- The hypotheses of `header_call` hold for `get(7)`, with one header in each direction. -/
example := header_call storedZlib_ok mem_delivers.until mem_delivers.until sample 100 .binary (peer [1] [9]) (peer [2] [8, 8]) 0 0 0 (peer_ready _ _)
  ⟨rfl, rfl, .inl ⟨_, rfl, rfl, rfl⟩⟩ rfl (by decide) (peer_ready _ _) (by decide) get serves.1 rfl (sch_ok .gen) get_ok (by unfold SampleService.get; decide) 0 (by decide) args args_free 5 6
  (.returned (some (.str (pyStr "seven")))) rfl 2 sch 2 seven (.value _ rfl) (fun _ => seven_free) (fun h => by cases h) (by decide) _ _ rfl rfl
  ⟨⟨by decide, by decide, by decide, by decide, by decide +kernel⟩, by decide +kernel⟩
  ⟨⟨by decide, by decide, by decide, by decide, by decide +kernel⟩, by decide, by decide +kernel, by decide +kernel, by intro j hj; cases hj⟩
  ⟨⟨by decide, by decide, by decide, by decide, by decide +kernel⟩, by decide +kernel⟩
  ⟨⟨by decide, by decide, by decide, by decide, by decide +kernel⟩, by decide, by decide +kernel, by decide +kernel, by intro j hj; cases hj⟩

/-- A message with protocol 1: four bytes are left in the buffer, and nothing is sent. -/
example : (serve storedZlib Header.recorder memStep sample (peer [1] [9]) 5 [] (Spec.Header.frame 0 0 [1, 0, 0, 0] [7])).map
    (fun r => (r.result, r.app, r.sink, r.obj.trans.wbuf.value, r.net)) = some (.error .typeError, 5, [], [0x80, 0x01, 0x00, 0x03], []) := by decide +kernel

/-- The same with an unknown transform -/
example : (serve storedZlib Header.recorder memStep sample (peer [1] [9]) 5 [] (Spec.Header.frame 0 0 [0, 1, 3, 0] [7])).map
    (fun r => (r.result, r.app, r.sink, r.obj.trans.wbuf.value, r.net)) = some (.error .typeError, 5, [], [0x80, 0x01, 0x00, 0x03], []) := by decide +kernel

end

end Thrift.HeaderProtocol
