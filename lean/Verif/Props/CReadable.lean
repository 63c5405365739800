import Verif.Proofs.CReadable
import Verif.Props.FastDecode
import Verif.Props.Zlib
/-
C91: the decoder of the C extension over the transports (`CReadableTransport`).
-/

namespace Thrift.CReadable
open Spec Fast

variable {σ τ : Type} {net : Nat → τ → Option (Except Exc Bytes × τ)} {rest : τ → Bytes}

/-- `decode` of the binary protocol -/
def decodeBinary (T : CReadable σ) (net : Nat → τ → Option (Except Exc Bytes × τ)) (env : Env) (cfg : Binary.Cfg) (sch : Schema) (fuel sid : Nat) (x : σ × τ) :
    Option (Except Exc Val × (σ × τ)) :=
  decode T net (decodeValue env (binaryRd env cfg) sch fuel (.struct sid)) {} x

/-- `decode` of the compact protocol -/
def decodeCompact (T : CReadable σ) (net : Nat → τ → Option (Except Exc Bytes × τ)) (env : Env) (cfg : Compact.Cfg) (sch : Schema) (fuel sid : Nat) (x : σ × τ) :
    Option (Except Exc Val × (σ × τ)) :=
  decode T net (decodeValue env (compactRd cfg) sch fuel (.struct sid)) {} x

/-! ## Any bytes -/

theorem decode_like {T : CReadable σ} {R : σ × τ → Bytes → Prop} {Dead : σ × τ → Prop} (H : Refills T net R) (K : Ends T net R Dead)
    {ρ : Type} {m : P ρ Val} (hm : Whole m) (init : ρ) (x : σ × τ) (b : Bytes) (hx : R x b) :
    LikeMemory (decode T net m init x) R (seen (exec m init b)) := by
  have h := hm _ _ _ (H.exact K) init ({ trans := x.1 }, x.2) b (.inl ⟨rfl, hx⟩)
  unfold decode seen LikeMemory
  cases he : exec m init b with
  | none => rw [he] at h; simp only at h; rw [h]; rfl
  | some y =>
    obtain ⟨⟨r, s⟩, b'⟩ := y
    rw [he] at h
    obtain ⟨⟨e, t'⟩, h1, h2⟩ := h
    refine ⟨(e.trans, t'), by rw [h1]; rfl, fun hne => ?_⟩
    rcases h2 with h2 | ⟨h3, -⟩
    · exact h2.2
    · exact absurd h3 hne

/-- Both protocols are used like over a buffer with all the bytes. -/
def LikeMemoryBoth (T : CReadable σ) (net : Nat → τ → Option (Except Exc Bytes × τ)) (R : σ × τ → Bytes → Prop) : Prop :=
  ∀ (env : Env) (sch : Schema) (fuel sid : Nat) (x : σ × τ) (b : Bytes), R x b →
    (∀ cfg, LikeMemory (decodeBinary T net env cfg sch fuel sid x) R
      (seen (exec (decodeValue env (binaryRd env cfg) sch fuel (.struct sid)) {} b))) ∧
    (∀ cfg, LikeMemory (decodeCompact T net env cfg sch fuel sid x) R
      (seen (exec (decodeValue env (compactRd cfg) sch fuel (.struct sid)) {} b)))

theorem likeMemoryBoth {T : CReadable σ} {R : σ × τ → Bytes → Prop} {Dead : σ × τ → Prop} (H : Refills T net R) (K : Ends T net R Dead) :
    LikeMemoryBoth T net R := fun env sch fuel _ _ _ hx =>
  ⟨fun cfg => decode_like H K (decodeValue_whole (binary_whole env cfg) env sch fuel _) _ _ _ hx,
    fun cfg => decode_like H K (decodeValue_whole (compact_whole cfg) env sch fuel _) _ _ _ hx⟩

/-- C91 for `TMemoryBuffer`, whatever the bytes are -/
theorem memory_any (net : Nat → τ → Option (Except Exc Bytes × τ)) : LikeMemoryBoth memory net InMemory :=
  likeMemoryBoth memory_refills memory_ends

/-- C91 for `TBufferedTransport`, whatever the bytes are and however they are delivered -/
theorem buffered_any (hd : Delivers net rest) : LikeMemoryBoth buffered net (InBuffered rest) :=
  likeMemoryBoth (buffered_refills hd.until) (buffered_ends hd)

/-- C91 for `TFramedTransport`: a value may span frames. -/
theorem framed_any (hd : Delivers net rest) (fuel : Nat) : LikeMemoryBoth (framed fuel) net (InFramed rest fuel) :=
  likeMemoryBoth (framed_refills hd.until fuel) (framed_ends hd fuel)

/-- C91 for `TSaslClientTransport` -/
theorem sasl_any {μ ω : Type} (c : Sasl.Mech μ) (hd : Delivers net rest) (fuel : Nat) :
    LikeMemoryBoth (sasl (ω := ω) c fuel) net (InSasl c rest fuel) :=
  likeMemoryBoth (sasl_refills hd.until fuel) (sasl_ends hd fuel)

/-! ## What a writer produces -/

/-- The hypotheses of `Fast.fast_decodes`: a value of the writer's schema that the reader can decode -/
structure Decodable (env : Env) (sch₁ sch₂ : Schema) (sid : Nat) (v : Val) (fuel : Nat) (sl cl : Option Int) : Prop where
  env : env.Decodes
  writer : ∀ sid, FieldsOK (sch₁ sid)
  reader : SchemaOK .dyn sch₂
  compatible : Compatible sch₁ sch₂
  typed : WT sch₁ (.struct sid) v
  limits : WithinLimits sl cl v
  depth : structDepth v ≤ 64
  unknowns : Unknowns (fun u => structDepth v + nesting u ≤ 64) sch₁ sch₂ (.struct sid) v
  fuel : size v ≤ fuel

/-- Of a value and the bytes that follow it, `decode` returns what the reader knows of the value, and
the bytes that follow are still to come. -/
def ReturnsBoth (T : CReadable σ) (net : Nat → τ → Option (Except Exc Bytes × τ)) (R : σ × τ → Bytes → Prop) : Prop :=
  ∀ (env : Env) (sch₁ sch₂ : Schema) (sid : Nat) (v : Val) (fuel : Nat) (sl cl : Option Int) (strict : Bool),
    Decodable env sch₁ sch₂ sid v fuel sl cl → ∀ (x : σ × τ) (left : Bytes),
    (R x (Spec.Binary.value sch₁ (.struct sid) v ++ left) →
      Returns (decodeBinary T net env { stringLimit := sl, containerLimit := cl, strictRead := strict } sch₂ fuel sid x) R
        (project sch₁ sch₂ (.struct sid) v) left) ∧
    (R x (Spec.Compact.value sch₁ (.struct sid) v ++ left) →
      Returns (decodeCompact T net env { stringLimit := sl, containerLimit := cl } sch₂ fuel sid x) R
        (project sch₁ sch₂ (.struct sid) v) left)

theorem decode_returns {T : CReadable σ} {R : σ × τ → Bytes → Prop} (H : Refills T net R) {ρ : Type} {m : P ρ Val} (init : ρ) (x : σ × τ)
    (b left : Bytes) (v : Val) (hx : R x (b ++ left)) (he : seen (exec m init (b ++ [0])) = some (.ok v, [0])) :
    Returns (decode T net m init x) R v left := by
  unfold seen exec at he
  cases h : (m init).run memStep (b ++ [0]) with
  | none => rw [h] at he; cases he
  | some y =>
    obtain ⟨⟨r, s⟩, b'⟩ := y
    rw [h] at he
    simp only [Option.map_some, Option.some.injEq, Prod.mk.injEq] at he
    obtain ⟨rfl, rfl⟩ := he
    obtain ⟨⟨e, t'⟩, h1, -, h2⟩ := HeaderProtocol.run_within (R := fun x b => View R x (b ++ left))
      (fun n t b hb hn => by
        obtain ⟨t', k1, k2⟩ := H.gives n t _ hb (by rw [List.length_append]; omega)
        rw [List.take_append_of_le_length hn] at k1
        rw [List.drop_append_of_le_length hn] at k2
        exact ⟨t', k1, k2⟩) (by simp) (m init) b _ h ({ trans := x.1 }, x.2) ⟨rfl, hx⟩
    exact ⟨(e.trans, t'), by unfold decode; rw [h1]; rfl, h2⟩

theorem returnsBoth {T : CReadable σ} {R : σ × τ → Bytes → Prop} (H : Refills T net R) : ReturnsBoth T net R := by
  intro env sch₁ sch₂ sid v fuel sl cl strict h x left
  obtain ⟨e1, e2⟩ := fast_decodes env h.env sch₁ sch₂ sid v fuel sl cl strict h.writer h.reader h.compatible h.typed h.limits h.depth h.unknowns h.fuel [0]
  exact ⟨fun hx => decode_returns H _ x _ left _ hx e1, fun hx => decode_returns H _ x _ left _ hx e2⟩

/-- C91 for `TMemoryBuffer` -/
theorem memory_value (net : Nat → τ → Option (Except Exc Bytes × τ)) : ReturnsBoth memory net InMemory := returnsBoth memory_refills

/-- C91 for `TBufferedTransport`. Nothing is read from below that is not delivered. -/
theorem buffered_value (hd : DeliversUntil net rest) : ReturnsBoth buffered net (InBuffered rest) := returnsBoth (buffered_refills hd)

/-- C91 for `TFramedTransport` -/
theorem framed_value (hd : DeliversUntil net rest) (fuel : Nat) : ReturnsBoth (framed fuel) net (InFramed rest fuel) :=
  returnsBoth (framed_refills hd fuel)

/-- C91 for `TSaslClientTransport` -/
theorem sasl_value {μ ω : Type} (c : Sasl.Mech μ) (hd : DeliversUntil net rest) (fuel : Nat) :
    ReturnsBoth (sasl (ω := ω) c fuel) net (InSasl c rest fuel) := returnsBoth (sasl_refills hd fuel)

/-- C91 for `THeaderTransport`, as long as the value is in the frame (in one message of a
`THeaderProtocol` it is, after `readMessageBegin`) -/
theorem header_frame_value_partial (z : Zlib) (net : Nat → τ → Option (Except Exc Bytes × τ)) (fuel : Nat) (t0 : τ) :
    ReturnsBoth (header z fuel) net (InBuffer (header z fuel) t0) := returnsBoth (buffer_refills (fun _ _ => rfl) t0)

/-- C91 for `THeaderTransport` with a peer that sends messages without frames -/
theorem header_unframed_value (z : Zlib) (hd : DeliversUntil net rest) (fuel : Nat) :
    ReturnsBoth (header z fuel) net (InUnframed rest fuel) := returnsBoth (unframed_refills hd z fuel)

/-- C91 for `TZlibTransport`, as long as one piece is enough and everything fits into 4095 bytes -/
theorem zlib_value_partial {ζ δ : Type} (z : ZlibT.Codec ζ δ) (net : Nat → τ → Option (Except Exc Bytes × τ)) (fuel : Nat) :
    ReturnsBoth (zlib z (fuel + 1)) net (InZlib z net) := returnsBoth (zlib_refills z net fuel)

/-! ## The data that two of the transports lose -/

/-- C91 is false of `TZlibTransport`: of a piece that inflates to more than 4096 bytes, a refill for less
than 4096 bytes keeps the first 4096. The rest of `out` is in no buffer; the next refill asks the transport
below. -/
theorem zlib_loses {ζ δ : Type} (z : ZlibT.Codec ζ δ) (fuel n : Nat) (got : Bytes) (s : ZlibT.St ζ δ) (t t' : τ) (piece out : Bytes) (zr : δ)
    (hn : n < 4096) (h0 : s.rbuf.unread = []) (hp : net 4096 t = some (.ok piece, t'))
    (hz : z.decompress (z.tail s.zr ++ piece) (s.max - s.decompressed) s.zr = (.ok out, zr)) (ht : z.tail zr = []) (ho : 4096 < out.length) :
    ∃ ret s', ((zlib z (fuel + 1)).refill got n s).run net t = some ((.ok ret, s'), t') ∧ s'.rbuf.unread = got ++ out.take 4096 ∧
      s'.rbuf.unread ≠ got ++ out := by
  obtain ⟨s', h1, h2⟩ := zlib_refill_run z (net := net) fuel n got hn h0 hp hz ht (by rintro rfl; simp at ho) (by rw [List.length_take]; omega)
  refine ⟨_, s', h1, by rw [h2, BytesIO.of_unread], fun h => ?_⟩
  rw [h2, BytesIO.of_unread] at h
  have := congrArg List.length (List.append_cancel_left h)
  rw [List.length_take] at this
  omega

/-- C91 is false of `THeaderTransport`: a refill that has to read a frame keeps only the bytes that were
asked for. -/
theorem header_loses (z : Zlib) (fuel n : Nat) (s s1 : Header.St) (t t1 : τ) (hn : 0 < n) (h0 : s.rbuf.unread = [])
    (hu : ¬ (s.clientType = Header.ClientType.UNFRAMED_BINARY ∨ s.clientType = Header.ClientType.UNFRAMED_COMPACT))
    (hf : (Header.readFrame z n { s with rbuf := (s.rbuf.read n).2 }).run net t = some ((.ok (), s1), t1)) (hl : n < s1.rbuf.unread.length) :
    ∃ ret s', ((header z (fuel + 2)).refill [] n s).run net t = some ((.ok ret, s'), t1) ∧ s'.rbuf.unread = s1.rbuf.unread.take n ∧
      s'.rbuf.unread ≠ s1.rbuf.unread := by
  have hr : (Header.read z n s).run net t = some ((.ok (s1.rbuf.unread.take n), { s1 with rbuf := (s1.rbuf.read n).2 }), t1) := by
    have hg : (s.rbuf.read n).1 = [] := by rw [BytesIO.read_fst, h0, List.take_nil]
    rw [HeaderProtocol.read_eq, hg, List.length_nil, Nat.sub_zero, if_neg (by omega), if_neg hu]
    show ((P.bind (Header.readFrame z n) _) _).run net t = _
    rw [run_Pbind, hf]
    simp only [bind, P.bind, P.get, P.set, pure, P.pure, Prog.bind, Prog.run, BytesIO.read_fst, List.nil_append]
  have hlen : (s1.rbuf.unread.take n).length = n := by rw [List.length_take]; omega
  refine ⟨s1.rbuf.unread.take n, { s1 with rbuf := BytesIO.of (s1.rbuf.unread.take n) }, ?_, BytesIO.of_unread _, ?_⟩
  · show (headerRefill z (fuel + 2) [] n s).run net t = _
    rw [header_refill_run, run_while, readBody_run, List.length_nil, if_pos hn, Nat.sub_zero, hr]
    simp only [List.nil_append]
    rw [run_while, readBody_run, if_neg (by omega)]
  · intro h
    have := congrArg List.length h
    rw [BytesIO.of_unread, hlen] at this
    omega

/-- Without frames and at the end of a transport that returns no bytes there, the refill does not return:
no fuel is enough. -/
theorem header_unframed_hangs (z : Zlib) (t : τ) (hnet : ∀ n, net n t = some (.ok [], t)) (got : Bytes) (n : Nat) (hn : got.length < n) :
    ∀ (fuel : Nat) (s : Header.St), (s.clientType = Header.ClientType.UNFRAMED_BINARY ∨ s.clientType = Header.ClientType.UNFRAMED_COMPACT) →
      s.rbuf.unread = [] → ((header z fuel).refill got n s).run net t = none := by
  intro fuel s hu h0
  show (headerRefill z fuel got n s).run net t = none
  rw [header_refill_run]
  have : ∀ (fuel : Nat) (s : Header.St), HeaderProtocol.Unframed s → s.rbuf.unread = [] →
      (P.whileTrue fuel (readBody (Header.read z) n) got s).run net t = none := by
    intro fuel
    induction fuel with
    | zero => intros; rfl
    | succ fuel ih =>
      intro s hu h0
      have hr := HeaderProtocol.read_unframed z net (n - got.length) s t hu (by rw [h0]; simp; omega)
      rw [hnet, h0] at hr
      simp only [List.nil_append] at hr
      have hrun : (Header.read z (n - got.length) s).run net t = some ((.ok [], { s with rbuf := (s.rbuf.read (n - got.length : Nat)).2 }), t) := by
        unfold P.over at hr
        simp only at hr
        cases hq : (Header.read z (n - got.length) s).run net t with
        | none => rw [hq] at hr; simp at hr
        | some y =>
          obtain ⟨⟨r, s'⟩, t'⟩ := y
          rw [hq] at hr
          simp only [Option.some.injEq, Prod.mk.injEq] at hr
          obtain ⟨rfl, rfl, rfl⟩ := hr
          rfl
      rw [run_while, readBody_run, if_pos hn, hrun]
      simp only [List.append_nil]
      exact ih _ hu (by simp only; rw [BytesIO.read_unread, h0, List.drop_nil])
  rw [this fuel s hu h0]

/-! ### With values -/

/-- `struct S { 1: i64 x }` -/
def num : Schema := fun _ => [{ fid := 1, ty := .i64 }]

/-- The encoding of `S(x)` -/
def numBytes (x : UInt8) : Bytes := [10, 0, 1, 0, 0, 0, 0, 0, 0, 0, x, 0]

/-- The number in a value of `S`, if it is one -/
def numOf : Except Exc Val → Except Exc (Option Int)
  | .ok (.struct [some (.int n)]) => .ok (some n)
  | .ok _ => .ok none
  | .error e => .error e

/-- Run lengths: pairs of a number and a byte. The first argument is the number of a pair whose byte is
still to come. -/
def runs : Option UInt8 → Bytes → Bytes × Option UInt8
  | n, [] => ([], n)
  | none, c :: x => runs (some c) x
  | some n, c :: x => (List.replicate n.toNat c ++ (runs none x).1, (runs none x).2)

/-- A codec with run lengths. The compressor keeps what it was given until it is flushed. -/
def runCodec : ZlibT.Codec Bytes (Option UInt8 × Bytes) where
  newC := []
  newD := (none, [])
  compress b c := ([], c ++ b)
  syncFlush c := (c.flatMap fun b => [1, b], [])
  decompress x m d :=
    let r := runs d.1 x
    if 0 < m ∧ m < r.1.length then (.ok (r.1.take m.toNat), (r.2, [0])) else (.ok r.1, (r.2, []))
  tail d := d.2

theorem runs_append : ∀ (w : Bytes) (n : Option UInt8) (x : Bytes), runs n (w ++ x) = ((runs n w).1 ++ (runs (runs n w).2 x).1, (runs (runs n w).2 x).2)
  | [], n, x => by cases n <;> simp [runs]
  | c :: w, none, x => by simp only [List.cons_append, runs]; exact runs_append w _ x
  | c :: w, some n, x => by simp only [List.cons_append, runs, runs_append w, List.append_assoc]

theorem runs_singles : ∀ (c : Bytes), runs none (c.flatMap fun b => [1, b]) = (c, none)
  | [] => rfl
  | b :: c => by
    have := runs_singles c
    simp only [List.flatMap_cons, List.cons_append, List.nil_append, runs, this]
    rfl

/-- It keeps the contract of zlib. -/
def runContract : ZlibContract runCodec where
  valid _ := True
  inflate w := (runs none w).1
  RepC c w p := (runs none w).2 = none ∧ p = (runs none w).1 ++ c
  Synced c := c = []
  RepD d w := d.1 = (runs none w).2
  valid_prefix _ := trivial
  inflate_nil := rfl
  inflate_prefix _ := by rw [runs_append]; exact List.prefix_append _ _
  newC := ⟨rfl, rfl⟩
  newD := rfl
  new_tail := rfl
  compress b h := ⟨by simpa [runCodec] using h.1, by simp [runCodec, h.2]⟩
  flush := by
    intro c w p h
    have e : runs none (w ++ (runCodec.syncFlush c).1) = (p, none) := by
      rw [runs_append, h.1, show (runCodec.syncFlush c).1 = c.flatMap fun b => [1, b] from rfl, runs_singles, h.2]
    simp only [e]
    exact ⟨⟨trivial, (List.append_nil _).symm⟩, rfl, trivial, trivial⟩
  again := by
    rintro c w p h rfl
    exact ⟨rfl, trivial, by simp [h.2]⟩
  decompress := by
    intro d w x m h _ hm
    rw [runs_append, ← h] at hm ⊢
    simp only [List.length_append] at hm ⊢
    refine ⟨(runs d.1 x).1, ((runs d.1 x).2, []), ?_, rfl, rfl, rfl⟩
    show (if _ then _ else _) = _
    rw [if_neg (by omega)]
  bounded := by
    intro d d' x out m hm h
    simp only [runCodec] at h
    split at h
    · simp only [Prod.mk.injEq, Except.ok.injEq] at h
      rw [← h.1, List.length_take]
      omega
    · simp only [Prod.mk.injEq, Except.ok.injEq] at h
      rw [← h.1]
      omega

/-- A transport that delivers at most two bytes at a time -/
def pairwise (n : Nat) (b : Bytes) : Option (Except Exc Bytes × Bytes) := some (.ok (b.take (min n 2)), b.drop (min n 2))

/-- `S(0)` and `S(7)`, compressed -/
def twoMessages : Bytes := [1, 10, 1, 0, 1, 1, 2, 0, 7, 0] ++ [1, 10, 1, 0, 1, 1, 7, 0, 1, 7, 1, 0]

/-- The wire carries `S(0)` and `S(7)`. The extension returns `S(7)` for the first, without an exception;
the Python code returns `S(0)`. -/
theorem zlib_wrong_value : runContract.inflate twoMessages = numBytes 0 ++ numBytes 7 ∧
    (decodeBinary (zlib runCodec 10) pairwise dropEnv {} num 10 0 (ZlibT.init runCodec 1000, twoMessages)).map (fun r => (numOf r.1, r.2.2)) =
      some (.ok (some 7), []) ∧
    (((readVal (Binary.rd {}) num .gen 10 (.struct 0) {}).run (P.over (ZlibT.read runCodec 10) pairwise)
      (ZlibT.init runCodec 1000, twoMessages)).map fun r => (numOf r.1.1, r.2.2)) =
      some (.ok (some 0), [1, 10, 1, 0, 1, 1, 7, 0, 1, 7, 1, 0]) := by
  refine ⟨by decide +kernel, by decide +kernel, by decide +kernel⟩

/-- A frame with `S(5)`, and one with `S(7)`: the extension finds the end of the file in the first; the Python code returns `S(5)`. -/
theorem header_wrong_value :
    (decodeBinary (header Spec.Header.storedZlib 10) memStep dropEnv {} num 10 0
      ({ allowed := [0] }, Spec.Header.frame 0 0 [0, 0, 0, 0] (numBytes 5) ++ Spec.Header.frame 0 0 [0, 0, 0, 0] (numBytes 7))).map (fun r => (numOf r.1, r.2.2)) =
      some (.error .eof, []) ∧
    (((readVal (Binary.rd {}) num .gen 10 (.struct 0) {}).run (P.over (Header.read Spec.Header.storedZlib) memStep)
      ({ allowed := [0] }, Spec.Header.frame 0 0 [0, 0, 0, 0] (numBytes 5) ++ Spec.Header.frame 0 0 [0, 0, 0, 0] (numBytes 7))).map fun r => numOf r.1.1) =
      some (.ok (some 5)) :=
  ⟨by decide +kernel, by decide +kernel⟩

/-- The hypotheses hold: the sample value, read with the older schema. -/
theorem sample_decodable : Decodable dropEnv Sample.sch Sample.older 0 Sample.value 100 (some 5) (some 2) := by
  refine ⟨dropEnv_decodes, fun sid => (Sample.sch_ok .dyn sid).1, Sample.older_ok .dyn, Sample.compatible, Sample.value_wt, Sample.value_limits, ?_, sample_skips, ?_⟩
  · rw [Sample.value_depth]; decide
  · decide +kernel

/-- `TBufferedTransport` with a buffer of four bytes, over a transport that delivers one byte at a time; 7, 7
is what follows. -/
example : Returns (decodeBinary buffered bytewise dropEnv { stringLimit := some 5, containerLimit := some 2 } Sample.older 100 0
      ({ rbufSize := 4 }, Spec.Binary.value Sample.sch (.struct 0) Sample.value ++ [7, 7])) (InBuffered id)
    (project Sample.sch Sample.older (.struct 0) Sample.value) [7, 7] :=
  (buffered_value bytewise_delivers.until _ _ _ _ _ _ _ _ true sample_decodable _ _).1 rfl

/-- The same value in three frames, one of them empty -/
example (a b : Bytes) (h : a ++ b = Spec.Compact.value Sample.sch (.struct 0) Sample.value ++ [7, 7]) (ha : a.length < 2 ^ 31) (hb : b.length < 2 ^ 31) :
    Returns (decodeCompact (framed 4) bytewise dropEnv { stringLimit := some 5, containerLimit := some 2 } Sample.older 100 0
      ({}, frames [a, [], b])) (InFramed id 4) (project Sample.sch Sample.older (.struct 0) Sample.value) [7, 7] :=
  (framed_value bytewise_delivers.until 4 _ _ _ _ _ _ _ _ true sample_decodable _ _).2
    ⟨[a, [], b], by simp; omega, by simp, rfl, by rw [← h]; simp [BytesIO.unread, BytesIO.of]⟩

/-- In the buffer of a `THeaderTransport` -/
example : Returns (decodeBinary (header Spec.Header.storedZlib 1) bytewise dropEnv { stringLimit := some 5, containerLimit := some 2 } Sample.older 100 0
      ({ allowed := [0], rbuf := BytesIO.of (Spec.Binary.value Sample.sch (.struct 0) Sample.value ++ [7, 7]) }, [9]))
      (InBuffer (header Spec.Header.storedZlib 1) [9]) (project Sample.sch Sample.older (.struct 0) Sample.value) [7, 7] :=
  (header_frame_value_partial _ bytewise 1 [9] _ _ _ _ _ _ _ _ true sample_decodable _ _).1 ⟨BytesIO.of_unread _, rfl⟩

/-- In a piece that a `TZlibTransport` has still to inflate -/
example : Returns (decodeBinary (zlib runCodec 1) memStep dropEnv { stringLimit := some 5, containerLimit := some 2 } Sample.older 100 0
      (ZlibT.init runCodec 0, (Spec.Binary.value Sample.sch (.struct 0) Sample.value ++ [7, 7]).flatMap fun b => [1, b]))
      (InZlib runCodec memStep) (project Sample.sch Sample.older (.struct 0) Sample.value) [7, 7] := by
  have hl : ((Spec.Binary.value Sample.sch (.struct 0) Sample.value ++ [7, 7]).flatMap fun b => [1, b]).length ≤ 4096 := by decide +kernel
  refine (zlib_value_partial runCodec memStep 0 _ _ _ _ _ _ _ _ true sample_decodable _ _).1 ⟨by decide +kernel, .inr ⟨_, _, _, (none, []), rfl, ?_, rfl, rfl⟩⟩
  rw [List.take_of_length_le hl]
  simp only [runCodec, ZlibT.init, List.nil_append, runs_singles]
  rfl

theorem runs_pairs (n c : UInt8) : ∀ k, runs none (List.replicate k [n, c]).flatten = ((List.replicate k (List.replicate n.toNat c)).flatten, none)
  | 0 => rfl
  | k + 1 => by
    simp only [List.replicate_succ, List.flatten_cons, List.cons_append, List.nil_append, runs, runs_pairs n c k]

/-- A piece of 34 bytes that inflates to 4335 -/
example := zlib_loses (net := memStep) runCodec 0 1 [] (ZlibT.init runCodec 0) (List.replicate 17 [255, 8]).flatten [] (List.replicate 17 [255, 8]).flatten
  (List.replicate 17 (List.replicate 255 8)).flatten (none, []) (by omega) rfl (by decide +kernel)
  (by
    simp only [runCodec, ZlibT.init, List.nil_append, runs_pairs]
    rw [if_neg (by omega)]
    rfl) rfl (by rw [List.length_flatten, List.map_replicate, List.length_replicate]; decide)

/-- A frame of which one byte is asked for -/
example := header_loses (net := memStep) Spec.Header.storedZlib 0 1 { allowed := [0] } _ (Spec.Header.frame 0 0 [0, 0, 0, 0] (numBytes 5)) _ (by omega) rfl
  (by decide) rfl (by decide +kernel)

/-- At the end of a memory buffer -/
example := header_unframed_hangs (net := memStep) Spec.Header.storedZlib [] (fun n => by simp [memStep]) [1] 4 (by decide) 1000
  { allowed := [0, 2], clientType := Header.ClientType.UNFRAMED_BINARY } (.inl rfl) rfl

end Thrift.CReadable
