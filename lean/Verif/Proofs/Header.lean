import Verif.Spec.Header
import Verif.Props.Compact
import Verif.Proofs.Simulate
/-
Lemmas about `Model/Header`.
-/

namespace Thrift.Header
open Spec Spec.Header Spec.Compact

/-! ## Words -/

theorem unpackS4 (a b c d : UInt8) :
    unpackS [a, b, c, d] =
      if a.toNat < 128 then ((a.toNat * 16777216 + b.toNat * 65536 + c.toNat * 256 + d.toNat : Nat) : Int)
      else ((a.toNat * 16777216 + b.toNat * 65536 + c.toNat * 256 + d.toNat : Nat) : Int) - 4294967296 := by
  have ha := a.toNat_lt; have hb := b.toNat_lt; have hc := c.toNat_lt; have hd := d.toNat_lt
  have e : beNat [a, b, c, d] = a.toNat * 16777216 + b.toNat * 65536 + c.toNat * 256 + d.toNat := by
    simp [beNat]; omega
  unfold unpackS
  rw [e]
  simp only [List.length_cons, List.length_nil, Nat.zero_add, Nat.reduceAdd, Nat.reduceMul, Nat.reduceSub, Nat.reducePow, Int.reducePow]
  by_cases h : a.toNat < 128
  · rw [if_pos h, if_pos (by omega)]
  · rw [if_neg h, if_neg (by omega)]

theorem u8_eq_iff (a b : UInt8) : a = b ↔ a.toNat = b.toNat := UInt8.toNat_inj.symm

theorem word_nat (a b c d : UInt8) : word [a, b, c, d] =
    if a.toNat = 128 ∧ b.toNat = 1 then .binary
    else if a.toNat = 130 ∧ b.toNat % 32 = 1 then .compact
    else if a.toNat = 15 ∧ b.toNat = 255 then .header
    else .other := by
  simp only [word, u8_eq_iff]
  rfl

theorem looksBinary_iff (a b c d : UInt8) :
    looksBinary (unpackS [a, b, c, d]) = true ↔ word [a, b, c, d] = .binary := by
  have ha := a.toNat_lt; have hb := b.toNat_lt; have hc := c.toNat_lt; have hd := d.toNat_lt
  have e := pyAnd_neg_mask (unpackS [a, b, c, d]) 16
  have e2 : Binary.VERSION_MASK = -((2 ^ 16 : Nat) : Int) := by decide
  have e3 : ∀ x, looksBinary x = true ↔ pyAnd x Binary.VERSION_MASK = Binary.VERSION_1 := by
    intro x; simp [looksBinary]
  rw [e3, e2, e, unpackS4, word_nat]
  simp only [Binary.VERSION_1, Nat.reducePow]
  by_cases h1 : a.toNat = 128 ∧ b.toNat = 1
  · rw [if_pos h1, if_neg (by omega)]; simp only [iff_true]; omega
  · rw [if_neg h1]
    have : ∀ x y : Prop, [Decidable x] → [Decidable y] →
        (if x then Word.compact else if y then Word.header else Word.other) ≠ Word.binary := by
      intro x y _ _; split
      · decide
      · split <;> decide
    simp only [this, iff_false]
    split <;> omega

theorem looksCompact_iff (a b c d : UInt8) :
    looksCompact [a, b, c, d] = true ↔ word [a, b, c, d] = .compact := by
  have e := pyAnd_mask (b.toNat : Int) 5
  have e2 : Compact.VERSION_MASK = ((2 ^ 5 - 1 : Nat) : Int) := by decide
  unfold looksCompact
  simp only [decide_eq_true_eq]
  rw [e2, e, word_nat]
  simp only [Compact.PROTOCOL_ID, Compact.VERSION, Nat.reducePow]
  by_cases h1 : a.toNat = 128 ∧ b.toNat = 1
  · rw [if_pos h1]
    constructor
    · intro h; omega
    · intro h; cases h
  · rw [if_neg h1]
    by_cases h2 : a.toNat = 130 ∧ b.toNat % 32 = 1
    · rw [if_pos h2]; simp only [iff_true]; omega
    · rw [if_neg h2]
      constructor
      · intro h; omega
      · split <;> (intro h; cases h)

theorem looksHeader_iff (a b c d : UInt8) :
    pyShr (unpackS [a, b, c, d]) 16 = HEADER_MAGIC ↔ word [a, b, c, d] = .header := by
  have ha := a.toNat_lt; have hb := b.toNat_lt; have hc := c.toNat_lt; have hd := d.toNat_lt
  rw [word_nat, unpackS4]
  simp only [pyShr, HEADER_MAGIC, Int.reducePow]
  by_cases h1 : a.toNat = 128 ∧ b.toNat = 1
  · rw [if_pos h1, if_neg (by omega)]
    constructor
    · intro h; omega
    · intro h; cases h
  · rw [if_neg h1]
    by_cases h2 : a.toNat = 130 ∧ b.toNat % 32 = 1
    · rw [if_pos h2, if_neg (by omega)]
      constructor
      · intro h; omega
      · intro h; cases h
    · rw [if_neg h2]
      by_cases h3 : a.toNat = 15 ∧ b.toNat = 255
      · rw [if_pos h3, if_pos (by omega)]; simp only [iff_true]; omega
      · rw [if_neg h3]
        constructor
        · split <;> (intro h; omega)
        · intro h; cases h

theorem four {w : Bytes} (h : w.length = 4) : ∃ a b c d, w = [a, b, c, d] := by
  match w, h with
  | [a, b, c, d], _ => exact ⟨a, b, c, d, rfl⟩

/-! ## Varints and strings in the frame buffer -/

/-- The varint at the start of the bytes (at most ten bytes) and what follows it. -/
def varintAt (b : Bytes) : Option (Nat × Bytes) :=
  if Compact.continuations b < 10 ∧ Compact.continuations b < b.length then
    some (varintValue (b.take (Compact.continuations b + 1)), b.drop (Compact.continuations b + 1))
  else none

theorem takeVarint_eq (b : Bytes) :
    takeVarint b =
      match varintAt b with
      | some (n, r) => .ok ((n : Int), r)
      | none => .error (if 10 ≤ Compact.continuations b then TProtocolException.INVALID_DATA else .eof) := by
  unfold takeVarint varintAt
  rw [(Compact.compact_varint_any {} b).1]
  by_cases h1 : 10 ≤ Compact.continuations b
  · rw [if_pos h1, if_neg (by omega)]; simp [h1]
  · rw [if_neg h1]
    by_cases h2 : Compact.continuations b < b.length
    · rw [if_pos h2, if_pos ⟨by omega, h2⟩]
    · rw [if_neg h2, if_neg (by omega)]; simp [h1]

theorem takeVarint_ok {n : Nat} (h : n < 2 ^ 70) (rest : Bytes) :
    takeVarint (varint n ++ rest) = .ok ((n : Int), rest) := by
  unfold takeVarint
  rw [(Compact.readVarint_ok h {}).1 rest]

theorem varintAt_lt {b r : Bytes} {n : Nat} (h : varintAt b = some (n, r)) : r.length < b.length := by
  unfold varintAt at h
  split at h
  · cases h; simp; omega
  · cases h

/-- A varint read from the frame buffer is a natural number and takes at least one byte. -/
theorem takeVarint_inv {b r : Bytes} {i : Int} (h : takeVarint b = .ok (i, r)) :
    ∃ n : Nat, i = n ∧ varintAt b = some (n, r) ∧ r.length < b.length := by
  rw [takeVarint_eq] at h
  split at h
  · rename_i n r' he
    cases h
    exact ⟨n, rfl, he, varintAt_lt he⟩
  · cases h

theorem takeVarint_err {b : Bytes} {e : Exc} (h : takeVarint b = .error e) :
    e = TProtocolException.INVALID_DATA ∨ e = .eof := by
  rw [takeVarint_eq] at h
  split at h
  · cases h
  · cases h
    split
    · exact .inl rfl
    · exact .inr rfl

theorem takeString_ok {v : Bytes} (h : v.length < 2 ^ 70) (rest : Bytes) :
    takeString (blob v ++ rest) = .ok (v, rest) := by
  unfold takeString blob
  rw [List.append_assoc, takeVarint_ok h]
  simp

theorem takeString_inv {b v r : Bytes} (h : takeString b = .ok (v, r)) : r.length < b.length := by
  unfold takeString at h
  split at h
  · cases h
  · rename_i i b' he
    obtain ⟨n, rfl, _, hl⟩ := takeVarint_inv he
    split at h
    · cases h
    · cases h; simp; omega

theorem takeString_err {b : Bytes} {e : Exc} (h : takeString b = .error e) :
    e = TProtocolException.INVALID_DATA ∨ e = .eof := by
  unfold takeString at h
  split at h
  · cases h; exact takeVarint_err (by assumption)
  · rename_i i b' he
    obtain ⟨n, rfl, _, hl⟩ := takeVarint_inv he
    split at h
    · omega
    · cases h

theorem takeTransforms_ok (k : Nat) (rest : Bytes) :
    takeTransforms k ((List.replicate k 1).flatMap varint ++ rest) = .ok (List.replicate k ZLIB, rest) := by
  induction k with
  | zero => rfl
  | succ k ih =>
    simp only [takeTransforms, List.replicate_succ, List.flatMap_cons, List.append_assoc]
    rw [takeVarint_ok (by decide)]
    simp only [ih]
    rw [if_neg (by decide)]
    rfl

theorem takeTransforms_inv (k : Nat) : ∀ {b r : Bytes} {ids : List Int}, takeTransforms k b = .ok (ids, r) →
    ids = List.replicate k ZLIB := by
  induction k with
  | zero => intro b r ids h; cases h; rfl
  | succ k ih =>
    intro b r ids h
    unfold takeTransforms at h
    split at h
    · cases h
    · rename_i i b' he
      by_cases hz : i ≠ ZLIB
      · rw [if_pos hz] at h; cases h
      · rw [if_neg hz] at h
        split at h
        · cases h
        · rename_i he2
          cases h
          rw [ih he2, List.replicate_succ, Decidable.not_not.mp hz]

theorem takeTransforms_err (k : Nat) : ∀ {b : Bytes} {e : Exc}, takeTransforms k b = .error e →
    e = TProtocolException.INVALID_DATA ∨ e = .eof ∨ e = TApplicationException.INVALID_TRANSFORM := by
  induction k with
  | zero => intro b e h; cases h
  | succ k ih =>
    intro b e h
    unfold takeTransforms at h
    split at h
    · cases h
      rcases takeVarint_err (by assumption) with h | h <;> simp [h]
    · rename_i i b' he
      by_cases hz : i ≠ ZLIB
      · rw [if_pos hz] at h; cases h; simp
      · rw [if_neg hz] at h
        split at h
        · cases h; exact ih (by assumption)
        · cases h

/-- `put` of a new key appends. -/
theorem Dict.put_new (d : Dict) (k v : Bytes) (h : k ∉ d.map (·.1)) : d.put k v = d ++ [(k, v)] := by
  induction d with
  | nil => rfl
  | cons x d ih =>
    obtain ⟨k', v'⟩ := x
    simp only [List.map_cons, List.mem_cons, not_or] at h
    simp only [Dict.put]
    rw [if_neg (fun e => h.1 e.symm), ih h.2, List.cons_append]

theorem takePairs_ok (hs : Dict) : ∀ (d : Dict) (rest : Bytes), ((d ++ hs).map (·.1)).Nodup →
    (∀ kv ∈ hs, kv.1.length < 2 ^ 70 ∧ kv.2.length < 2 ^ 70) →
    takePairs hs.length d (hs.flatMap (fun kv => blob kv.1 ++ blob kv.2) ++ rest) = .ok (d ++ hs, rest) := by
  induction hs with
  | nil => intro d rest _ _; simp [takePairs]
  | cons x hs ih =>
    intro d rest hn hl
    obtain ⟨k, v⟩ := x
    have h1 := hl (k, v) (by simp)
    simp only [takePairs, List.length_cons, List.flatMap_cons, List.append_assoc]
    rw [takeString_ok h1.1]
    simp only
    rw [takeString_ok h1.2]
    simp only
    have hk : k ∉ d.map (·.1) := by
      simp only [List.map_append, List.map_cons, List.nodup_append, List.nodup_cons] at hn
      intro hk
      exact hn.2.2 _ hk _ (by simp) rfl
    rw [Dict.put_new d k v hk]
    have := ih (d ++ [(k, v)]) rest (by simpa using hn) (fun kv h => hl kv (by simp [h]))
    rw [this]
    simp

theorem takePairs_inv (n : Nat) : ∀ {d d' : Dict} {b r : Bytes}, takePairs n d b = .ok (d', r) →
    r.length ≤ b.length := by
  induction n with
  | zero => intro d d' b r h; cases h; exact Nat.le_refl _
  | succ n ih =>
    intro d d' b r h
    unfold takePairs at h
    split at h
    · cases h
    · rename_i k b1 h1
      split at h
      · cases h
      · rename_i v b2 h2
        have := ih h
        have := takeString_inv h1
        have := takeString_inv h2
        omega

theorem takePairs_err (n : Nat) : ∀ {d : Dict} {b : Bytes} {e : Exc}, takePairs n d b = .error e →
    e = TProtocolException.INVALID_DATA ∨ e = .eof := by
  induction n with
  | zero => intro d b e h; cases h
  | succ n ih =>
    intro d b e h
    unfold takePairs at h
    split at h
    · cases h; exact takeString_err (by assumption)
    · split at h
      · cases h; exact takeString_err (by assumption)
      · exact ih h

/-- The info loop ends: the fuel given by the caller suffices. -/
theorem takeInfos_total (after : Nat) (f : Nat) : ∀ (d : Dict) (b : Bytes), b.length < f →
    takeInfos after f d b ≠ none := by
  induction f with
  | zero => intro d b h; omega
  | succ f ih =>
    intro d b h
    unfold takeInfos
    split
    · simp
    · split
      · simp
      · rename_i t b1 h1
        obtain ⟨_, _, _, hl⟩ := takeVarint_inv h1
        split
        · split
          · simp
          · rename_i c b2 h2
            obtain ⟨_, _, _, hl2⟩ := takeVarint_inv h2
            split
            · simp
            · rename_i d' b3 h3
              have := takePairs_inv _ h3
              exact ih _ _ (by omega)
        · simp

theorem takeInfos_err (after : Nat) (f : Nat) : ∀ {d : Dict} {b : Bytes} {e : Exc},
    takeInfos after f d b = some (.error e) → e = TProtocolException.INVALID_DATA ∨ e = .eof := by
  induction f with
  | zero => intro d b e h; cases h
  | succ f ih =>
    intro d b e h
    unfold takeInfos at h
    split at h
    · cases h
    · split at h
      · cases h; exact takeVarint_err (by assumption)
      · split at h
        · split at h
          · cases h; exact takeVarint_err (by assumption)
          · split at h
            · cases h; exact takePairs_err _ (by assumption)
            · exact ih h
        · cases h

theorem takeInfos_done (after f : Nat) (d : Dict) (b : Bytes) (h : b.length ≤ after) :
    takeInfos after (f + 1) d b = some (.ok d) := by
  rw [takeInfos, if_pos h]

/-- Padding bytes end the loop. -/
theorem takeInfos_pad (after f n : Nat) (d : Dict) (rest : Bytes) (h : rest.length = after) :
    takeInfos after (f + 1) d (List.replicate n 0 ++ rest) = some (.ok d) := by
  cases n with
  | zero => exact takeInfos_done after f d _ (by simp [h])
  | succ n =>
    rw [takeInfos, if_neg (by simp; omega)]
    have : List.replicate (n + 1) (0 : UInt8) ++ rest = varint 0 ++ (List.replicate n 0 ++ rest) := by
      rw [varint]; simp [List.replicate_succ]
    rw [this, takeVarint_ok (by decide)]
    simp only
    rw [if_neg (by decide)]

/-! ## Transforms -/

theorem applyReadTransforms_eq (z : Zlib) (max : Int) (k : Nat) : ∀ p,
    applyReadTransforms z max (List.replicate k ZLIB) p = inflateN z max k p := by
  induction k with
  | zero => intro p; rfl
  | succ k ih =>
    intro p
    simp only [List.replicate_succ, applyReadTransforms, applyReadTransform, inflateN, if_pos]
    cases h : z.decompress p max with
    | error e => rfl
    | ok x =>
      obtain ⟨out, tail⟩ := x
      cases tail with
      | nil => simp [ih]
      | cons a t => simp

theorem applyWriteTransforms_eq (z : Zlib) (k : Nat) : ∀ p,
    applyWriteTransforms z (List.replicate k ZLIB) p = .ok (deflateN z k p) := by
  induction k with
  | zero => intro p; rfl
  | succ k ih => intro p; simp only [List.replicate_succ, applyWriteTransforms, if_pos, deflateN]; exact ih _

theorem deflateN_succ (z : Zlib) (k : Nat) : ∀ p, deflateN z (k + 1) p = z.compress (deflateN z k p) := by
  induction k with
  | zero => intro p; rfl
  | succ k ih => intro p; rw [deflateN, ih]; rfl

theorem inflateN_deflateN {z : Zlib} (hz : ZlibOk z) (max : Int) (k : Nat) (p : Bytes)
    (h : ∀ j, j < k → ((deflateN z j p).length : Int) ≤ max) : inflateN z max k (deflateN z k p) = .ok p := by
  induction k with
  | zero => rfl
  | succ k ih =>
    rw [deflateN_succ, inflateN, hz.roundtrip _ _ (h k (by omega))]
    exact ih fun j hj => h j (by omega)

theorem inflateN_bounded {z : Zlib} (hz : ZlibOk z) {max : Int} (hm : 0 < max) (k : Nat) : ∀ {p q : Bytes},
    0 < k → inflateN z max k p = .ok q → (q.length : Int) ≤ max := by
  induction k with
  | zero => intro p q h; omega
  | succ k ih =>
    intro p q _ h
    rw [inflateN] at h
    split at h
    · cases h
    · rename_i out hd
      cases k with
      | zero => cases h; exact hz.bounded _ _ _ _ hm hd
      | succ k => exact ih (by omega) h
    · cases h

theorem inflateN_prefix {z : Zlib} {max : Int} (k : Nat) : ∀ {p q : Bytes} (j : Nat), j ≤ k →
    inflateN z max k p = .ok q → ∃ r, inflateN z max j p = .ok r := by
  induction k with
  | zero => intro p q j hj h; obtain rfl : j = 0 := by omega
            exact ⟨_, rfl⟩
  | succ k ih =>
    intro p q j hj h
    cases j with
    | zero => exact ⟨_, rfl⟩
    | succ j =>
      rw [inflateN] at h ⊢
      split at h
      · cases h
      · exact ih j (by omega) h
      · cases h

end Thrift.Header
