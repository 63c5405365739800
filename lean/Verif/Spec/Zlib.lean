import Verif.Model.Zlib
import Verif.Spec.Transport
/-
What is assumed about Python's `zlib` module, and a small instance of these assumptions.
-/

namespace Thrift.Spec
open Thrift.ZlibT

variable {ζ δ : Type}

/-- What the `zlib` documentation promises, as far as `TZlibTransport` needs it.

`valid w` says that `w` is the beginning of a compressed stream that is not finished, `inflate w` is
all that can be decompressed from it. `RepC c w p`: the compressor `c` has returned the bytes `w` so
far and was given the bytes `p`. `RepD d w`: the decompressor `d` was given `w` and returned all of
`inflate w`. -/
structure ZlibContract (z : Codec ζ δ) where
  valid : Bytes → Prop
  inflate : Bytes → Bytes
  RepC : ζ → Bytes → Bytes → Prop
  Synced : ζ → Prop
  RepD : δ → Bytes → Prop
  valid_prefix : ∀ {w w'}, valid (w ++ w') → valid w
  inflate_nil : inflate [] = []
  inflate_prefix : ∀ {w w'}, valid (w ++ w') → inflate w <+: inflate (w ++ w')
  newC : RepC z.newC [] []
  newD : RepD z.newD []
  new_tail : z.tail z.newD = []
  /-- compressing goes on with the stream -/
  compress : ∀ {c w p} b, RepC c w p → RepC (z.compress b c).2 (w ++ (z.compress b c).1) (p ++ b)
  /-- after a flush all that was given to the compressor can be decompressed -/
  flush : ∀ {c w p}, RepC c w p →
    RepC (z.syncFlush c).2 (w ++ (z.syncFlush c).1) p ∧ Synced (z.syncFlush c).2 ∧
      valid (w ++ (z.syncFlush c).1) ∧ inflate (w ++ (z.syncFlush c).1) = p
  /-- a second flush in a row emits nothing -/
  again : ∀ {c w p}, RepC c w p → Synced c →
    (z.syncFlush c).1 = [] ∧ valid w ∧ inflate w = p
  /-- a decompressor that is allowed more than there is takes everything and returns everything -/
  decompress : ∀ {d w} x (m : Int), RepD d w → valid (w ++ x) →
    ((inflate (w ++ x)).length : Int) - (inflate w).length < m →
    ∃ out d', z.decompress x m d = (.ok out, d') ∧ inflate (w ++ x) = inflate w ++ out ∧
      RepD d' (w ++ x) ∧ z.tail d' = []
  /-- a positive `max_length` bounds the result, whatever the input -/
  bounded : ∀ {d d' x out} {m : Int}, 0 < m → z.decompress x m d = (.ok out, d') → (out.length : Int) ≤ m

/-! ## An instance

A format in which a stream is the byte 0x78 followed by the data as it is, emitted with delay: the
compressor keeps what it was given until it is flushed. -/

/-- header still to be written?, kept data -/
abbrev ToyC := Bool × Bytes
/-- header still to be read?, `unconsumed_tail` -/
abbrev ToyD := Bool × Bytes

/-- The decompressor: drops the header, hands out at most `m` bytes if `m` is positive. -/
def toyDecompress (x : Bytes) (m : Int) (d : ToyD) : Except Exc Bytes × ToyD :=
  if m < 0 then (.error .valueError, d)
  else
    match d.1, x with
    | true, [] => (.ok [], (true, []))
    | true, c :: x =>
      if c ≠ 0x78 then (.error (.user 0), d)
      else if m = 0 then (.ok x, (false, [])) else (.ok (x.take m.toNat), (false, x.drop m.toNat))
    | false, x => if m = 0 then (.ok x, (false, [])) else (.ok (x.take m.toNat), (false, x.drop m.toNat))

/-- The codec of this format. -/
def toy : Codec ToyC ToyD where
  newC := (true, [])
  newD := (true, [])
  compress b c := ([], (c.1, c.2 ++ b))
  syncFlush c := ((if c.1 then [0x78] else []) ++ c.2, (false, []))
  decompress := toyDecompress
  tail d := d.2

/-- It keeps the contract. -/
def toyContract : ZlibContract toy where
  valid w := w = [] ∨ ∃ x, w = 0x78 :: x
  inflate w := w.drop 1
  RepC c w p := match c with
    | (true, k) => w = [] ∧ p = k
    | (false, k) => ∃ x, w = 0x78 :: x ∧ p = x ++ k
  Synced c := c = (false, [])
  RepD d w := match d.1 with
    | true => w = []
    | false => ∃ x, w = 0x78 :: x
  valid_prefix := by
    rintro w w' (h | ⟨x, h⟩)
    · left; simp_all
    · cases w with
      | nil => left; rfl
      | cons a w => right; simp_all
  inflate_nil := rfl
  inflate_prefix := by
    intro w w' _
    cases w <;> simp
  newC := ⟨rfl, rfl⟩
  newD := rfl
  new_tail := rfl
  compress := by
    rintro ⟨h, k⟩ w p b hr
    cases h with
    | true => obtain ⟨rfl, rfl⟩ := hr; exact ⟨rfl, rfl⟩
    | false => obtain ⟨x, rfl, rfl⟩ := hr; exact ⟨x, by simp [toy], by simp⟩
  flush := by
    rintro ⟨h, k⟩ w p hr
    cases h with
    | true => obtain ⟨rfl, rfl⟩ := hr; exact ⟨⟨_, rfl, by simp⟩, rfl, .inr ⟨_, rfl⟩, rfl⟩
    | false =>
      obtain ⟨x, rfl, rfl⟩ := hr
      exact ⟨⟨x ++ k, by simp [toy], by simp⟩, rfl, .inr ⟨x ++ k, by simp [toy]⟩, by simp [toy]⟩
  again := by
    rintro ⟨h, k⟩ w p hr hs
    simp only [Prod.mk.injEq] at hs
    obtain ⟨rfl, rfl⟩ := hs
    obtain ⟨x, rfl, rfl⟩ := hr
    exact ⟨rfl, .inr ⟨x, rfl⟩, by simp⟩
  decompress := by
    rintro ⟨h, k⟩ w x m hr hv hm
    cases h with
    | true =>
      cases hr
      cases x with
      | nil => exact ⟨[], (true, []), by simp [toy, toyDecompress]; simp at hm; omega, rfl, rfl, rfl⟩
      | cons c x =>
        obtain h | ⟨y, h⟩ := hv
        · simp at h
        · simp only [List.nil_append, List.cons.injEq] at h
          obtain ⟨rfl, rfl⟩ := h
          simp only [List.nil_append, List.drop_one, List.tail_cons, List.tail_nil, List.length_nil] at hm
          refine ⟨x, (false, []), ?_, rfl, ⟨x, rfl⟩, rfl⟩
          have h1 : x.length ≤ m.toNat := by omega
          simp only [toy, toyDecompress]
          rw [if_neg (by omega)]
          simp only [ne_eq, not_true_eq_false, if_false]
          rw [if_neg (by omega), List.take_of_length_le h1, List.drop_eq_nil_of_le h1]
    | false =>
      obtain ⟨y, rfl⟩ := hr
      simp only [List.cons_append, List.drop_one, List.tail_cons, List.length_append] at hm
      refine ⟨x, (false, []), ?_, rfl, ⟨y ++ x, rfl⟩, rfl⟩
      have h1 : x.length ≤ m.toNat := by omega
      simp only [toy, toyDecompress]
      rw [if_neg (by omega), if_neg (by omega), List.take_of_length_le h1, List.drop_eq_nil_of_le h1]
  bounded := by
    rintro ⟨h, k⟩ d' x out m hm he
    simp only [toy, toyDecompress] at he
    rw [if_neg (by omega)] at he
    split at he
    · simp only [Prod.mk.injEq, Except.ok.injEq] at he; obtain ⟨rfl, -⟩ := he; simp; omega
    · split at he
      · simp at he
      · rw [if_neg (by omega)] at he
        simp only [Prod.mk.injEq, Except.ok.injEq] at he; obtain ⟨rfl, -⟩ := he; simp; omega
    · rw [if_neg (by omega)] at he
      simp only [Prod.mk.injEq, Except.ok.injEq] at he; obtain ⟨rfl, -⟩ := he; simp; omega

end Thrift.Spec
