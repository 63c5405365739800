import Verif.Model.Header
import Verif.Spec.CompactFormat
/-
The frame format of `doc/specs/HeaderFormat.md`, the client types that can be told apart by the first
two words, and what is assumed about zlib.
-/

namespace Thrift.Spec.Header
open Spec.Compact

/-! ## Frames -/

/-- If there are headers, one info block of type 1 (key/value) with varint-prefixed strings. -/
def info : List (Bytes × Bytes) → Bytes
  | [] => []
  | hs => varint 1 ++ (varint hs.length ++ hs.flatMap fun kv => blob kv.1 ++ blob kv.2)

/-- The header block before padding: protocol id, number of transforms, transform ids, info. -/
def block (pid : Nat) (ids : List Nat) (headers : List (Bytes × Bytes)) : Bytes :=
  varint pid ++ varint ids.length ++ ids.flatMap varint ++ info headers

/-- Padding with zero bytes to the next multiple of four. -/
def pad (h : Bytes) : Bytes := h ++ List.replicate ((h.length + 3) / 4 * 4 - h.length) 0

/-- LENGTH (4 bytes, not counting itself), HEADER MAGIC, FLAGS, SEQUENCE NUMBER, header size divided by
four, header, payload. -/
def frame (flags : Nat) (seq : Int) (header payload : Bytes) : Bytes :=
  beInt 4 (10 + header.length + payload.length : Nat) ++ [0x0F, 0xFF] ++ beInt 2 flags ++ beInt 4 seq ++
    beInt 2 (header.length / 4 : Nat) ++ header ++ payload

/-! ## Client types -/

/-- What a word at the start of a message can be taken for. -/
inductive Word where
  | binary | compact | header | other
  deriving DecidableEq, Repr

/-- Strict binary messages start with 80 01, compact messages with 82 and a byte whose low five bits
are 1, header frames with 0F FF. -/
def word : Bytes → Word
  | a :: b :: _ =>
    if a = 0x80 ∧ b = 0x01 then .binary
    else if a = 0x82 ∧ b.toNat % 32 = 1 then .compact
    else if a = 0x0F ∧ b = 0xFF then .header
    else .other
  | _ => .other

/-- The client type if the first word is not a frame length. -/
def unframedType (w : Bytes) : Option Int :=
  match word w with
  | .binary => some 2
  | .compact => some 4
  | _ => none

/-- The client type of a framed message, by the first word of the frame. -/
def framedType (w : Bytes) : Option Int :=
  match word w with
  | .header => some 0
  | .binary => some 1
  | .compact => some 3
  | .other => none

/-! ## zlib -/

/-- What the documentation of Python's `zlib` promises: output that fits into `max_length` comes back
whole with nothing left over, and no output is longer than a positive `max_length`. -/
structure ZlibOk (z : Zlib) : Prop where
  roundtrip : ∀ (p : Bytes) (max : Int), (p.length : Int) ≤ max → z.decompress (z.compress p) max = .ok (p, [])
  bounded : ∀ (d : Bytes) (max : Int) (out tail : Bytes), 0 < max →
    z.decompress d max = .ok (out, tail) → (out.length : Int) ≤ max

/-- A stand-in that satisfies the contract: a marker byte and the data. -/
def storedZlib : Zlib where
  compress p := 0x78 :: p
  decompress d max :=
    match d with
    | 0x78 :: p => .ok (p.take max.toNat, p.drop max.toNat)
    | _ => .error .valueError

theorem storedZlib_ok : ZlibOk storedZlib where
  roundtrip p max h := by
    have : p.length ≤ max.toNat := by omega
    simp [storedZlib, List.take_of_length_le this, List.drop_eq_nil_of_le this]
  bounded d max out tail hm h := by
    unfold storedZlib at h
    simp only at h
    split at h
    · cases h
      simp; omega
    · cases h

/-- `compress` applied `k` times. -/
def deflateN (z : Zlib) : Nat → Bytes → Bytes
  | 0, p => p
  | k + 1, p => deflateN z k (z.compress p)

/-- `decompress` applied `k` times, each time with the size limit. -/
def inflateN (z : Zlib) (max : Int) : Nat → Bytes → Except Exc Bytes
  | 0, p => .ok p
  | k + 1, p =>
    match z.decompress p max with
    | .error e => .error e
    | .ok (out, []) => inflateN z max k out
    | .ok (_, _ :: _) => .error TTransportException.SIZE_LIMIT

end Thrift.Spec.Header
