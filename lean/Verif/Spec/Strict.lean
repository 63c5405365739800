import Verif.Spec.Agree
import Verif.Spec.WellTyped
import Verif.Model.Compact
/-
When the numbers of a compact stream are in the ranges of their types, for C49.
-/

namespace Thrift.Spec
open Thrift

/-- Reads a number with `m`, and stops with `OverflowError` if it has not the property -/
def checked {σ : Type} (ok : Int → Bool) (m : P σ Int) : P σ Int := do
  let i ← m
  if ok i then pure i else P.raise .overflowError

namespace Strict
open Compact

/-- A zigzag integer of the given size -/
def zigzag (bits : Nat) : P St Int := checked (fun i => decide (InRange bits i)) readZigZag

/-- A length: at most 2^31 - 1 -/
def size : P St Int := checked (fun n => decide (n < 2 ^ 31)) readSize

/-- A length and as many bytes -/
def binary (cfg : Cfg) : P St Bytes := do
  let n ← size
  P.lift (checkLength cfg.stringLimit n)
  P.readAll n

/-- The header of a field, whose id is an i16 -/
def fieldBegin : P St (Int × Int) := do
  let r ← readFieldBegin
  if InRange 16 r.2 then pure r else P.raise .overflowError

/-- The header of a list or set -/
def collectionBegin (cfg : Cfg) : P St (Int × Int) := do
  let s ← P.get
  P.assert (s.state == .VALUE_READ || s.state == .CONTAINER_READ)
  let sizeType ← readUByte
  let n := pyShr sizeType 4
  let type ← getTType sizeType
  let n ← if n = 15 then size else pure n
  P.lift (checkLength cfg.containerLimit n)
  P.modify fun s => { s with containers := s.state :: s.containers, state := .CONTAINER_READ }
  pure (type, n)

/-- The header of a map -/
def mapBegin (cfg : Cfg) : P St (Int × Int × Int) := do
  let s ← P.get
  P.assert (s.state == .VALUE_READ || s.state == .CONTAINER_READ)
  let n ← size
  P.lift (checkLength cfg.containerLimit n)
  let types ← if n > 0 then readUByte else pure 0
  let vtype ← getTType types
  let ktype ← getTType (pyShr types 4)
  P.modify fun s => { s with containers := s.state :: s.containers, state := .CONTAINER_READ }
  pure (ktype, vtype, n)

/-- `TCompactProtocol` that raises `OverflowError` where it would read an integer outside of its type, a length of more than 31 bits or a field id of more than 16. All else is unchanged. -/
def rd (cfg : Cfg) : RdOps St :=
  { Compact.rd cfg with
    readFieldBegin := fieldBegin
    readMapBegin := mapBegin cfg
    readListBegin := collectionBegin cfg
    readSetBegin := collectionBegin cfg
    readI16 := reader (zigzag 16)
    readI32 := reader (zigzag 32)
    readI64 := reader (zigzag 64)
    readString := do
      let b ← reader (binary cfg)
      P.lift (utf8Decode b)
    readBinary := reader (binary cfg) }

end Strict

/-- What is true of the two decoders of the compact protocol, Python (first) and the extension (second), when both come to an end and all numbers are in range: equal values, and the same
bytes left. If only the extension fails, then with a `TypeError`, because of the depth, or with an `OverflowError` (a number is written with more bytes than needed). If only Python
fails, then because a string is not UTF-8 or because a string is longer than allowed. -/
def NearlyEqual : Option (Except Exc Val × Bytes) → Option (Except Exc Val × Bytes) → Prop
  | some (.ok p, r), some (.ok x, r') => p = x ∧ r = r'
  | some (.ok _, _), some (.error e, _) => e = .typeError ∨ e = TProtocolException.DEPTH_LIMIT ∨ e = .overflowError
  | some (.error e, _), some (.ok _, _) => e = .unicodeError ∨ e = TTransportException.SIZE_LIMIT
  | _, _ => True

end Thrift.Spec
