import Verif.Model.Base
/-
`struct.pack` / `struct.unpack` for the integer formats the library uses, and UTF-8.
-/

namespace Thrift

/-- `n` bytes of a natural number, most significant first (Python `struct`, network order). -/
def beBytes : (n : Nat) → (x : Nat) → Bytes
  | 0, _ => []
  | n + 1, x => UInt8.ofNat (x / 256 ^ n) :: beBytes n x

/-- The natural number written most significant byte first. -/
def beNat : Bytes → Nat := fun b => b.foldl (fun acc x => acc * 256 + x.toNat) 0

/-- `struct.pack` of a signed integer of `n` bytes in network order: formats `!b` (1), `!h` (2),
`!i` (4), `!q` (8). Out of range raises `struct.error`. -/
def packS (n : Nat) (i : Int) : Except Exc Bytes :=
  if -(2 ^ (8 * n - 1) : Int) ≤ i ∧ i < (2 ^ (8 * n - 1) : Int) then
    .ok (beBytes n (i % (2 ^ (8 * n) : Int)).toNat)
  else .error .structError

/-- `struct.unpack` of a signed integer in network order. The callers pass exactly the number of
bytes the format requires. -/
def unpackS (b : Bytes) : Int :=
  if beNat b < 2 ^ (8 * b.length - 1) then (beNat b : Int)
  else (beNat b : Int) - (2 ^ (8 * b.length) : Int)

/-- `struct.pack('!B', i)` and friends: unsigned, `n` bytes, network order. -/
def packU (n : Nat) (i : Int) : Except Exc Bytes :=
  if 0 ≤ i ∧ i < (2 ^ (8 * n) : Int) then .ok (beBytes n i.toNat) else .error .structError

/-- `struct.unpack('!B', b)` and friends. -/
def unpackU (b : Bytes) : Int := (beNat b : Int)

/-! ## UTF-8 -/

/-- A code point that UTF-8 can carry. -/
def isScalar (c : Nat) : Bool := c < 0xD800 || (0xE000 ≤ c && c < 0x110000)

/-- UTF-8 form of one code point (`str.encode('utf-8')`; lone surrogates raise
`UnicodeEncodeError`). -/
def utf8EncodeChar (c : Nat) : Except Exc Bytes :=
  if !isScalar c then .error .unicodeError
  else if c < 0x80 then .ok [UInt8.ofNat c]
  else if c < 0x800 then .ok [UInt8.ofNat (0xC0 + c / 0x40), UInt8.ofNat (0x80 + c % 0x40)]
  else if c < 0x10000 then
    .ok [UInt8.ofNat (0xE0 + c / 0x1000), UInt8.ofNat (0x80 + c / 0x40 % 0x40),
         UInt8.ofNat (0x80 + c % 0x40)]
  else
    .ok [UInt8.ofNat (0xF0 + c / 0x40000), UInt8.ofNat (0x80 + c / 0x1000 % 0x40),
         UInt8.ofNat (0x80 + c / 0x40 % 0x40), UInt8.ofNat (0x80 + c % 0x40)]

/-- `bytes(s, 'utf-8')`. -/
def utf8Encode : PyStr → Except Exc Bytes
  | [] => .ok []
  | c :: cs =>
    match utf8EncodeChar c with
    | .error e => .error e
    | .ok b =>
      match utf8Encode cs with
      | .error e => .error e
      | .ok bs => .ok (b ++ bs)

def isCont (b : UInt8) : Bool := 0x80 ≤ b.toNat && b.toNat < 0xC0

/-- The code point of a two, three, four byte form. -/
def cp2 (b0 b1 : UInt8) : Nat := (b0.toNat - 0xC0) * 0x40 + (b1.toNat - 0x80)
def cp3 (b0 b1 b2 : UInt8) : Nat :=
  (b0.toNat - 0xE0) * 0x1000 + (b1.toNat - 0x80) * 0x40 + (b2.toNat - 0x80)
def cp4 (b0 b1 b2 b3 : UInt8) : Nat :=
  (b0.toNat - 0xF0) * 0x40000 + (b1.toNat - 0x80) * 0x1000 + (b2.toNat - 0x80) * 0x40
    + (b3.toNat - 0x80)

/-- `b.decode('utf-8')` (errors='strict'): overlong forms, surrogates, values above U+10FFFF,
stray or missing continuation bytes raise `UnicodeDecodeError`. -/
def utf8Decode : Bytes → Except Exc PyStr
  | [] => .ok []
  | b0 :: rest =>
    if b0.toNat < 0x80 then (utf8Decode rest).map (b0.toNat :: ·)
    else if b0.toNat < 0xC2 then .error .unicodeError
    else if b0.toNat < 0xE0 then
      match rest with
      | b1 :: rest' =>
        if isCont b1 then (utf8Decode rest').map (cp2 b0 b1 :: ·)
        else .error .unicodeError
      | _ => .error .unicodeError
    else if b0.toNat < 0xF0 then
      match rest with
      | b1 :: b2 :: rest' =>
        if isCont b1 && isCont b2 && 0x800 ≤ cp3 b0 b1 b2 && isScalar (cp3 b0 b1 b2) then (utf8Decode rest').map (cp3 b0 b1 b2 :: ·)
        else .error .unicodeError
      | _ => .error .unicodeError
    else if b0.toNat < 0xF5 then
      match rest with
      | b1 :: b2 :: b3 :: rest' =>
        if isCont b1 && isCont b2 && isCont b3 && 0x10000 ≤ cp4 b0 b1 b2 b3
            && isScalar (cp4 b0 b1 b2 b3) then (utf8Decode rest').map (cp4 b0 b1 b2 b3 :: ·)
        else .error .unicodeError
      | _ => .error .unicodeError
    else .error .unicodeError

end Thrift
