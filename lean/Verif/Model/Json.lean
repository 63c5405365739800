import Verif.Model.Protocol
/-
`TJSONProtocol`, `lib/py/src/protocol/TJSONProtocol.py`.
-/

namespace Thrift.Json

/-! ### Python built-ins the protocol uses -/

/-- The two conversions between doubles and text the protocol delegates to Python. They are
parameters of the model. `fmt17` is `'{0:.17g}'.format(x)` as ASCII bytes (line 584 with 224), `fmt` is
`'{0}'.format(x)` (line 681, `TSimpleJSONProtocol`), `parse` is `float(text)`, `none` being
`ValueError` (lines 372, 387). -/
structure Floats where
  fmt17 : UInt64 → Bytes
  fmt : UInt64 → Bytes
  parse : PyStr → Option UInt64

/-- Decimal digits of a natural number. -/
def natDigits (n : Nat) : Bytes :=
  if n < 10 then [UInt8.ofNat (48 + n)] else natDigits (n / 10) ++ [UInt8.ofNat (48 + n % 10)]
termination_by n

/-- `str('{0}'.format(i)).encode('ascii')` for an `int`, line 224. -/
def intDigits (i : Int) : Bytes :=
  if i < 0 then 45 :: natDigits i.natAbs else natDigits i.natAbs

/-- The digits of `int(text)`; `none` is `ValueError`. -/
def digitsVal : (acc : Nat) → PyStr → Option Nat
  | acc, [] => some acc
  | acc, c :: cs => if 48 ≤ c ∧ c ≤ 57 then digitsVal (acc * 10 + (c - 48)) cs else none

/-- `int(text)`; `none` is `ValueError`. Simplification: exact for texts over `+-.0123456789Ee`, the only
ones line 362 passes; Python's limit of 4300 digits (`sys.int_info`) is not modelled. -/
def pyInt : PyStr → Option Int
  | [] => none
  | c :: cs =>
    if c = 45 then
      match cs with
      | [] => none
      | _ => (digitsVal 0 cs).map fun n : Nat => -(n : Int)
    else if c = 43 then
      match cs with
      | [] => none
      | _ => (digitsVal 0 cs).map fun n : Nat => (n : Int)
    else (digitsVal 0 (c :: cs)).map fun n : Nat => (n : Int)

/-- The value of a hexadecimal digit. -/
def hexVal (c : Nat) : Option Nat :=
  if 48 ≤ c ∧ c ≤ 57 then some (c - 48)
  else if 97 ≤ c ∧ c ≤ 102 then some (c - 87)
  else if 65 ≤ c ∧ c ≤ 70 then some (c - 55)
  else none

/-- `isspace` of C, what `int()` strips. -/
def isSpace (c : Nat) : Bool := (9 ≤ c && c ≤ 13) || c == 32

/-- The digits of `int(text, 16)`: single underscores may stand between digits; blanks may follow.
`digit`: was the last character a digit? -/
def hexDigits : (acc : Nat) → (digit : Bool) → PyStr → Option Nat
  | acc, digit, [] => if digit then some acc else none
  | acc, digit, c :: cs =>
    match hexVal c with
    | some d => hexDigits (acc * 16 + d) true cs
    | none =>
      if c = 95 ∧ digit then hexDigits acc false cs
      else if digit ∧ (c :: cs).all isSpace then some acc
      else none

/-- The optional prefix `0x` of `int(text, 16)`, which one underscore may follow. -/
def hexPrefix : PyStr → PyStr
  | 48 :: x :: cs =>
    if x = 120 ∨ x = 88 then
      match cs with
      | 95 :: cs' => cs'
      | _ => cs
    else 48 :: x :: cs
  | cs => cs

/-- `int(text, 16)`; `none` is `ValueError`. Simplification: texts outside ASCII are rejected (Python
accepts the decimal digits of other scripts). -/
def pyInt16 (text : PyStr) : Option Int :=
  match text.dropWhile isSpace with
  | 45 :: cs => (hexDigits 0 false (hexPrefix cs)).map fun n : Nat => -(n : Int)
  | 43 :: cs => (hexDigits 0 false (hexPrefix cs)).map fun n : Nat => (n : Int)
  | cs => (hexDigits 0 false (hexPrefix cs)).map fun n : Nat => (n : Int)

/-- `b.decode('ascii')` -/
def asciiDecode (b : Bytes) : Except Exc PyStr :=
  if b.all (·.toNat < 128) then .ok (b.map (·.toNat)) else .error .unicodeError

/-- The base64 alphabet, RFC 4648. -/
def b64Char (n : Nat) : UInt8 :=
  if n < 26 then UInt8.ofNat (65 + n)
  else if n < 52 then UInt8.ofNat (97 + (n - 26))
  else if n < 62 then UInt8.ofNat (48 + (n - 52))
  else if n = 62 then 43
  else 47

/-- The position of a byte in the base64 alphabet. -/
def b64Val (c : Nat) : Option Nat :=
  if 65 ≤ c ∧ c ≤ 90 then some (c - 65)
  else if 97 ≤ c ∧ c ≤ 122 then some (c - 97 + 26)
  else if 48 ≤ c ∧ c ≤ 57 then some (c - 48 + 52)
  else if c = 43 then some 62
  else if c = 47 then some 63
  else none

/-- `base64.b64encode(b)`, line 235. -/
def b64encode : Bytes → Bytes
  | [] => []
  | [x] => [b64Char (x.toNat / 4), b64Char (x.toNat % 4 * 16), 61, 61]
  | [x, y] => [b64Char (x.toNat / 4), b64Char (x.toNat % 4 * 16 + y.toNat / 16),
      b64Char (y.toNat % 16 * 4), 61]
  | x :: y :: z :: rest =>
    b64Char (x.toNat / 4) :: b64Char (x.toNat % 4 * 16 + y.toNat / 16) ::
      b64Char (y.toNat % 16 * 4 + z.toNat / 64) :: b64Char (z.toNat % 64) :: b64encode rest

/-- The loop of `binascii.a2b_base64` (not strict): characters outside the alphabet are ignored, a padding
that completes a group ends the data. `pos` is the position in the group of four, `left` the bits left
over, `pads` the number of `=` seen in a row. -/
def b64Loop : (pos left pads : Nat) → PyStr → Except Exc Bytes
  | 0, _, _, [] => .ok []
  | _ + 1, _, _, [] => .error .valueError
  | pos, left, pads, c :: cs =>
    if c = 61 then
      if 2 ≤ pos ∧ 4 ≤ pos + (pads + 1) then .ok []
      else b64Loop pos left (if 2 ≤ pos then pads + 1 else pads) cs
    else
      match b64Val c with
      | none => b64Loop pos left pads cs
      | some v =>
        if pos = 0 then b64Loop 1 v 0 cs
        else if pos = 1 then (b64Loop 2 (v % 16) 0 cs).map (UInt8.ofNat (left * 4 + v / 16) :: ·)
        else if pos = 2 then (b64Loop 3 (v % 4) 0 cs).map (UInt8.ofNat (left * 16 + v / 4) :: ·)
        else (b64Loop 0 0 0 cs).map (UInt8.ofNat (left * 64 + v) :: ·)

/-- `base64.b64decode(text)`: `ValueError` if the text is not ASCII or badly padded. -/
def b64decode (text : PyStr) : Except Exc Bytes :=
  if text.all (· < 128) then b64Loop 0 0 0 text else .error .valueError

/-- A hexadecimal digit, lower case. -/
def hexChar (n : Nat) : Nat := if n < 10 then 48 + n else 87 + n

/-- Two hexadecimal digits of a byte. -/
def hexByte (b : UInt8) : PyStr := [hexChar (b.toNat / 16), hexChar (b.toNat % 16)]

/-- `str(uuid)` of a `uuid.UUID` with these 16 bytes. -/
def uuidText (u : Bytes) : PyStr :=
  (u.take 4).flatMap hexByte ++ 45 :: ((u.drop 4).take 2).flatMap hexByte ++
    45 :: ((u.drop 6).take 2).flatMap hexByte ++ 45 :: ((u.drop 8).take 2).flatMap hexByte ++
    45 :: (u.drop 10).flatMap hexByte

/-- `text.replace(pat, '')` for a non-empty pattern. -/
def removeAll (pat : PyStr) (text : PyStr) : PyStr :=
  match text with
  | [] => []
  | c :: cs =>
    if pat ≠ [] ∧ pat.isPrefixOf (c :: cs) then removeAll pat ((c :: cs).drop pat.length)
    else c :: removeAll pat cs
termination_by text.length
decreasing_by
  · rename_i h
    have : 0 < pat.length := List.length_pos_iff.mpr h.1
    simp only [List.length_drop, List.length_cons]; omega
  · simp

/-- `text.strip('{}')` -/
def stripBraces (text : PyStr) : PyStr :=
  let p := fun c : Nat => c == 123 || c == 125
  ((text.dropWhile p).reverse.dropWhile p).reverse

/-- The 16 bytes of a 128-bit number. -/
def uuidBytes (n : Nat) : Bytes := beBytes 16 n

/-- `uuid.UUID(text)`; `none` is `ValueError`. -/
def parseUuid (text : PyStr) : Option Bytes :=
  let hex := removeAll [45]
    (stripBraces (removeAll [117, 117, 105, 100, 58] (removeAll [117, 114, 110, 58] text)))
  if hex.length ≠ 32 then none
  else
    match pyInt16 hex with
    | some (.ofNat n) => some (uuidBytes n)
    | _ => none

/-! ### Type names, lines 69-86 -/

/-- The text of an ASCII literal. -/
def lit (s : String) : PyStr := s.toList.map (·.toNat)

/-- `CTYPES` -/
def ctypes : List (Int × PyStr) :=
  [(TType.BOOL, [116, 102]), (TType.BYTE, [105, 56]), (TType.I16, [105, 49, 54]),
   (TType.I32, [105, 51, 50]), (TType.I64, [105, 54, 52]), (TType.DOUBLE, [100, 98, 108]),
   (TType.STRING, [115, 116, 114]), (TType.STRUCT, [114, 101, 99]), (TType.LIST, [108, 115, 116]),
   (TType.SET, [115, 101, 116]), (TType.MAP, [109, 97, 112]), (TType.UUID, [117, 105, 100])]

/-- `CTYPES[ttype]` -/
def typeName (ttype : Int) : Except Exc PyStr :=
  match ctypes.find? (·.1 == ttype) with
  | some x => .ok x.2
  | none => .error .keyError

/-- `JTYPES[name]` -/
def typeOf (name : PyStr) : Except Exc Int :=
  match ctypes.find? (·.2 == name) with
  | some x => .ok x.1
  | none => .error .keyError

/-! ### The protocol object -/

/-- Constructor arguments, line 176. -/
structure Cfg where
  stringLimit : Option Int := none

/-- `JSONBaseContext`, `JSONListContext`, `JSONPairContext`, lines 89-150. -/
inductive Ctx where
  | base
  | list (first : Bool)
  | pair (first colon : Bool)
  deriving DecidableEq, Repr

/-- The mutable part of a protocol object: the recursion counter, `contextStack` with the current context
first, and the one-byte lookahead of `LookaheadReader` (lines 153-171). -/
structure St where
  depth : Int := 0
  stack : List Ctx := [.base]
  hasData : Bool := false
  data : Bytes := []
  deriving DecidableEq, Repr

instance : HasDepth St where
  depth s := s.depth
  setDepth d s := { s with depth := d }
  depth_set _ _ := rfl
  set_depth _ := rfl
  set_set _ _ _ := rfl

/-- `self.context`: the top of the stack, or a fresh base context if the stack is empty (206-211). -/
def top (stack : List Ctx) : Ctx := stack.headD .base

/-- Replace the current context by its updated version. -/
def setTop (stack : List Ctx) (c : Ctx) : List Ctx :=
  match stack with
  | [] => []
  | _ :: cs => c :: cs

/-- `doIO`, 95-96, 113-117, 132-138: the separator that is read or written before the next item, and the
context afterwards. -/
def advance : Ctx → Option UInt8 × Ctx
  | .base => (none, .base)
  | .list first => if first then (none, .list false) else (some 44, .list false)
  | .pair first colon =>
    if first then (none, .pair false true)
    else (some (if colon then 58 else 44), .pair false (!colon))

/-- `escapeNum`, 104-105, 146-147 -/
def escapeNum : Ctx → Bool
  | .pair _ colon => colon
  | _ => false

/-- The effect of `doIO` on the stack. -/
def advanceTop (s : St) : St := { s with stack := setTop s.stack (advance (top s.stack)).2 }

/-- `pushContext`, 202-204 -/
def push (c : Ctx) (s : St) : St := { s with stack := c :: s.stack }

/-! ### Writing -/

/-- `self.context.write()` -/
def ctxWrite : W St Unit := do
  let s ← W.get
  match (advance (top s.stack)).1 with
  | none => pure ()
  | some c => W.write [c]
  W.modify advanceTop

/-- `popContext`, 206-211: `list.pop` of an empty list raises. -/
def popW : W St Unit := do
  let s ← W.get
  match s.stack with
  | [] => W.raise .indexError
  | _ :: cs => W.set { s with stack := cs }

/-- `ESCAPE_CHAR_VALS.get(s, s)`, lines 46-55 and 217. -/
def escape (c : Nat) : PyStr :=
  if c = 34 then [92, 34]
  else if c = 92 then [92, 92]
  else if c = 8 then [92, 98]
  else if c = 12 then [92, 102]
  else if c = 10 then [92, 110]
  else if c = 13 then [92, 114]
  else if c = 9 then [92, 116]
  else [c]

/-- `writeJSONString`, 213-220 -/
def writeJSONString (text : PyStr) : W St Unit := do
  ctxWrite
  let b ← W.lift (utf8Encode (34 :: (text.flatMap escape ++ [34])))
  W.write b

/-- `writeJSONNumber`, 222-230, with the number already formatted. -/
def writeJSONNumber (number : Bytes) : W St Unit := do
  ctxWrite
  let s ← W.get
  if escapeNum (top s.stack) then
    W.write [34]
    W.write number
    W.write [34]
  else W.write number

/-- `writeJSONBase64`, 232-236 -/
def writeJSONBase64 (b : Bytes) : W St Unit := do
  ctxWrite
  W.write [34]
  W.write (b64encode b)
  W.write [34]

/-- `writeJSONObjectStart`, 238-241 -/
def writeJSONObjectStart : W St Unit := do
  ctxWrite
  W.write [123]
  W.modify (push (.pair true true))

/-- `writeJSONObjectEnd`, 243-245 -/
def writeJSONObjectEnd : W St Unit := do
  popW
  W.write [125]

/-- `writeJSONArrayStart`, 247-250 -/
def writeJSONArrayStart : W St Unit := do
  ctxWrite
  W.write [91]
  W.modify (push (.list true))

/-- `writeJSONArrayEnd`, 252-254 -/
def writeJSONArrayEnd : W St Unit := do
  popW
  W.write [93]

/-- `writeJSONNumber(i)` of an `int`. -/
def writeInt (i : Int) : W St Unit := writeJSONNumber (intDigits i)

/-- `writeByte` to `writeI64`, 565-579 -/
def writeChecked (bits : Nat) (i : Int) : W St Unit := do
  W.lift (checkIntegerLimits i bits)
  writeInt i

/-- `writeFieldBegin`, 524-527 -/
def writeFieldBegin (ttype fid : Int) : W St Unit := do
  writeInt fid
  writeJSONObjectStart
  let name ← W.lift (typeName ttype)
  writeJSONString name

/-- `writeMapBegin`, 535-540 -/
def writeMapBegin (ktype vtype size : Int) : W St Unit := do
  writeJSONArrayStart
  let k ← W.lift (typeName ktype)
  writeJSONString k
  let v ← W.lift (typeName vtype)
  writeJSONString v
  writeInt size
  writeJSONObjectStart

/-- `writeMapEnd`, 542-544 -/
def writeMapEnd : W St Unit := do
  writeJSONObjectEnd
  writeJSONArrayEnd

/-- `writeListBegin`, `writeSetBegin`, 546-549 and 554-557 -/
def writeListBegin (etype size : Int) : W St Unit := do
  writeJSONArrayStart
  let e ← W.lift (typeName etype)
  writeJSONString e
  writeInt size

/-- The writing operations of `TJSONProtocol`, 507-593. -/
def wr (py : Floats) : WrOps St where
  writeStructBegin := writeJSONObjectStart
  writeStructEnd := writeJSONObjectEnd
  writeFieldBegin := writeFieldBegin
  writeFieldEnd := writeJSONObjectEnd
  writeFieldStop := pure ()
  writeMapBegin := writeMapBegin
  writeMapEnd := writeMapEnd
  writeListBegin := writeListBegin
  writeListEnd := writeJSONArrayEnd
  writeSetBegin := writeListBegin
  writeSetEnd := writeJSONArrayEnd
  writeBool b := writeInt (if b then 1 else 0)
  writeByte := writeChecked 8
  writeI16 := writeChecked 16
  writeI32 := writeChecked 32
  writeI64 := writeChecked 64
  writeDouble x := writeJSONNumber (py.fmt17 x)
  writeString := writeJSONString
  writeBinary := writeJSONBase64
  writeUuid u := writeJSONString (uuidText u)

/-- `resetWriteContext`, 194-196 -/
def resetWrite (s : St) : St := { s with stack := [.base] }

/-- `writeMessageBegin`, 507-513; `VERSION` is 1. -/
def writeMessageBegin (name : PyStr) (type seqid : Int) : W St Unit := do
  W.modify resetWrite
  writeJSONArrayStart
  writeInt 1
  writeJSONString name
  writeInt type
  writeInt seqid

/-- `writeMessageEnd`, 515-516 -/
def writeMessageEnd : W St Unit := writeJSONArrayEnd

/-! ### Reading -/

/-- `LookaheadReader.read`, 160-165 -/
def readerRead : P St Bytes := do
  let s ← P.get
  if s.hasData then
    P.set { s with hasData := false }
    pure s.data
  else
    let d ← P.transRead 1
    P.modify fun s => { s with data := d }
    pure d

/-- `LookaheadReader.peek`, 167-171 -/
def readerPeek : P St Bytes := do
  let s ← P.get
  if s.hasData then pure s.data
  else
    let d ← P.transRead 1
    P.modify fun s => { s with data := d, hasData := true }
    pure d

/-- `popContext` while reading. -/
def popR : P St Unit := do
  let s ← P.get
  match s.stack with
  | [] => P.raise .indexError
  | _ :: cs => P.set { s with stack := cs }

/-- `readJSONSyntaxChar`, 256-260 -/
def readSyntaxChar (c : UInt8) : P St Unit := do
  let cur ← readerRead
  if cur = [c] then pure () else P.raise TProtocolException.INVALID_DATA

/-- `self.context.read()` -/
def ctxRead : P St Unit := do
  let s ← P.get
  match (advance (top s.stack)).1 with
  | none => pure ()
  | some c => readSyntaxChar c
  P.modify advanceTop

/-- `ord(b)` of a bytes object: its only byte, otherwise `TypeError`. -/
def ord (b : Bytes) : Except Exc Nat :=
  match b with
  | [x] => .ok x.toNat
  | _ => .error .typeError

/-- `chr(i)` -/
def chr (i : Int) : Except Exc Nat :=
  if 0 ≤ i ∧ i < 0x110000 then .ok i.toNat else .error .valueError

/-- `ESCAPE_CHARS`, lines 56-65 -/
def unescape (c : UInt8) : Option Nat :=
  if c = 34 then some 34
  else if c = 92 then some 92
  else if c = 98 then some 8
  else if c = 102 then some 12
  else if c = 110 then some 10
  else if c = 114 then some 13
  else if c = 116 then some 9
  else if c = 47 then some 47
  else none

/-- What `readJSONString` carries around its loop: `highSurrogate` (0 for `None`), the text so far, and the
number of bytes read. -/
structure Acc where
  high : Int := 0
  text : PyStr := []
  length : Nat := 0

/-- One iteration of the inner loop, 322-327: bytes from 0x80 on that follow. -/
def utf8Body (cfg : Cfg) (a : Bytes × Nat) : P St ((Bytes × Nat) ⊕ (Bytes × Nat)) := do
  let p ← readerPeek
  let o ← P.lift (ord p)
  if 0x80 ≤ o then
    let c ← readerRead
    let x ← P.lift (ord c)
    P.lift (checkLength cfg.stringLimit (a.2 + 1 : Nat))
    pure (.inl (a.1 ++ [UInt8.ofNat x], a.2 + 1))
  else pure (.inr a)

/-- The end of an iteration of the outer loop, 329-334: `character` is appended, the length is checked, a
high surrogate must not be pending. -/
def appendChar (cfg : Cfg) (a : Acc) (chars : PyStr) : P St (Acc ⊕ PyStr) := do
  P.lift (checkLength cfg.stringLimit a.length)
  if a.high ≠ 0 then P.raise TProtocolException.INVALID_DATA
  else pure (.inl { a with text := a.text ++ chars })

/-- After a backslash and `u`, 292-310. `continue` skips the end of the iteration. -/
def unicodeEscape (cfg : Cfg) (a : Acc) : P St (Acc ⊕ PyStr) := do
  let raw ← P.transRead 4
  let text ← P.lift (asciiDecode raw)
  let a := { a with length := a.length + 4 }
  match pyInt16 text with
  | none => P.raise .valueError
  | some code =>
    if 0xd800 ≤ code ∧ code ≤ 0xdbff then
      if a.high ≠ 0 then P.raise TProtocolException.INVALID_DATA
      else pure (.inl { a with high := code })
    else if 0xdc00 ≤ code ∧ code ≤ 0xdfff then
      if a.high = 0 then P.raise TProtocolException.INVALID_DATA
      else
        let c ← P.lift (chr (0x10000 + a.high % 0x400 * 0x400 + code % 0x400))
        appendChar cfg { a with high := 0 } [c]
    else
      let c ← P.lift (chr code)
      appendChar cfg a [c]

/-- One iteration of the loop of `readJSONString`, 283-334. The test of line 317 compares a `bytes` object
with the keys of a dictionary of `str` and is never true. -/
def stringBody (cfg : Cfg) (fuel : Nat) (a : Acc) : P St (Acc ⊕ PyStr) := do
  let ch ← readerRead
  let a := { a with length := a.length + 1 }
  if ch = [34] then pure (.inr a.text)
  else
    let o ← P.lift (ord ch)
    if o = 92 then
      let ch ← readerRead
      let a := { a with length := a.length + 1 }
      let o ← P.lift (ord ch)
      if o = 117 then unicodeEscape cfg a
      else
        match unescape (UInt8.ofNat o) with
        | none => P.raise TProtocolException.INVALID_DATA
        | some c => appendChar cfg a [c]
    else
      let (bs, len) ← P.whileTrue fuel (utf8Body cfg) ([UInt8.ofNat o], a.length)
      let chars ← P.lift (utf8Decode bs)
      appendChar cfg { a with length := len } chars

/-- `readJSONString(True)`, 282-335: without the context. -/
def readStringBody (cfg : Cfg) (fuel : Nat) : P St PyStr := do
  readSyntaxChar 34
  P.whileTrue fuel (stringBody cfg fuel) {}

/-- `readJSONString(False)`, 276-335 -/
def readJSONString (cfg : Cfg) (fuel : Nat) : P St PyStr := do
  ctxRead
  readStringBody cfg fuel

/-- `isJSONNumeric`, 337-338: `find(b'')` is 0, so that the empty answer at the end of the input counts as
numeric. -/
def isNumeric (b : Bytes) : Bool :=
  match b with
  | [] => true
  | [x] => x = 43 || x = 45 || x = 46 || (48 ≤ x && x ≤ 57) || x = 69 || x = 101
  | _ => false

/-- One iteration of the loop of `readJSONNumericChars`, 347-353. -/
def numericBody (cfg : Cfg) (a : Bytes × Nat) : P St ((Bytes × Nat) ⊕ Bytes) := do
  let p ← readerPeek
  if isNumeric p = false then pure (.inr a.1)
  else
    let c ← readerRead
    P.lift (checkLength cfg.stringLimit (a.2 + 1 : Nat))
    pure (.inl (a.1 ++ c, a.2 + 1))

/-- `readJSONNumericChars`, 344-354 -/
def readNumericChars (cfg : Cfg) (fuel : Nat) : P St PyStr := do
  let b ← P.whileTrue fuel (numericBody cfg) ([], 0)
  P.lift (asciiDecode b)

/-- `readJSONQuotes`, 340-342 -/
def readQuotes : P St Unit := do
  let s ← P.get
  if escapeNum (top s.stack) then readSyntaxChar 34 else pure ()

/-- `readJSONInteger`, 356-365 -/
def readJSONInteger (cfg : Cfg) (fuel : Nat) : P St Int := do
  ctxRead
  readQuotes
  let numeric ← readNumericChars cfg fuel
  readQuotes
  match pyInt numeric with
  | some i => pure i
  | none => P.raise TProtocolException.INVALID_DATA

/-- `readJSONDouble`, 367-390. `self.context.escapeNum is False` compares a method with `False` and is never
true, so that the check of 373-378 is not there. -/
def readJSONDouble (py : Floats) (cfg : Cfg) (fuel : Nat) : P St UInt64 := do
  ctxRead
  let p ← readerPeek
  if p = [34] then
    let text ← readStringBody cfg fuel
    match py.parse text with
    | some x => pure x
    | none => P.raise TProtocolException.INVALID_DATA
  else
    let s ← P.get
    if escapeNum (top s.stack) then readSyntaxChar 34 else pure ()
    let text ← readNumericChars cfg fuel
    match py.parse text with
    | some x => pure x
    | none => P.raise TProtocolException.INVALID_DATA

/-- `readJSONBase64`, 392-400 -/
def readJSONBase64 (cfg : Cfg) (fuel : Nat) : P St Bytes := do
  let text ← readJSONString cfg fuel
  let m := text.length % 4
  P.lift (b64decode (if m ≠ 0 then text ++ List.replicate (4 - m) 61 else text))

/-- `readJSONObjectStart`, 402-405 -/
def readJSONObjectStart : P St Unit := do
  ctxRead
  readSyntaxChar 123
  P.modify (push (.pair true true))

/-- `readJSONObjectEnd`, 407-409 -/
def readJSONObjectEnd : P St Unit := do
  readSyntaxChar 125
  popR

/-- `readJSONArrayStart`, 411-414 -/
def readJSONArrayStart : P St Unit := do
  ctxRead
  readSyntaxChar 91
  P.modify (push (.list true))

/-- `readJSONArrayEnd`, 416-418 -/
def readJSONArrayEnd : P St Unit := do
  readSyntaxChar 93
  popR

/-- `JTYPES[self.readJSONString(False)]` -/
def readType (cfg : Cfg) (fuel : Nat) : P St Int := do
  let name ← readJSONString cfg fuel
  P.lift (typeOf name)

/-- `readFieldBegin`, 443-453 -/
def readFieldBegin (cfg : Cfg) (fuel : Nat) : P St (Int × Int) := do
  let c ← readerPeek
  if c = [125] then pure (TType.STOP, 0)
  else
    let id ← readJSONInteger cfg fuel
    readJSONObjectStart
    let ttype ← readType cfg fuel
    pure (ttype, id)

/-- `readMapBegin`, 458-464 -/
def readMapBegin (cfg : Cfg) (fuel : Nat) : P St (Int × Int × Int) := do
  readJSONArrayStart
  let k ← readType cfg fuel
  let v ← readType cfg fuel
  let size ← readJSONInteger cfg fuel
  readJSONObjectStart
  pure (k, v, size)

/-- `readMapEnd`, 466-468 -/
def readMapEnd : P St Unit := do
  readJSONObjectEnd
  readJSONArrayEnd

/-- `readCollectionBegin`, 470-476 -/
def readCollectionBegin (cfg : Cfg) (fuel : Nat) : P St (Int × Int) := do
  readJSONArrayStart
  let e ← readType cfg fuel
  let size ← readJSONInteger cfg fuel
  pure (e, size)

/-- `readUuid`, 502-505 -/
def readUuid (cfg : Cfg) (fuel : Nat) : P St Bytes := do
  let text ← readJSONString cfg fuel
  match parseUuid text with
  | some u => pure u
  | none => P.raise .valueError

/-- The reading operations of `TJSONProtocol`, 423-505. `fuel` bounds the loops over characters. -/
def rd (py : Floats) (cfg : Cfg) (fuel : Nat) : RdOps St where
  readStructBegin := readJSONObjectStart
  readStructEnd := readJSONObjectEnd
  readFieldBegin := readFieldBegin cfg fuel
  readFieldEnd := readJSONObjectEnd
  readMapBegin := readMapBegin cfg fuel
  readMapEnd := readMapEnd
  readListBegin := readCollectionBegin cfg fuel
  readListEnd := readJSONArrayEnd
  readSetBegin := readCollectionBegin cfg fuel
  readSetEnd := readJSONArrayEnd
  readBool := do
    let i ← readJSONInteger cfg fuel
    pure (if i = 0 then false else true)
  readByte := readJSONInteger cfg fuel
  readI16 := readJSONInteger cfg fuel
  readI32 := readJSONInteger cfg fuel
  readI64 := readJSONInteger cfg fuel
  readDouble := readJSONDouble py cfg fuel
  readString := readJSONString cfg fuel
  readBinary := readJSONBase64 cfg fuel
  readUuid := readUuid cfg fuel

/-- `resetReadContext`, 198-200 -/
def resetRead (s : St) : St := { s with stack := [.base], hasData := false, data := [] }

/-- `readMessageBegin`, 423-432: name, type, seqid -/
def readMessageBegin (cfg : Cfg) (fuel : Nat) : P St (PyStr × Int × Int) := do
  P.modify resetRead
  readJSONArrayStart
  let version ← readJSONInteger cfg fuel
  if version ≠ 1 then P.raise TProtocolException.BAD_VERSION
  else
    let name ← readJSONString cfg fuel
    let type ← readJSONInteger cfg fuel
    let seqid ← readJSONInteger cfg fuel
    pure (name, type, seqid)

/-- `readMessageEnd`, 434-435 -/
def readMessageEnd : P St Unit := readJSONArrayEnd

end Thrift.Json
