import Verif.Model.Compact
import Verif.Model.Binary
import Verif.Model.Transport
/-
`lib/py/src/transport/THeaderTransport.py`.
-/

namespace Thrift

/-- The functions of the module `zlib` that `THeaderTransport` calls, as parameters. Nothing is
assumed about them here. -/
structure Zlib where
  /-- `zlib.compress(data)` -/
  compress : Bytes → Bytes
  /-- `d = zlib.decompressobj(); d.decompress(data, max_length)`: the output and `d.unconsumed_tail`,
  or the exception. -/
  decompress : Bytes → Int → Except Exc (Bytes × Bytes)

/-! `TApplicationException` types, `lib/py/src/Thrift.py:97-107`. -/
namespace TApplicationException
def UNKNOWN : Exc := .tapplication 0
def UNKNOWN_METHOD : Exc := .tapplication 1
def INVALID_MESSAGE_TYPE : Exc := .tapplication 2
def WRONG_METHOD_NAME : Exc := .tapplication 3
def BAD_SEQUENCE_ID : Exc := .tapplication 4
def MISSING_RESULT : Exc := .tapplication 5
def INTERNAL_ERROR : Exc := .tapplication 6
def PROTOCOL_ERROR : Exc := .tapplication 7
def INVALID_TRANSFORM : Exc := .tapplication 8
def INVALID_PROTOCOL : Exc := .tapplication 9
def UNSUPPORTED_CLIENT_TYPE : Exc := .tapplication 10
end TApplicationException

namespace Header

/-- `HEADER_MAGIC`, 36 -/
def HEADER_MAGIC : Int := 0x0FFF
/-- `DEFAULT_MAX_FRAME_SIZE`, 37 -/
def DEFAULT_MAX_FRAME_SIZE : Int := 16384000
/-- `HARD_MAX_FRAME_SIZE`, 38 -/
def HARD_MAX_FRAME_SIZE : Int := 0x3FFFFFFF

/-! `THeaderClientType`, 41-48 -/
namespace ClientType
def HEADERS : Int := 0
def FRAMED_BINARY : Int := 1
def UNFRAMED_BINARY : Int := 2
def FRAMED_COMPACT : Int := 3
def UNFRAMED_COMPACT : Int := 4
end ClientType

/-- `THeaderSubprotocolID.BINARY`, 52 -/
def BINARY : Int := 0
/-- `THeaderSubprotocolID.COMPACT`, 53 -/
def COMPACT : Int := 2
/-- `TInfoHeaderType.KEY_VALUE`, 57 -/
def KEY_VALUE : Int := 1
/-- `THeaderTransformID.ZLIB`, 61: the only member of `KNOWN_READ_TRANSFORM_IDS` (64) and the only key
of `WRITE_TRANSFORMS_BY_ID` (67-69). -/
def ZLIB : Int := 1

/-- A `dict` from `bytes` to `bytes` in iteration order. -/
abbrev Dict := List (Bytes × Bytes)

/-- `d[k] = v` -/
def Dict.put : Dict → Bytes → Bytes → Dict
  | [], k, v => [(k, v)]
  | (k', v') :: d, k, v => if k' = k then (k', v) :: d else (k', v') :: Dict.put d k v

/-- A `THeaderTransport` object, 88-104. -/
structure St where
  clientType : Int := ClientType.HEADERS
  allowed : List Int
  rbuf : BytesIO := BytesIO.of []
  readHeaders : Dict := []
  wbuf : BytesIO := BytesIO.of []
  writeHeaders : Dict := []
  writeTransforms : List Int := []
  flags : Int := 0
  sequenceId : Int := 0
  protocolId : Int := BINARY
  maxFrame : Int := DEFAULT_MAX_FRAME_SIZE
  maxDecomp : Int := DEFAULT_MAX_FRAME_SIZE
  deriving DecidableEq, Repr

/-- `set_header`, 118-123. A key or value that is not `bytes` raises `ValueError`. -/
def setHeader (key value : WArg) (s : St) : Except Exc Unit × St :=
  match key, value with
  | .bytes k, .bytes v => (.ok (), { s with writeHeaders := s.writeHeaders.put k v })
  | _, _ => (.error .valueError, s)

/-- `clear_headers`, 125-126 -/
def clearHeaders (s : St) : St := { s with writeHeaders := [] }

/-- `add_transform`, 128-131 -/
def addTransform (id : Int) (s : St) : Except Exc Unit × St :=
  if id = ZLIB then (.ok (), { s with writeTransforms := s.writeTransforms ++ [id] })
  else (.error .valueError, s)

/-- `set_max_frame_size`, 133-136 -/
def setMaxFrameSize (size : Int) (s : St) : Except Exc Unit × St :=
  if 0 < size ∧ size < HARD_MAX_FRAME_SIZE then (.ok (), { s with maxFrame := size })
  else (.error .valueError, s)

/-- `set_max_decompressed_size`, 138-141 -/
def setMaxDecompressedSize (size : Int) (s : St) : Except Exc Unit × St :=
  if 0 < size ∧ size ≤ HARD_MAX_FRAME_SIZE then (.ok (), { s with maxDecomp := size })
  else (.error .valueError, s)

/-- `_apply_read_transform`, 143-152 -/
def applyReadTransform (z : Zlib) (max : Int) (id : Int) (payload : Bytes) : Except Exc Bytes :=
  if id = ZLIB then
    match z.decompress payload max with
    | .error e => .error e
    | .ok (out, tail) => if tail ≠ [] then .error TTransportException.SIZE_LIMIT else .ok out
  else .ok payload

/-- The loop of `_parse_header_format`, 294-295 -/
def applyReadTransforms (z : Zlib) (max : Int) : List Int → Bytes → Except Exc Bytes
  | [], payload => .ok payload
  | id :: ids, payload =>
    match applyReadTransform z max id payload with
    | .error e => .error e
    | .ok p => applyReadTransforms z max ids p

/-- The property `protocol_id`, 154-166 -/
def protocolIdOf (s : St) : Except Exc Int :=
  if s.clientType = ClientType.HEADERS then .ok s.protocolId
  else if s.clientType = ClientType.FRAMED_BINARY ∨ s.clientType = ClientType.UNFRAMED_BINARY then
    .ok BINARY
  else if s.clientType = ClientType.FRAMED_COMPACT ∨ s.clientType = ClientType.UNFRAMED_COMPACT then
    .ok COMPACT
  else .error TTransportException.INVALID_CLIENT_TYPE

/-- `_set_client_type`, 185-191 -/
def setClientType (t : Int) (s : St) : Except Exc St :=
  if t ∈ s.allowed then .ok { s with clientType := t }
  else .error TTransportException.INVALID_CLIENT_TYPE

/-! ### Parsing a header frame

The `BytesIO` holding the frame is represented by its unread part; `tell()` is the length of the frame
minus the length of the unread part. -/

/-- `I32.unpack(buffer.read(4))`: the value and the unread part. -/
def takeI32 (b : Bytes) : Except Exc (Int × Bytes) :=
  if (b.take 4).length = 4 then .ok (unpackS (b.take 4), b.drop 4) else .error .structError

/-- `U16.unpack(buffer.read(2))` -/
def takeU16 (b : Bytes) : Except Exc (Int × Bytes) :=
  if (b.take 2).length = 2 then .ok (unpackU (b.take 2), b.drop 2) else .error .structError

/-- `readVarint(buffer_transport)` (`TCompactProtocol.py:75-86`, run over the memory buffer; the
compact protocol object in its state is not used). The last case does not happen: reading a varint
from memory ends (`Header.takeVarint_total`). -/
def takeVarint (b : Bytes) : Except Exc (Int × Bytes) :=
  match exec Compact.readVarint {} b with
  | some ((.ok n, _), b') => .ok (n, b')
  | some ((.error e, _), _) => .error e
  | none => .error .assertion

/-- `_readString`, 72-79: `read`, not `readAll`, so a string can be cut short by the end of the frame. -/
def takeString (b : Bytes) : Except Exc (Bytes × Bytes) :=
  match takeVarint b with
  | .error e => .error e
  | .ok (size, b) =>
    if size < 0 then .error TTransportException.NEGATIVE_SIZE
    else .ok (b.take size.toNat, b.drop size.toNat)

/-- The loop 267-274 over the transform ids -/
def takeTransforms : Nat → Bytes → Except Exc (List Int × Bytes)
  | 0, b => .ok ([], b)
  | n + 1, b =>
    match takeVarint b with
    | .error e => .error e
    | .ok (id, b) =>
      if id ≠ ZLIB then .error TApplicationException.INVALID_TRANSFORM
      else
        match takeTransforms n b with
        | .error e => .error e
        | .ok (ids, b) => .ok (id :: ids, b)

/-- The loop 282-285 over the pairs of a key/value block -/
def takePairs : Nat → Dict → Bytes → Except Exc (Dict × Bytes)
  | 0, d, b => .ok (d, b)
  | n + 1, d, b =>
    match takeString b with
    | .error e => .error e
    | .ok (k, b) =>
      match takeString b with
      | .error e => .error e
      | .ok (v, b) => takePairs n (d.put k v) b

/-- The loop 277-287 over the info blocks. `after` is the number of bytes of the frame behind the
header, so `buffer.tell() < end_of_headers` says that more than `after` bytes are unread. Without fuel
the loop does not end (`none`). -/
def takeInfos (after : Nat) : (fuel : Nat) → Dict → Bytes → Option (Except Exc Dict)
  | 0, _, _ => none
  | f + 1, d, b =>
    if b.length ≤ after then some (.ok d)
    else
      match takeVarint b with
      | .error e => some (.error e)
      | .ok (type, b) =>
        if type = KEY_VALUE then
          match takeVarint b with
          | .error e => some (.error e)
          | .ok (count, b) =>
            match takePairs count.toNat d b with
            | .error e => some (.error e)
            | .ok (d, b) => takeInfos after f d b
        else some (.ok d)

/-- `_parse_header_format`, 277-296: the info blocks and the payload. `b` is unread, `end_` is
`end_of_headers`, `ids` the transform ids in the order of the frame. -/
def parseRest (z : Zlib) (s : St) (frame b : Bytes) (end_ : Nat) (ids : List Int) :
    Option (Except Exc Bytes × St) :=
  match takeInfos (frame.length - end_) (b.length + 1) [] b with
  | none => none
  | some (.error e) => some (.error e, s)
  | some (.ok d) =>
    some (applyReadTransforms z s.maxDecomp ids.reverse (frame.drop end_), { s with readHeaders := d })

/-- `_parse_header_format`, 263-275: protocol id and transforms -/
def parseIds (z : Zlib) (s : St) (frame b : Bytes) (end_ : Nat) : Option (Except Exc Bytes × St) :=
  match takeVarint b with
  | .error e => some (.error e, s)
  | .ok (pid, b) =>
    let s := { s with protocolId := pid }
    match takeVarint b with
    | .error e => some (.error e, s)
    | .ok (count, b) =>
      match takeTransforms count.toNat b with
      | .error e => some (.error e, s)
      | .ok (ids, b) => parseRest z s frame b end_ ids

/-- `_parse_header_format`, 246-296: the payload or an exception, and the mutated transport object -/
def parseHeader (z : Zlib) (s : St) (frame : Bytes) : Option (Except Exc Bytes × St) :=
  match takeU16 (frame.drop 2) with
  | .error e => some (.error e, s)
  | .ok (flags, b) =>
    let s := { s with flags := flags }
    match takeI32 b with
    | .error e => some (.error e, s)
    | .ok (seq, b) =>
      let s := { s with sequenceId := seq }
      match takeU16 b with
      | .error e => some (.error e, s)
      | .ok (len, b) =>
        let end_ := (frame.length - b.length) + len.toNat * 4
        if end_ > frame.length then some (.error TTransportException.SIZE_LIMIT, s)
        else parseIds z s frame b end_

/-- `first_word[0] == PROTOCOL_ID and first_word[1] & VERSION_MASK == VERSION` -/
def looksCompact (word : Bytes) : Bool :=
  match word with
  | b0 :: b1 :: _ => decide ((b0.toNat : Int) = Compact.PROTOCOL_ID ∧
      pyAnd b1.toNat Compact.VERSION_MASK = Compact.VERSION)
  | _ => false

/-- `x & TBinaryProtocol.VERSION_MASK == TBinaryProtocol.VERSION_1` -/
def looksBinary (x : Int) : Bool := pyAnd x Binary.VERSION_MASK = Binary.VERSION_1

/-- `readFrame`, 227-244, for a frame that has been read -/
def openFrame (z : Zlib) (frame : Bytes) (s : St) : Option (Except Exc Unit × St) :=
  match takeI32 frame with
  | .error e => some (.error e, s)
  | .ok (version, _) =>
    if pyShr version 16 = HEADER_MAGIC then
      match setClientType ClientType.HEADERS s with
      | .error e => some (.error e, s)
      | .ok s =>
        match parseHeader z s frame with
        | none => none
        | some (.error e, s) => some (.error e, s)
        | some (.ok p, s) => some (.ok (), { s with rbuf := BytesIO.of p })
    else if looksBinary version then
      match setClientType ClientType.FRAMED_BINARY s with
      | .error e => some (.error e, s)
      | .ok s => some (.ok (), { s with rbuf := BytesIO.of frame })
    else if looksCompact (frame.take 4) then
      match setClientType ClientType.FRAMED_COMPACT s with
      | .error e => some (.error e, s)
      | .ok s => some (.ok (), { s with rbuf := BytesIO.of frame })
    else some (.error TTransportException.INVALID_CLIENT_TYPE, s)

/-- `openFrame` as a method; it does not use the underlying transport. -/
def openFrameP (z : Zlib) (frame : Bytes) : P St Unit := fun s =>
  match openFrame z frame s with
  | none => .diverge
  | some r => .ret r

/-- `_set_client_type` as a method -/
def setClientTypeP (t : Int) : P St Unit := fun s =>
  match setClientType t s with
  | .error e => .ret (.error e, s)
  | .ok s' => .ret (.ok (), s')

/-- `readFrame`, 207-214 -/
def startUnframed (req : Int) (first : Bytes) : P St Unit :=
  if req - 4 > 0 then do
    let rest ← P.transRead (req - 4).toNat
    P.modify fun s => { s with rbuf := BytesIO.of (first ++ rest) }
  else P.modify fun s => { s with rbuf := BytesIO.of first }

/-- `readFrame`, 216-222 -/
def readFramed (z : Zlib) (frameSize : Int) : P St Unit := do
  let s ← P.get
  if frameSize > s.maxFrame then P.raise TTransportException.SIZE_LIMIT
  else
    let data ← P.readAll frameSize
    openFrameP z data

/-- `readFrame(req_sz)`, 193-244 -/
def readFrame (z : Zlib) (req : Int) : P St Unit := do
  let first ← P.readAll 4
  if looksBinary (unpackS first) then
    setClientTypeP ClientType.UNFRAMED_BINARY
    startUnframed req first
  else if looksCompact first then
    setClientTypeP ClientType.UNFRAMED_COMPACT
    startUnframed req first
  else readFramed z (unpackS first)

/-- `read(sz)`, 168-183, for sizes that are not negative -/
def read (z : Zlib) (sz : Nat) : P St Bytes := do
  let s ← P.get
  let (got, rb) := s.rbuf.read sz
  P.set { s with rbuf := rb }
  if sz - got.length = 0 then pure got
  else if s.clientType = ClientType.UNFRAMED_BINARY ∨ s.clientType = ClientType.UNFRAMED_COMPACT then do
    let more ← P.transRead (sz - got.length)
    pure (got ++ more)
  else do
    readFrame z (sz - got.length : Nat)
    let s ← P.get
    let (more, rb) := s.rbuf.read (sz - got.length : Nat)
    P.set { s with rbuf := rb }
    pure (got ++ more)

/-! ### Writing -/

/-- `write`, 298-299 -/
def write (b : WArg) (s : St) : Except Exc Unit × St :=
  match b with
  | .bytes b => (.ok (), { s with wbuf := s.wbuf.write b })
  | .other => (.error .typeError, s)

/-- `flush`, 307-309: `WRITE_TRANSFORMS_BY_ID[id]` raises `KeyError` for an unknown id. -/
def applyWriteTransforms (z : Zlib) : List Int → Bytes → Except Exc Bytes
  | [], p => .ok p
  | id :: ids, p => if id = ZLIB then applyWriteTransforms z ids (z.compress p) else .error .keyError

/-- `_writeString`, 82-84 -/
def stringBytes (v : Bytes) : Bytes := Compact.varintBytes v.length ++ v

/-- `flush`, 311-325, for ids that are not negative: the header block with its padding -/
def headerBytes (pid : Int) (ids : List Int) (headers : Dict) : Bytes :=
  let h := Compact.varintBytes pid.toNat ++ Compact.varintBytes ids.length ++
    (ids.map fun id => Compact.varintBytes id.toNat).flatten ++
    (if headers = [] then [] else
      Compact.varintBytes KEY_VALUE.toNat ++ Compact.varintBytes headers.length ++
        (headers.map fun kv => stringBytes kv.1 ++ stringBytes kv.2).flatten)
  h ++ List.replicate ((4 - h.length % 4) % 4) 0

/-- `flush`, 327-333, given the results of the calls of `pack`; the first failure is raised. -/
def assemble (len magic flags seq hlen : Except Exc Bytes) (h payload : Bytes) : Except Exc Bytes :=
  match len, magic, flags, seq, hlen with
  | .ok a, .ok b, .ok c, .ok d, .ok e => .ok (a ++ b ++ c ++ d ++ e ++ h ++ payload)
  | .error x, _, _, _, _ => .error x
  | _, .error x, _, _, _ => .error x
  | _, _, .error x, _, _ => .error x
  | _, _, _, .error x, _ => .error x
  | _, _, _, _, .error x => .error x

/-- `flush`, 327-333 -/
def headerFrame (s : St) (h payload : Bytes) : Except Exc Bytes :=
  assemble (packS 4 (10 + h.length + payload.length : Nat)) (packU 2 HEADER_MAGIC) (packU 2 s.flags)
    (packS 4 s.sequenceId) (packU 2 (h.length / 4 : Nat)) h payload

/-- `flush`, 345-355 -/
def send {ω : Type} (k : Sink ω) (s : St) (frame : Bytes) (w : ω) : Except Exc Unit × ω :=
  if (frame.length : Int) - 4 > s.maxFrame then (.error TTransportException.SIZE_LIMIT, w)
  else k.writeFlush frame w

/-- `flush`, 345-355, given the frame or the exception raised while building it -/
def sendBuilt {ω : Type} (k : Sink ω) (s : St) (frame : Except Exc Bytes) (w : ω) :
    Except Exc Unit × St × ω :=
  match frame with
  | .error e => (.error e, s, w)
  | .ok f => let r := send k s f w; (r.1, s, r.2)

/-- `flush`, 301-355. -/
def flush {ω : Type} (z : Zlib) (k : Sink ω) (s : St) (w : ω) : Except Exc Unit × St × ω :=
  let payload := s.wbuf.value
  let s := { s with wbuf := BytesIO.of [] }
  if s.clientType = ClientType.HEADERS then
    match applyWriteTransforms z s.writeTransforms payload with
    | .error e => (.error e, s, w)
    | .ok payload =>
      -- `writeVarint` asserts that the protocol id is not negative
      if s.protocolId < 0 then (.error .assertion, s, w)
      else
        let h := headerBytes s.protocolId s.writeTransforms s.writeHeaders
        let s := { s with writeHeaders := [] }
        sendBuilt k s (headerFrame s h payload) w
  else if s.clientType = ClientType.FRAMED_BINARY ∨ s.clientType = ClientType.FRAMED_COMPACT then
    sendBuilt k s ((packS 4 payload.length).map (· ++ payload)) w
  else if s.clientType = ClientType.UNFRAMED_BINARY ∨ s.clientType = ClientType.UNFRAMED_COMPACT then
    sendBuilt k s (.ok payload) w
  else (.error TTransportException.INVALID_CLIENT_TYPE, s, w)

end Header
end Thrift
