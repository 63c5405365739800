#!/usr/bin/env python3
"""Writes /verif/properties.jsonl. Kept as a script so that the list is easy to review and extend."""
import json, os
P = "lib/py/src/protocol/"
T = "lib/py/src/transport/"
S = "lib/py/src/server/"
G = "compiler/cpp/src/thrift/generate/t_py_generator.cc"
props = []
def p(id, title, statement, quantifier, why, anchors):
    props.append(dict(id=id, title=title, statement=statement, quantifier=quantifier,
                      why_tests_cant=why, anchors=anchors))

p("C01", "Binary protocol scalars: exact layout and round-trip",
  "With TBinaryProtocol, writing a bool, byte, i16, i32, i64, double, binary, string or uuid appends exactly the documented bytes (big-endian two's complement, 1/0 for bool, 4-byte length prefix, 16 raw bytes), and reading them back from a transport holding those bytes followed by anything returns the same value and consumes exactly those bytes. An out-of-range integer raises and appends nothing.",
  "every scalar value (all integers, all bit patterns, all byte strings and all texts) and every trailing byte sequence",
  "2^64 values per type times unbounded strings and suffixes; tests sample a handful of boundaries.",
  [P+"TBinaryProtocol.py:writeByte..readUuid", P+"TProtocol.py:writeString,readString"])
p("C02", "Compact integers: zigzag varint round-trip, range check and length",
  "With TCompactProtocol, writing any in-range i16/i32/i64 appends the zigzag LEB128 encoding, which is the shortest one and at most 3/5/10 bytes long; reading it back returns the same integer and consumes exactly those bytes. Writing an out-of-range integer raises TProtocolException(INVALID_DATA) and appends nothing.",
  "every integer and every trailing byte sequence",
  "the whole 64-bit range (and beyond, for rejection) cannot be enumerated, and the carry chain across 7-bit groups is where errors hide.",
  [P+"TCompactProtocol.py:makeZigZag,fromZigZag,writeVarint,readVarint", P+"TProtocol.py:checkIntegerLimits"])
p("C03", "Varint reader is bounded on hostile input",
  "Reading a compact varint from any byte stream consumes at most 10 bytes and always ends: it returns a natural number below 2^70, or raises INVALID_DATA after exactly 10 continuation bytes, or reports end of stream. It returns the little-endian base-128 value of exactly the bytes consumed.",
  "every byte stream", "all byte streams, including adversarial non-canonical encodings.",
  [P+"TCompactProtocol.py:readVarint"])
p("C04", "Binary protocol: struct and container round-trip",
  "Serializing any well-typed value (structs with optional, defaulted, required, recursive fields; nested lists, sets, maps; every scalar type) with TBinaryProtocol and deserializing it with the same thrift_spec yields an equal value and consumes exactly the serialized bytes, whatever follows them.",
  "every schema, every well-typed value of any size and of nesting within the depth limit, every trailing byte sequence",
  "values are unbounded trees over unbounded schemas; only an induction covers them.",
  [P+"TProtocol.py:writeStruct,readStruct,readFieldByTType,writeFieldByTType", P+"TBinaryProtocol.py", G+":generate_py_struct_reader,generate_py_struct_writer"])
p("C05", "Compact protocol: struct and container round-trip",
  "The same round-trip holds with TCompactProtocol, including bool fields folded into the field header, bool container elements, field-id deltas (short and long form, ascending or not), nested structs that restart the delta base, and maps of size zero. The writer never raises AssertionError on a well-typed value, and the protocol object is back in the state it started from afterwards.",
  "every schema, every well-typed value of any size and nesting within the depth limit, every trailing byte sequence, every entry state of the protocol object that can hold a value",
  "the encoding of a field depends on the previous field and on a stack of saved contexts; the number of combinations is unbounded.",
  [P+"TCompactProtocol.py:TCompactProtocol", P+"TProtocol.py:writeStruct,readStruct"])
p("C06", "JSON protocol: struct and container round-trip",
  "The same round-trip holds with TJSONProtocol for every text (including quotes, backslashes, control characters and characters outside ASCII and outside the basic plane), every byte string (base64), every integer, numeric and string map keys, and every nesting of lists, sets, maps and structs. For doubles it holds when the formatting and parsing of floats are inverse; NaN and infinities do not survive.",
  "every schema, every well-typed value of any size, every trailing byte sequence",
  "unbounded texts and trees; the separators depend on a stack of contexts.",
  [P+"TJSONProtocol.py:TJSONProtocol,TJSONProtocolBase"])
p("C07", "Binary protocol emits the documented wire format",
  "The bytes appended by TBinaryProtocol for any well-typed value are exactly those that doc/specs/thrift-binary-protocol.md prescribes: field header type+id, stop byte, element type and count for lists and sets, key type, value type and count for maps; unset fields are absent.",
  "every schema and every well-typed value", "a reader and a writer can agree on a wrong format and pass all round-trip tests; conformity must be checked against an independent description for all values.",
  [P+"TBinaryProtocol.py", "doc/specs/thrift-binary-protocol.md", P+"TProtocol.py:writeStruct"])
p("C08", "Compact protocol emits the documented wire format",
  "The bytes appended by TCompactProtocol for any well-typed value are exactly those that doc/specs/thrift-compact-protocol.md prescribes.",
  "every schema and every well-typed value", "as C07, and the format is context dependent.",
  [P+"TCompactProtocol.py", "doc/specs/thrift-compact-protocol.md"])
p("C09", "JSON protocol emits well-formed JSON of the documented shape",
  "The text TJSONProtocol appends for any well-typed value is the rendering of one JSON value: commas and colons are placed exactly between siblings, every opened bracket is closed, strings are escaped and never contain a bare quote or backslash.",
  "every schema and every well-typed value", "well-formedness for all nestings is a grammar property.",
  [P+"TJSONProtocol.py:JSONBaseContext,JSONListContext,JSONPairContext,writeJSONString"])
p("C10", "Message envelope round-trip",
  "writeMessageBegin(name, type, seqid) followed by readMessageBegin returns the same name, type and seqid: for the binary protocol in strict and non-strict mode, for the compact protocol including negative seqids, and for JSON.",
  "every text name, every message type the wire can carry, every 32-bit seqid, every trailing byte sequence",
  "unbounded names and 2^32 seqids, with a sign conversion in the compact protocol.",
  [P+"TBinaryProtocol.py:writeMessageBegin,readMessageBegin", P+"TCompactProtocol.py:writeMessageBegin,readMessageBegin", P+"TJSONProtocol.py:writeMessageBegin,readMessageBegin"])
p("C11", "Messages of a foreign protocol or version are rejected",
  "readMessageBegin accepts a byte stream only if it starts with this protocol's identification: binary accepts a negative first word only when its upper 16 bits are 0x8001 and, with strictRead, rejects every non-negative first word; compact accepts only 0x82 followed by a byte whose low five bits are 1. Otherwise TProtocolException(BAD_VERSION) is raised.",
  "every byte stream of at least header length", "all 2^32 first words.",
  [P+"TBinaryProtocol.py:readMessageBegin", P+"TCompactProtocol.py:readMessageBegin"])
p("C12", "Length limits are enforced on every string and container",
  "If a string_length_limit (container_length_limit) is configured, no decode of any byte stream ever returns a string (container) longer than the limit, and a negative or oversized length raises TTransportException(NEGATIVE_SIZE or SIZE_LIMIT) before any of the announced contents is read.",
  "every byte stream, every limit, every type being read", "attacker-controlled lengths in every position of every structure.",
  [P+"TProtocol.py:_check_length", P+"TBinaryProtocol.py:readBinary,readMapBegin,readListBegin,readSetBegin,readMessageBegin", P+"TCompactProtocol.py:readCollectionBegin,readMapBegin,readBinary"])
p("C13", "skip consumes exactly one value",
  "skip(type) applied to the serialization of any value of that type (nesting at most 64) succeeds and consumes exactly the bytes that reading the value would have consumed, leaving the protocol object in the same state; this holds for the binary and the compact protocol.",
  "every schema, every value, every trailing byte sequence",
  "unbounded values; a one-byte error only shows in what follows.",
  [P+"TProtocol.py:skip"])
p("C14", "Forward compatibility: unknown fields do not disturb known ones",
  "Deserializing with an older schema data written with a newer one (additional fields anywhere, of any type and value) yields the same value as if the unknown fields had never been written; a field whose wire type differs from the schema is ignored in the same way.",
  "every pair of schemas, every value, every position and number of unknown fields",
  "all combinations of schema evolution are unbounded.",
  [P+"TProtocol.py:readStruct,skip", G+":generate_py_struct_reader"])
p("C15", "Nesting depth is bounded and the depth counter is balanced",
  "Generated read and write code refuses to nest more than 64 structs: deeper data raises TProtocolException(DEPTH_LIMIT). After any read or write call, whether it returned or raised and whatever the input, the protocol's recursion counter has the value it had before the call. skip refuses to descend more than 64 levels.",
  "every input, every failure point, every nesting", "every failure point inside every nested read must restore the counter.",
  [P+"TProtocol.py:increment_recursion_depth,decrement_recursion_depth,skip", G+":generate_py_struct_reader,generate_py_struct_writer"])
p("C16", "Decoding does not depend on how the transport fragments the stream",
  "For any decoder of the binary and compact protocols, running it over a transport that delivers a byte stream in arbitrary pieces (each read returns a non-empty piece no longer than requested) gives the same value or exception as running it over a memory buffer holding the whole stream, and leaves the same bytes unread.",
  "every byte stream, every fragmentation schedule, every sequence of decode calls",
  "network segmentation schedules are unbounded and nondeterministic.",
  [T+"TTransport.py:TTransportBase.readAll", P+"TBinaryProtocol.py", P+"TCompactProtocol.py"])
p("C17", "Truncated data never decodes",
  "If the transport ends anywhere strictly inside the serialization of a value, deserialization raises an end-of-file error; it never returns a value.",
  "every schema, every value, every truncation point", "every prefix of every encoding.",
  [T+"TTransport.py:readAll", P+"TBinaryProtocol.py", P+"TCompactProtocol.py"])
p("C18", "Decoding arbitrary bytes terminates with a value or a catalogued exception",
  "Reading any type from any finite byte stream with the binary or compact protocol terminates, and either returns a value or raises one of a fixed list of exceptions; it never reads more bytes than the stream holds and never needs more steps than a fixed function of the stream length and of the announced container sizes.",
  "every schema, every type, every byte stream", "hostile input space.",
  [P+"TProtocol.py:readStruct,skip", P+"TBinaryProtocol.py", P+"TCompactProtocol.py"])
p("C19", "Decoded values are well-typed",
  "Every value that a successful decode returns inhabits the declared type: integers lie in the range of their width, strings are valid text, containers have the declared element types.",
  "every schema, every byte stream", "input space; the compact protocol accepts wider varints than the declared width.",
  [P+"TCompactProtocol.py:readI16,readI32,readI64", P+"TBinaryProtocol.py"])
p("C20", "Unset and required fields",
  "A field whose attribute is None is not written and reads back as its declared default; generated write raises TProtocolException for an unset required field before any byte of the struct is written; generated read does not enforce required fields.",
  "every schema, every struct value", "all subsets of set fields over all schemas.",
  [G+":generate_py_struct_writer,generate_py_struct_required_validator", P+"TProtocol.py:writeStruct"])
p("C21", "readAll returns exactly the requested bytes or raises",
  "readAll(n) on a transport returns exactly the next n bytes of the stream, in order, or raises EOFError (or the transport's own exception) when fewer remain; it never returns a short buffer and never consumes more than n bytes, if the transport's read honours its size argument.",
  "every n, every stream, every fragmentation", "all partial-read schedules.",
  [T+"TTransport.py:TTransportBase.readAll"])
p("C22", "TBufferedTransport is transparent for reads",
  "The concatenation of the results of any sequence of positive-size read calls on a TBufferedTransport is a prefix of the underlying stream, nothing is lost, duplicated or reordered, a read never returns more than asked, and it returns empty only at the end of the underlying stream.",
  "every stream, fragmentation, buffer size and sequence of read sizes", "unbounded call sequences interleaved with arbitrary segmentation.",
  [T+"TTransport.py:TBufferedTransport.read,cstringio_refill"])
p("C23", "Buffered writes reach the peer exactly once, in order, at flush",
  "For TBufferedTransport, any sequence of writes and flushes delivers to the underlying transport, at each flush, exactly the bytes written since the previous flush attempt, once and in order; nothing is delivered before a flush; if the underlying write fails the pending bytes are dropped and never re-sent.",
  "every sequence of writes, flushes and failure points", "histories are unbounded.",
  [T+"TTransport.py:TBufferedTransport.write,flush"])
p("C24", "TFramedTransport: what is flushed is what the peer reads",
  "If one side performs any sequence of write batches each ended by flush, the other side's reads return the concatenation of the non-empty batches, each frame prefixed on the wire by its 4-byte big-endian length, independently of fragmentation and of the (positive) sizes of the read calls; one read never crosses a frame boundary.",
  "every sequence of batches below 2^31 bytes, every fragmentation, every sequence of positive read sizes", "histories and segmentations are unbounded.",
  [T+"TTransport.py:TFramedTransport"])
p("C25", "TMemoryBuffer behaves like a byte file",
  "Writing to an empty TMemoryBuffer and calling getvalue returns the concatenation of the writes; reading a TMemoryBuffer built from a value returns that value's bytes in order from the given offset; read at the end returns empty.",
  "every sequence of operations", "histories are unbounded.",
  [T+"TTransport.py:TMemoryBuffer"])
p("C26", "THeaderTransport frame round-trip",
  "A payload flushed by a THeaderTransport with any headers, any list of supported transforms, any flags, sequence id and protocol id is read back by a peer THeaderTransport as exactly the same payload, headers, flags, sequence id and protocol id; headers apply to one message only; the frame on the wire has the layout of doc/specs/HeaderFormat.md.",
  "every payload, every header map, every transform list, every flags, sequence id and protocol id within the field widths", "unbounded header maps and payloads.",
  [T+"THeaderTransport.py:flush,readFrame,_parse_header_format", "doc/specs/HeaderFormat.md"])
p("C27", "THeaderTransport accepts only permitted client types",
  "The client type a THeaderTransport detects is a function of the first two words of the stream; messages of a client type that is not in allowed_client_types raise TTransportException(INVALID_CLIENT_TYPE) and deliver no payload; framed and unframed binary, framed and unframed compact and header frames are each recognised as such.",
  "every byte stream, every set of allowed types", "all header words.",
  [T+"THeaderTransport.py:_set_client_type,readFrame"])
p("C28", "THeaderTransport size limits",
  "A frame larger than max_frame_size is refused before its body is read, and an outgoing message larger than max_frame_size is refused before anything is sent; with any chain of decompression transforms the payload delivered never exceeds max_decompressed_size.",
  "every stream, every limit, every chain of transforms", "decompression bombs and hostile lengths.",
  [T+"THeaderTransport.py:readFrame,flush,_apply_read_transform"])
p("C29", "Malformed header blocks cannot shift the payload",
  "Whatever the contents of a THeader header block, the payload handed to the protocol is exactly the part of the frame after the announced header length (after transforms), and no byte beyond the frame is consumed from the stream.",
  "every frame content", "hostile header blocks.",
  [T+"THeaderTransport.py:_parse_header_format"])
p("C30", "TZlibTransport round-trip and decompression limit",
  "Bytes written and flushed through a TZlibTransport are read back in order by a peer TZlibTransport; the total number of bytes a TZlibTransport with max_decompressed_size=N ever hands out is at most N; flush with nothing written is harmless; a read at the end of the compressed stream terminates.",
  "every history of writes, flushes and reads, every N", "unbounded histories; exact-boundary behaviour of the limit.",
  [T+"TZlibTransport.py:TZlibTransport"])
p("C31", "SASL transport negotiation and framing",
  "TSaslClientTransport.open returns only after the server announced COMPLETE and the local mechanism is complete; any other status raises; afterwards data written and flushed is delivered wrapped in one length-prefixed frame and read back in order.",
  "every sequence of server messages, every sequence of write batches", "all negotiation transcripts.",
  [T+"TTransport.py:TSaslClientTransport"])
p("C32", "TSocket.write sends every byte once or raises",
  "TSocket.write returns normally only if the socket accepted exactly the given bytes, in order, once; if it raises, the bytes accepted are a prefix.",
  "every buffer, every schedule of partial sends and errors", "partial-send schedules.",
  [T+"TSocket.py:TSocket.write"])
p("C33", "TSocket.open connects to the first reachable address and leaks no handle",
  "open tries the resolved addresses in order, ends open on the first that accepts, closes every socket it created that failed to connect, and raises NOT_OPEN with the transport closed if none accepts; on an open transport it raises ALREADY_OPEN and changes nothing.",
  "every list of addresses and connection outcomes", "outcome combinations.",
  [T+"TSocket.py:TSocket.open"])
p("C34", "Multiplexed calls reach the intended service under their original name",
  "A call made through TMultiplexedProtocol(service) is dispatched by TMultiplexedProcessor to the processor registered under that service name, which sees the original method name, message type, seqid and arguments; an unregistered service raises and no processor runs; names without separator go to the default processor if there is one.",
  "every service name without separator, every method name, every registry", "unbounded names and registries.",
  ["lib/py/src/TMultiplexedProcessor.py:process", P+"TMultiplexedProtocol.py:writeMessageBegin"])
p("C35", "Generated processor: exactly one reply per call, none for oneway",
  "For every request and every handler behaviour (return of a value of the declared type, declared exception, TApplicationException, other exception), process writes exactly one message for a two-way call, carrying the request's seqid and the method name and the right message type, and writes nothing for a oneway call; a TTransportException of the handler passes through and nothing is written; an unknown method is answered with UNKNOWN_METHOD after its arguments were skipped.",
  "every service, every request, every handler outcome", "all handlers.",
  [G+":generate_service_server,generate_process_function"])
p("C36", "Generated client decodes every reply correctly",
  "recv of a reply returns the result if success is set, raises the declared exception that is set, raises the TApplicationException carried by an EXCEPTION message, raises MISSING_RESULT for an empty non-void reply and returns for an empty void reply.",
  "every reply", "all replies.",
  [G+":generate_service_client"])
p("C37", "End-to-end call",
  "A call through a generated client, the binary or compact protocol, a framed transport and a generated processor returns exactly what the handler returned, or raises the declared exception the handler raised; the handler is invoked exactly once with equal arguments.",
  "every method signature, every well-typed argument list and result", "composition over all values.",
  [G, P+"TBinaryProtocol.py", T+"TTransport.py:TFramedTransport"])
p("C38", "TApplicationException round-trip",
  "TApplicationException.write followed by read restores type and message, for every message text and type, and read ignores unknown fields.",
  "every message and type", "unbounded texts.",
  ["lib/py/src/Thrift.py:TApplicationException.read,write"])
p("C39", "Nonblocking server: frames are recovered whatever the segmentation",
  "The sequence of messages a TNonblockingServer connection hands to its processor is exactly the sequence of frames in the client's byte stream, in order and unmodified, whatever the segmentation of recv.",
  "every byte stream, every segmentation", "segmentation schedules.",
  [S+"TNonblockingServer.py:Connection.read"])
p("C40", "Nonblocking server: connection state machine",
  "Under every schedule of socket events and worker completions, a connection processes at most one request at a time, sends each two-way response exactly once, framed, in request order and before the next request is processed, and never sends after it was closed.",
  "every interleaving of events", "schedules.",
  [S+"TNonblockingServer.py:Connection,TNonblockingServer.handle"])
p("C41", "Nonblocking server keeps serving",
  "No client input can stop the server: after any client bytes the select loop still reaches the multiplexer wait and still reads from other ready connections.",
  "every byte stream and segmentation from one client", "liveness over all inputs.",
  [S+"TNonblockingServer.py:_select,_poll_select,handle,Connection.read"])
p("C42", "Thread pool, threaded, forking and simple servers serve every accepted connection once and isolate failures",
  "Every accepted connection is served by exactly one worker, its transports are closed whatever the processor does, and an exception while serving one connection does not prevent the following connections from being served.",
  "every sequence of connections and failures", "failure histories.",
  [S+"TServer.py"])
p("C43", "Tornado stream lock: mutual exclusion, FIFO order and no lost wake-up",
  "At any time at most one holder is inside the lock, waiters are admitted in arrival order, and once every earlier holder has released, a waiter is admitted.",
  "every sequence of acquire and release operations", "histories.",
  ["lib/py/src/TTornado.py:_Lock"])
p("C44", "Twisted client: each reply resolves its own request once",
  "Every reply resolves the deferred registered under its seqid and no other; no deferred is resolved twice; when the connection is lost every outstanding deferred fails, exactly once.",
  "every sequence of calls, replies and connection loss", "histories.",
  [T+"TTwisted.py:ThriftClientProtocol"])
p("C45", "HTTP client request/response buffering",
  "Each flush of THttpClient sends one POST whose body is exactly what was written since the previous flush and whose Content-Length matches it; reads return the response body.",
  "every history of writes, flushes and reads", "histories.",
  [T+"THttpClient.py:THttpClient"])
p("C46", "Equal frozen dictionaries have equal hashes",
  "Two TFrozenDict built from the same key-value pairs in any order compare equal and have the same hash.",
  "every set of pairs, every insertion order", "permutations.",
  ["lib/py/src/Thrift.py:TFrozenDict"])
p("C47", "Recursive specs are fully resolved",
  "After fix_spec, every struct reference reachable in any thrift_spec (through lists, sets and maps nested at any depth) is replaced by the class together with its spec, and nothing else changes; running it again changes nothing.",
  "every collection of specs", "unbounded nesting and mutual recursion.",
  ["lib/py/src/TRecursive.py:fix_spec"])
p("C48", "Accelerated encoder produces the same bytes as the Python encoder",
  "For every well-typed value, the C extension's encode_binary (encode_compact) returns the same bytes that TBinaryProtocol (TCompactProtocol) would write.",
  "every schema, every value", "two implementations, unbounded values.",
  ["lib/py/src/ext/protocol.tcc:encodeValue", "lib/py/src/ext/binary.h", "lib/py/src/ext/compact.h"])
p("C49", "Accelerated decoder agrees with the Python decoder",
  "For every byte stream, the C extension's decoder and the Python decoder either both fail or both return equal values.",
  "every schema, every byte stream", "two implementations, hostile inputs.",
  ["lib/py/src/ext/protocol.tcc:decodeValue,skip,readStruct", P+"TProtocol.py"])
p("C50", "SSL peer verification cannot be bypassed",
  "With a verifying configuration, TSSLSocket.open returns normally only if the validate callback accepted the peer certificate for the host name in use; the legacy callback accepts a certificate only if its first commonName equals the host name.",
  "every certificate, every configuration", "certificate shapes.",
  [T+"TSSLSocket.py", T+"sslcompat.py:legacy_validate_callback"])
p("C51", "A failed call does not corrupt the next one",
  "If serializing the arguments of a call raises, a following call on the same client, protocol and transport is transmitted as if the failed one had not happened.",
  "every failing value, every failure point, every following call", "failure points.",
  [T+"TTransport.py:TFramedTransport,TBufferedTransport", P+"TCompactProtocol.py", G+":generate_service_client"])
p("C52", "Serialization helpers are inverse",
  "TSerialization.deserialize(base, serialize(x)) equals x for every well-typed x, with the default binary factory and with the compact factory.",
  "every value", "unbounded values.",
  ["lib/py/src/TSerialization.py:serialize,deserialize"])
p("C53", "Repeated set elements and map keys",
  "Reading a set or map whose encoding repeats an element or key (in the sense of Python equality: equal zeros, NaN different from itself) keeps the first occurrence and, for maps, the last value given to the key.",
  "every schema, every sequence of elements or pairs", "unbounded sequences, doubles with unusual equality.",
  [P+"TProtocol.py:readContainerSet,readContainerMap", G+":generate_deserialize_container"])
p("C54", "TSocket reports the end of the stream and never steals data",
  "TSocket.read returns only non-empty data as received and raises END_OF_FILE or TIMED_OUT otherwise; isOpen does not consume data, restores the timeout, and closes the handle exactly when it answers False.",
  "every outcome of recv", "timing and error codes of the operating system.",
  [T+"TSocket.py:read,isOpen"])
p("C55", "TZlibTransport statistics",
  "getCompSavings reports, for each direction, the number of uncompressed bytes minus the number of compressed bytes; getCompRatio reports compressed over uncompressed, and None if nothing was transferred in that direction.",
  "every history of writes, flushes and reads", "the values depend on the whole history and on the compressor.",
  [T+"TZlibTransport.py:getCompRatio,getCompSavings,readComp,flush"])
p("C56", "Tornado transport: frames in the order of the calls",
  "However many readFrame calls run on one TTornadoStreamTransport, the n-th call returns the n-th frame of the stream, they end in order, no read is started while another is pending, and a failed read ends only its own call; each flush gives the stream one frame with exactly what was written since the previous flush.",
  "every interleaving of calls, resumptions, answers and failures of the stream", "schedules of the event loop.",
  ["lib/py/src/TTornado.py:TTornadoStreamTransport.readFrame,flush,_Lock"])
p("C57", "A TFrozenDict does not change",
  "Once built, a TFrozenDict keeps its items and its hash, whatever methods are called on it.",
  "every method of dict, every content", "every method of the base class.",
  ["lib/py/src/Thrift.py:TFrozenDict"])
p("C58", "The thrift_spec describes every field",
  "The thrift_spec that the compiler writes for a struct has, at the index that is the id of a field, the entry of that field (id, type, name, type arguments, default), for every field, and None at every other index.",
  "every struct, every type of a field", "unbounded structs and types.",
  [G+":generate_py_thrift_spec,type_to_spec_args"])
p("C59", "Tornado client: each reply resolves its own request once",
  "Every reply resolves the future of the call with its seqid and no other; no future is resolved twice; when reading from the connection fails every outstanding future fails; the client goes on receiving whatever the peer sends and whatever calls the application cancels.",
  "every sequence of calls, cancellations, frames and failures", "histories.",
  [G+":generate_service_client", "lib/py/src/TTornado.py:TTornadoStreamTransport"])
p("C60", "Generated methods find each other by name",
  "For every function of a service the generated client has a callable method that uses the send and receive helpers of the same function, a reply is read by the helper of the function it names, the processor dispatches a message to the method of the function it names, and no generated identifier is a reserved word of Python.",
  "every service, every set of function names, every kind of generated code", "unbounded sets of names.",
  [G+":maybe_escape_identifier,generate_service_client,generate_service_server"])
p("C61", "SSL options mean what they say",
  "cert_reqs decides whether the certificate of the peer is verified: with CERT_NONE any peer is accepted and ca_certs is not needed, with the other values a peer without a trusted certificate for the host name is refused; a TSSLServerSocket with a certificate and otherwise default options accepts clients.",
  "for all option values, host names, certificates, histories of open and close, and address lists",
  "The outcome depends on the interplay of option defaults, the state of a fresh SSLContext, the order of assignments, the Python version and the peer; tests connect with a handful of certificates on one Python version.",
  [T + "TSSLSocket.py:122-190", T + "TSSLSocket.py:330-414", T + "sslcompat.py:67-108"])
p("C62", "A TSSLSocket whose open raised is closed",
  "After TSSLSocket.open has raised, the object is not open, no connection is left behind, and is_valid is false.",
  "for all configurations, earlier calls, addresses and ways in which connecting, the handshake or the validate callback fails",
  "Each point of failure leaves the object in a different state, and what a previous open left is still there; a test looks at one failure on a fresh object.",
  [T + "TSSLSocket.py:275-316", T + "TSocket.py:127-157"])

p("C63", "JSON: a truncated document never decodes",
  "If the transport ends anywhere strictly inside the document that TJSONProtocol writes for a value or a message, reading it raises an exception; it never returns a value and it always ends. Bytes behind a complete document are left alone and do not influence the result.",
  "every schema, every value, every truncation point, every trailing byte sequence", "every cut of every document; a reader that looks one character ahead can depend on what stands behind a value.",
  [P+"TJSONProtocol.py:LookaheadReader,readJSONString,readJSONNumericChars"])
p("C64", "JSON: decoding does not depend on fragmentation",
  "Running a decoder of TJSONProtocol over a transport that delivers a byte stream in arbitrary non-empty pieces gives the same value as running it over a memory buffer holding the whole stream.",
  "every document, every fragmentation schedule", "schedules.",
  [P+"TJSONProtocol.py:LookaheadReader,readJSONString"])
p("C65", "JSON: with a length limit every input ends",
  "With a string_length_limit of l >= 0, reading or skipping a value, or reading a whole message, with TJSONProtocol from any finite input ends: it returns or raises TypeError, ValueError, UnicodeDecodeError, KeyError, TTransportException(SIZE_LIMIT) or TProtocolException(INVALID_DATA, DEPTH_LIMIT, for a message also BAD_VERSION). It calls trans.read at most once per byte consumed and l + 3 times more, and never reads past what it was given.",
  "every byte sequence, every schema and type, every limit", "all byte strings; a number that is never terminated is polled until the limit is reached.",
  [P+"TJSONProtocol.py:LookaheadReader,readJSONString,readJSONNumericChars,readJSONSyntaxChar"])
p("C67", "JSON: what string_length_limit limits",
  "With string_length_limit set, TJSONProtocol reads back exactly those texts, byte strings and integers whose written form is not longer than the limit and raises TTransportException(SIZE_LIMIT) for the others; the written form is what stands between the quotation marks (with escapes, in UTF-8 or base64), or the digits and sign of an integer.",
  "every limit, every text, every byte string, every integer", "unbounded lengths, boundary cases with escapes.",
  [P+"TJSONProtocol.py:_check_string_length uses in readJSONString,readJSONNumericChars,readJSONBase64"])

p("C68", "JSON: every spelling of a string is read as RFC 8259 defines it",
  "A peer may write the characters of a string as they are, with two-character escapes (including \\/), with \\u escapes in upper or lower case, or as surrogate pairs; readString returns the text that RFC 8259 says the spelling stands for and consumes exactly the string, on its own and as element of a list. A UUID with another number of digits than 32 raises ValueError.",
  "every text, every spelling of each of its characters, every transport that answers reads in one piece while it has enough", "unboundedly many spellings; the library's own writer produces only one of them.",
  [P+"TJSONProtocol.py:readJSONString,ESCAPE_CHARS,readUuid"])

p("C66", "TSimpleJSONProtocol writes plain JSON with field names",
  "TSimpleJSONProtocol writes every value as one RFC 8259 text: a struct is an object with the names of the fields that are set, in id order, lists and sets are arrays, maps are objects with the text of the key as name; no object has two members of the same name; a message is just its struct.",
  "all schemas, all well-typed values, both kinds of generated code", "unboundedly many value trees; separators, quoting of numbers in key position and the context stack interact with nesting.",
  [P+"TJSONProtocol.py:TSimpleJSONProtocol,JSONPairContext,writeJSONNumber"])

p("C69", "Default values belong to the instance",
  "Changing the default value of one struct instance in place (for example point.tags.append(x)) is not seen in any other instance: every instance created without a value for a member shows the default declared in the IDL, whatever the program did before with other instances.",
  "every IDL program (structs, nested defaults, several modules), every sequence of constructions, reads and in-place changes", "a property of aliasing over all histories; tests look at one fresh instance.",
  ["compiler/cpp/src/thrift/generate/t_py_generator.cc:generate_py_struct_definition,declare_argument,generate_py_thrift_spec"])
p("C70", "Generated modules import, and new instances have the declared defaults",
  "For every IDL program that the compiler accepts, the generated ttypes.py modules can be imported, and an instance created without arguments can be created and has for every member the default declared in the IDL, or None.",
  "every IDL program: all struct definitions, all (nested) default values, all orders and modules", "all programs; depends on the order in which classes, default arguments and thrift_specs are evaluated.",
  ["compiler/cpp/src/thrift/generate/t_py_generator.cc:generate_py_struct_definition,render_const_value,generate_py_thrift_spec", "compiler/cpp/src/thrift/generate/t_generator.cc:generate_program"])
p("C71", "What the format cannot represent is refused",
  "If writing a struct or any other value succeeds (no exception), then everything in it can be represented in the declared types: every integer, at any depth, is in the range of its type, every string is encodable, every length is below 2^31, and (generated code) every required field is set. No value is silently truncated or wrapped.",
  "every schema, every value of any size and nesting, every state of the protocol object; binary, compact, JSON, the C extension", "the property is about all values outside of the domain, at every position in a nested value; tests try a few integers at top level.",
  ["lib/py/src/protocol/TBinaryProtocol.py:writeByte..writeBinary", "lib/py/src/protocol/TCompactProtocol.py:makeZigZag,__writeSize", "lib/py/src/protocol/TJSONProtocol.py:writeByte..writeI64", "lib/py/src/ext/protocol.tcc:parse_pyint,check_ssize_t_32,encodeValue"])
p("C72", "Names in the IDL do not interfere with the generated code",
  "Whatever members, parameters and declared exceptions are called (any names that the compiler accepts): reading an immutable struct or exception gives every member the value sent for it or its default; a client method sends the values it was called with; and when the handler raises a declared exception, the processor replies with that exception under its field id.",
  "every struct, function signature and list of declared exceptions; every sequence of fields on the wire; blocking, Twisted and Tornado code", "a property of all names; tests compile IDL files with a few fixed names.",
  ["compiler/cpp/src/thrift/generate/t_py_generator.cc:generate_py_struct_reader,generate_service_client,generate_process_function,generate_py_function_helpers", "compiler/cpp/src/thrift/parse/t_struct.h:append"])

p("C73", "The members of generated classes work whatever they are called",
  "Whatever the members of a struct or exception are called (any names that the compiler accepts): the class can be defined; an instance can be built with keyword arguments and then has these values as attributes; write sends exactly the members that are set, in the order of thrift_spec; read gives every member the value received last for it or None; the C extension does the same as the Python code; all this with and without the options slots and immutable.",
  "every list of member names, every class option, all values, every sequence of fields received", "a property of all names and combinations of options; tests compile IDL files with a few fixed names.",
  ["compiler/cpp/src/thrift/generate/t_py_generator.cc:generate_py_struct_definition,generate_py_struct_reader,generate_py_struct_writer", "lib/py/src/ext/protocol.tcc:encodeValue,readStruct"])
p("C74", "Instances of immutable classes do not change; equality and hash agree",
  "After any sequence of attribute assignments and deletions an instance of an immutable struct or exception has the members it was built with, and each attempt on a member raises TypeError, while attributes that are not members (such as __traceback__) can be set as on any exception. Two instances are equal exactly if they are of the same class and all their members are equal; equal instances of immutable classes have equal hashes; instances of mutable classes are not hashable.",
  "every class, every sequence of operations, all values, every equality and hash of values that agree", "sequences of operations of any length and all pairs of instances.",
  ["compiler/cpp/src/thrift/generate/t_py_generator.cc:generate_py_struct_definition"])
p("C75", "The Twisted server answers every request once",
  "Whatever requests arrive on a connection and in whatever order the handlers (which may return a Deferred) finish: every handler is called once for its request, with the arguments sent; every request of a two-way function gets exactly one reply, with its name and sequence id and what its own handler did, and oneway requests get none (an HTTP request gets an empty response); what is sent for a request does not depend on the others; an unknown function is answered with a TApplicationException; if a handler raises TTransportException the connection is closed. A result that cannot be written never reaches the client as a value. Every HTTP request gets a response.",
  "every history of frames (any bytes) and of handlers that finish, any number of requests in flight", "all interleavings of requests and completions; all results that cannot be serialized.",
  ["lib/py/src/transport/TTwisted.py:ThriftServerProtocol,ThriftResource", "compiler/cpp/src/thrift/generate/t_py_generator.cc:generate_service_server,generate_process_function"])
p("C76", "The Tornado server serves a connection one request at a time",
  "Whatever arrives on a connection and whatever the handlers do: at most one handler runs at a time; every frame gets at most one reply and none before its handler is done; only whole messages in frames are sent; every request of a two-way function is answered with its name, its sequence id and what its handler did, oneway requests get no reply, unknown functions are answered with a TApplicationException, each before the next frame is read. If a request cannot be answered (TTransportException, a result that cannot be written, a frame that cannot be read) the connection is closed and nothing follows. A client never waits for ever for an answer that the server has given up.",
  "every history of frames (any bytes), failures of reading and writing, and outcomes of handlers", "conversations of any length with every kind of failure in every place.",
  ["lib/py/src/TTornado.py:TTornadoServer.handle_stream,TTornadoStreamTransport.flush", "compiler/cpp/src/thrift/generate/t_py_generator.cc:generate_service_server,generate_process_function"])

p("C77", "String and binary constants have in Python the value they have in the IDL",
  "For every string constant or default of an IDL file in UTF-8, however it is spelled (either kind of quotes, all escapes), the literal in the generated module has exactly that text as its value in Python and ends where it should, so that the code after it is not changed; for every constant of type binary the literal has exactly the bytes of the IDL.",
  "every value: all characters, quotes, backslashes, control characters and non-ASCII text; every code around it", "all texts: escaping by the compiler has to be undone exactly by two other lexers.",
  ["compiler/cpp/src/thrift/thriftl.ll:literal_begin", "compiler/cpp/src/thrift/generate/t_generator.cc:escape_string", "compiler/cpp/src/thrift/generate/t_py_generator.cc:render_const_value"])

p("C78", "Comments of the IDL do not change the generated code",
  "For every documentation comment of the IDL the generated module is valid Python, the comment is found in it as one string literal with the lines of the comment in it, and the code after it is what it would be without the comment.",
  "every comment: all characters, any number and length of lines, any indentation", "all comments: depends on how arbitrary text is read inside a Python literal.",
  ["compiler/cpp/src/thrift/generate/t_generator.cc:generate_docstring_comment", "compiler/cpp/src/thrift/generate/t_py_generator.cc:generate_python_docstring"])

p("C79", "Numeric and boolean constants have in Python the value they have in the IDL",
  "Every integer constant of 64 bits, in decimal or hexadecimal notation, is in the generated module the integer that was written, larger ones are refused by the compiler; true and false, 1 and 0 are True and False, and no other number is accepted for a bool; every double constant is in Python the number of type double nearest to what was written in the IDL.",
  "all integers and all numbers of type double", "2^64 values; rounding when the compiler writes the number and when Python reads it.",
  ["compiler/cpp/src/thrift/thriftl.ll:intconstant,hexconstant,dubconstant", "compiler/cpp/src/thrift/generate/t_generator.h:emit_double_as_string", "compiler/cpp/src/thrift/generate/t_py_generator.cc:render_const_value"])

p("C80", "A constant that refers to other constants has their values",
  "For every sequence of constant declarations that is correctly typed, with nested lists, sets, maps and structs, enum values by name or number, and references to constants declared before, the compiler accepts the declarations and every constant in the generated module has the value that follows from them; declarations that are not correctly typed are refused.",
  "every program: any number of constants, types and values of any depth", "all programs; the compiler represents values by objects whose kind changes while references are resolved.",
  ["compiler/cpp/src/thrift/parse/t_scope.h:resolve_const_value", "compiler/cpp/src/thrift/parse/t_const_value.h", "compiler/cpp/src/thrift/main.cc:validate_const_rec", "compiler/cpp/src/thrift/generate/t_py_generator.cc:render_const_value"])

p("C81", "The class of an enum has the names and values of the IDL",
  "For every enum the compiler assigns the values that the IDL gives (given ones, else one more than the name before, the first 0) and refuses those that do not fit into 32 bits and names that occur twice; the generated module can be imported; every name is an attribute of the class with its value; _NAMES_TO_VALUES contains exactly the names with their values, _VALUES_TO_NAMES exactly the values, each with a name that has it.",
  "every enum: any number of names, any names and values", "all names, in particular reserved and private ones, and all sequences of given and implicit values.",
  ["compiler/cpp/src/thrift/thrifty.yy:EnumDefList,EnumValue", "compiler/cpp/src/thrift/generate/t_py_generator.cc:generate_enum", "compiler/cpp/src/thrift/parse/t_scope.h:add_constant"])

p("C82", "With the option enum, enums are members of their classes on both sides of the wire",
  "With the option enum of the generator every value of a declared type, with enums at any depth, is written and read as an equal value by the Python and by the accelerated protocols, for mutable and immutable structs; numbers that are assigned in place of members become the members; and numbers that the reader does not know do not prevent it from reading the rest.",
  "all schemas and values: structs, lists, maps nested to any depth", "all schemas and positions of enums, and the combinations of immutable structs, typedefs and the C extension.",
  ["compiler/cpp/src/thrift/generate/t_py_generator.cc:generate_py_struct_definition,generate_deserialize_field,generate_serialize_field", "lib/py/src/ext/protocol.tcc:readStruct"])

p("C83", "THttpServer sends exactly one right response to each request",
  "A call through a generated client over THttpClient to a THttpServer calls the handler once with equal arguments and gives the client the answer to what the handler did; oneway messages are answered before the handler is called, and not again; a handler that raises ResponseException determines the response; a request whose body is shorter than a message is answered or refused; and each request gets exactly one response, with any server_class.",
  "all services, handlers, arguments, request bodies, formats of client and server, and interleavings of any number of requests", "all schedules of concurrent requests, and requests that never end.",
  ["lib/py/src/server/THttpServer.py:THttpServer", "lib/py/src/transport/THttpClient.py:THttpClient.flush", "lib/py/src/transport/TTransport.py:TFileObjectTransport.read"])

p("C84", "THeaderProtocol answers every peer in its own dialect",
  "A server with THeaderProtocol answers a call with one message in the dialect (headers, framed, unframed) and the protocol (binary, compact) of the request and with its sequence id, calls the handler once with equal arguments, and leaves what follows the request for the next one; with a client that uses THeaderProtocol the client gets the answer to what the handler did, and each side gets the headers that the other had set, once; a message with an unknown protocol id or transform is answered with an exception.",
  "all services, handlers, arguments, headers, transforms, dialects and protocols, all sequences of messages on a connection, and all ways of the transport to split the bytes", "all combinations of dialects, headers and fragmentation, and messages that follow each other.",
  ["lib/py/src/protocol/THeaderProtocol.py:THeaderProtocol", "lib/py/src/transport/THeaderTransport.py:THeaderTransport"])

p("C85", "Declarations of structs and services mean what they say",
  "The compiler accepts a struct, union, exception or service if and only if names and numbers of fields (and names of functions) are distinct and the rules of the IDL are kept; each generated class has exactly the declared fields, with the numbers that are written; the order of the declarations does not change what is sent, nor does adding a field with a new number change the others; the generated result class of a function has the result as field 0 and one field for each declared exception; and a call through the generated client and processor of an accepted service returns or raises what the handler did.",
  "all declarations of structs, unions, exceptions and services, of any size, all options -strict and -allow-neg-keys, all calls", "all combinations of numbers, omitted numbers, names and orders of fields, and all calls of the services that are accepted.",
  ["compiler/cpp/src/thrift/thrifty.yy:FieldIdentifier", "compiler/cpp/src/thrift/parse/t_struct.h:t_struct::append", "compiler/cpp/src/thrift/parse/t_function.h:t_function", "compiler/cpp/src/thrift/generate/t_py_generator.cc:generate_py_function_helpers"])

p("C86", "Client and server may be of different versions",
  "A client and a server that were generated from different versions of a service (fields and exceptions added or removed, none given another type) understand each other: the handler runs once, with every argument that both versions have as it was sent and with the defaults for those the client does not know; the client returns or raises what the handler did, with every field that both versions have as it was sent; an exception that the client does not know makes the call fail.",
  "all pairs of versions of a service, all arguments, all outcomes of handlers, all protocols that are modelled, all ways the network cuts the messages", "all pairs of versions and all calls between them.",
  ["compiler/cpp/src/thrift/generate/t_py_generator.cc:generate_service_client", "compiler/cpp/src/thrift/generate/t_py_generator.cc:generate_process_function", "lib/py/src/Thrift.py:TProcessor"])

p("C87", "A change that passes `thrift --audit` does not break clients",
  "If `thrift --audit old.thrift new.thrift` reports no failure, then every field, exception and function of the old program is still there in the new one with the same meaning, what was added is not required, and clients generated from the old program can call servers generated from the new one: the handler gets the arguments that were sent, and the caller is told what the handler did. The audit reports a failure exactly for removed or retyped fields, changed requiredness, fields added in between or as required, removed structs, functions, services or enum values, and changed results, oneway flags or inheritance.",
  "all pairs of programs that the compiler accepts, all functions, all arguments, all outcomes of handlers", "all pairs of programs and all calls between code generated from them; tests have a list of single changes.",
  ["compiler/cpp/src/thrift/audit/t_audit.cpp:compare_single_struct", "compiler/cpp/src/thrift/audit/t_audit.cpp:compare_type", "compiler/cpp/src/thrift/audit/t_audit.cpp:compare_functions", "compiler/cpp/src/thrift/audit/t_audit.cpp:compare_services", "compiler/cpp/src/thrift/main.cc:audit"])

p("C88", "A service offers what the service it extends offers",
  "The processor of a service that extends others answers exactly the functions that the service declares and those of all services it extends, directly or not; no function hides an inherited one, so that a client of an extended service can use a server of the extending one.",
  "all programs that the compiler accepts, inheritance of any depth, all functions", "inheritance of any depth and all sets of functions.",
  ["compiler/cpp/src/thrift/generate/t_py_generator.cc:generate_service_server", "compiler/cpp/src/thrift/parse/t_service.h:validate_unique_members", "compiler/cpp/src/thrift/thrifty.yy:Service"])

p("C89", "A server socket takes over only what is dead",
  "TServerSocket.listen on a Unix socket path removes the socket that an ended server has left there, and nothing else: if another server listens on the path, or something that is not a socket is there, it raises and changes nothing. A server whose listen has returned is the one that clients of the path get to until it is closed. Without host, a server is reached at all addresses of the machine, of both families; with a host, a client that is given the same host gets to the server.",
  "all contents of the file system, any number of servers and other programs, all interleavings of their system calls, all lists of addresses", "all interleavings of servers that start at the same time, and all states of the file system.",
  ["lib/py/src/transport/TSocket.py:TServerSocket", "lib/py/src/transport/TSocket.py:TServerSocket.listen", "lib/py/src/transport/TSocket.py:TSocketBase"])

p("C90", "Calls are the same over every protocol and every transport",
  "What a generated client and processor do in a call does not depend on the protocol: over TBinaryProtocol, TCompactProtocol and TJSONProtocol, also with requests in one and replies in another, and over every transport that delivers what was sent, in pieces of any size, the handler runs once with the arguments that were given (as the server's version of the interface reads them), the caller is told what the handler did (as the client's version reads it), each side consumes exactly one message and leaves what follows it, a oneway call is not answered, and an unknown method is answered with UNKNOWN_METHOD.",
  "all schemas of both versions, functions, arguments, handlers, outcomes, protocols that write and read messages, transports and cuts into pieces", "the JSON reader takes the message from the transport byte by byte with look-ahead; tests use whole messages in memory.",
  ["lib/py/src/protocol/TJSONProtocol.py:TJSONProtocol", "lib/py/src/protocol/TJSONProtocol.py:TJSONProtocolBase", "compiler/cpp/src/thrift/generate/t_py_generator.cc:generate_process_function", "compiler/cpp/src/thrift/generate/t_py_generator.cc:generate_service_client"])

p("C91", "The accelerated decoder takes from a transport what it needs and loses nothing",
  "The decoder of the C extension, which reads the transport's buffer directly and asks for refills (CReadableTransport), gives over every transport that has this interface, however the bytes arrive and wherever frames begin and end, the value or exception that it gives over a buffer with all the bytes, and what follows the value is still to come from the transport, for the extension and for the Python code.",
  "all bytes, schemas and values, all states of the transports, all ways of the transport below to split the bytes, all divisions into frames", "the refill functions run only when a request crosses the end of the buffer; whether data is lost depends on the sizes of pieces and frames.",
  ["lib/py/src/transport/TTransport.py:CReadableTransport", "lib/py/src/transport/TTransport.py:TBufferedTransport.cstringio_refill", "lib/py/src/transport/TTransport.py:TFramedTransport.cstringio_refill", "lib/py/src/transport/TTransport.py:TSaslClientTransport.cstringio_refill", "lib/py/src/transport/TZlibTransport.py:TZlibTransport.cstringio_refill", "lib/py/src/transport/THeaderTransport.py:THeaderTransport.cstringio_refill", "lib/py/src/ext/protocol.tcc:readBytes"])

p("C92", "Types of included files are what their names say, and generated code finds them",
  "The compiler rejects circular includes, and only these, as recursion, and compiles the file and all files that it includes, directly or not. A declaration is rejected as already defined exactly if its file, or an included one that has the same namespace in every language, declares the name too. In every struct and function of every file, a name without a dot is the declaration of the file itself, base.name is the declaration of the included file base.thrift, before or after its use, and typedefs stand for what they were declared as in their own file. The generated Python module of a file and those of its services find the class of every type that they use.",
  "all sets of files, includes of any depth, all declarations", "the combinations of names, namespaces and includes are unlimited; the tests of the compiler have a few fixed files.",
  ["compiler/cpp/src/thrift/main.cc:parse", "compiler/cpp/src/thrift/thrifty.yy:FieldType", "compiler/cpp/src/thrift/parse/t_program.h:is_unique_typename", "compiler/cpp/src/thrift/generate/t_py_generator.cc:init_generator", "compiler/cpp/src/thrift/generate/t_py_generator.cc:generate_service", "compiler/cpp/src/thrift/generate/t_py_generator.cc:type_name"])

p("C93", "A SASL connection of Twisted is negotiated and carries calls",
  "ThriftSASLClientProtocol(client_class, iprot_factory, host=..., service=...) negotiates with a server that follows the SASL specification of Thrift, then fires started with a client; calls of this client are sent wrapped, and the unwrapped replies complete them. Before that, the server sees only messages of the negotiation.",
  "all SASL objects, all servers, all orders of events", "no test of the library uses this class, and SASL mechanisms and servers are many.",
  ["lib/py/src/transport/TTwisted.py:ThriftSASLClientProtocol"])

p("C94", "repr of a generated instance is a program that makes an equal instance",
  "For an instance x of a generated struct, union or exception, however deep its containers and structs are nested, repr(x) returns a text, and eval of this text in the module of the class returns an instance that equals x. Hence two instances with the same text are equal.",
  "all instances of all generated classes, with all values of fields, all options of the generator", "texts have quotes, control characters, surrogates, empty containers, negative numbers, one-element tuples and names of all kinds, in any combination; a test tries a few.",
  ["compiler/cpp/src/thrift/generate/t_py_generator.cc:generate_py_struct_definition (__repr__)", "lib/py/src/protocol/TBase.py:TBase.__repr__", "lib/py/src/Thrift.py:TFrozenDict"])

p("C95", "the generated command line tool calls the function one names, at the server one names, with the arguments one gives",
  "For a service S the compiler generates the script S-remote. Run with options for the server, the name of a function of S (or of a service S extends) and one word for each argument, it connects to this server in the way the options say, calls this function once, with the text itself for a string, with its bytes for a binary and with the value of the expression otherwise, prints the result and closes the connection. It calls nothing else, whatever the command line.",
  "all services, all options and combinations of them, all texts as arguments, all servers", "command lines are arbitrary lists of arbitrary byte strings; options may be absent, repeated or in another order, URLs have many forms, and declared types and names of services vary with the IDL.",
  ["compiler/cpp/src/thrift/generate/t_py_generator.cc:generate_service_remote", "lib/py/src/transport/THttpClient.py:THttpClient.__init__", "lib/py/src/transport/TSSLSocket.py:TSSLSocket.__init__"])

p("C96", "THttpClient sends its requests to the server and the resource of its URL, and the credentials of a proxy to the proxy only",
  "THttpClient(url) connects to the host and the port of the URL (the port of the scheme if there is none), with TLS exactly for https and then with a certificate for this host, and its requests are for the path and the query of the URL, with a Host header for its host and port. If the environment names a proxy for the scheme and the host is not exempt, it connects to the host and the port of the proxy, and the same request gets to the same server; user and password in the URL of the proxy are shown to the proxy and to nobody else.",
  "all URLs, all arguments for TLS, all environments with and without proxies", "URLs have optional parts of any text: hosts as names or addresses, ports, parameters, queries; the result depends on the environment of the process, and what goes through a tunnel is not seen by a test at the proxy.",
  ["lib/py/src/transport/THttpClient.py:THttpClient.__init__", "lib/py/src/transport/THttpClient.py:basic_proxy_auth_header", "lib/py/src/transport/THttpClient.py:THttpClient.open", "lib/py/src/transport/THttpClient.py:THttpClient.flush"])

p("C97", "The doc comments of the IDL are the docstrings of what they stand before",
  "The text of a doc comment, without the stars and the indentation that only lay it out, is the doc of the definition, field, enum value or function that follows it, and of no other; nothing is lost of it, and the compiler accepts any comment. The docstring of the generated class or method is this text, followed by one entry for each field or parameter with its own text.",
  "all comment texts, with and without stars, all sequences of comments and declarations, all lists of members", "Comments are free text in any layout, and which one belongs to which declaration depends on everything between them; a test has a few.",
  ["compiler/cpp/src/thrift/main.cc:clean_up_doctext", "compiler/cpp/src/thrift/thriftl.ll:doctext_begin", "compiler/cpp/src/thrift/thrifty.yy:CaptureDocText", "compiler/cpp/src/thrift/generate/t_py_generator.cc:generate_python_docstring"])

p("C98", "Decorated protocols are protocols, and multiplexers are processors: both can be nested",
  "TMultiplexedProtocol(p, service) and the StoredMessageProtocol of a TMultiplexedProcessor exist for any protocol object p; the methods of the decorator come first, and in them super is p, and everything else is as in p. In particular a TMultiplexedProcessor can be registered with another, as a service or as the default, and then a call of outer:inner:method reaches the processor registered as inner.",
  "any protocol class with any base classes, decorated or not; any registries", "Which method Python finds depends on the linearization of a class made at run time from the class of the object; tests decorate the few classes of the library once.",
  ["lib/py/src/protocol/TProtocolDecorator.py:TProtocolDecorator.__new__", "lib/py/src/protocol/TMultiplexedProtocol.py:TMultiplexedProtocol", "lib/py/src/TMultiplexedProcessor.py:StoredMessageProtocol", "lib/py/src/TMultiplexedProcessor.py:process"])

p("C99", "A callback installed with on_message_begin of a multiplexer is called for every message, and THttpServer answers oneway messages at once",
  "After on_message_begin(f) of a TMultiplexedProcessor, f is called with the name (without the service), the type and the sequence id of each message that one of its processors, default included, processes, before the handler is called. So a THttpServer with a multiplexer answers a oneway message before the handler runs, and any other message with one response that carries the reply.",
  "any sequence of registerDefault, registerProcessor and on_message_begin; any services, protocols and messages", "The callbacks are attributes of the registered processors, which may be registered under several names, replaced, or registered after the callback was installed; the order of response and handler is visible only to slow handlers.",
  ["lib/py/src/TMultiplexedProcessor.py:TMultiplexedProcessor.on_message_begin", "compiler/cpp/src/thrift/generate/t_py_generator.cc:generate_service_server", "lib/py/src/server/THttpServer.py:do_POST", "lib/py/src/server/THttpServer.py:on_begin"])

p("C100", "With the option type_hints, what is read is what the annotations say",
  "Every attribute of every instance that generated code reads, with or without the C extension, every argument that a handler gets, and every value that a function of a client returns, is an instance of the annotation that the compiler wrote for it (Optional members may be None).",
  "any types, structs, enums and defaults; any message; any depth of nesting", "Annotations are not evaluated, so no test at run time fails; a type checker believes them and does not see what is read. Whether they hold depends on the bytes received.",
  ["compiler/cpp/src/thrift/generate/t_py_generator.cc:type_to_py_type", "compiler/cpp/src/thrift/generate/t_py_generator.cc:member_hint", "compiler/cpp/src/thrift/generate/t_py_generator.cc:arg_hint", "compiler/cpp/src/thrift/generate/t_py_generator.cc:func_hint", "compiler/cpp/src/thrift/generate/t_py_generator.cc:generate_deserialize_container", "lib/py/src/ext/protocol.tcc:decodeValue"])

p("C101", "What arrives is == to what was sent",
  "If a program writes an instance of a generated class and a peer with the same code reads it, the two instances are equal, in the sense of the generated __eq__ and of Python's == of the numbers, texts and containers in them, whichever of the two is asked; and an instance is refused only if a required member is None.",
  "any types, structs, enums and defaults; any instance, of any depth; reading with and without the C extension", "Tests of round trips use == themselves, on a few instances that have all their members set; whether it holds depends on the defaults, on which containers are immutable and on the values.",
  ["compiler/cpp/src/thrift/generate/t_py_generator.cc:generate_py_struct_definition", "compiler/cpp/src/thrift/generate/t_py_generator.cc:generate_py_struct_writer", "compiler/cpp/src/thrift/generate/t_py_generator.cc:generate_serialize_field", "compiler/cpp/src/thrift/generate/t_py_generator.cc:generate_serialize_container", "compiler/cpp/src/thrift/generate/t_py_generator.cc:generate_py_struct_required_validator", "compiler/cpp/src/thrift/generate/t_py_generator.cc:generate_deserialize_container", "lib/py/src/ext/protocol.tcc:decodeValue"])

p("C102", "Copies and pickles of instances equal the original",
  "copy.copy, copy.deepcopy and pickle.loads(pickle.dumps(o)) of an instance of a generated struct or exception give an instance of the same class with (copies of) the same members, equal to the original.",
  "any class, mutable or immutable, with or without slots, struct or exception, with any members; any instance reached by construction, assignment, deletion and copying; any way of copying values", "The tests deep-copy one mutable struct and pickle nothing; a sample would not settle it either, since whether a copy can be made depends on the combination of options and of base class, and for exceptions on how the instance was made.",
  ["compiler/cpp/src/thrift/generate/t_py_generator.cc:generate_py_struct_definition", "lib/py/src/Thrift.py:TException"])

out = os.path.join(os.path.dirname(os.path.abspath(__file__)), "..", "properties.jsonl")
with open(out, "w") as f:
    for q in props:
        f.write(json.dumps(q, ensure_ascii=True) + "\n")
print(len(props))
