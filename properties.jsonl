{"id": "C01", "title": "Binary protocol scalars: exact layout and round-trip", "statement": "With TBinaryProtocol, writing a bool, byte, i16, i32, i64, double, binary, string or uuid appends exactly the documented bytes (big-endian two's complement, 1/0 for bool, 4-byte length prefix, 16 raw bytes), and reading them back from a transport holding those bytes followed by anything returns the same value and consumes exactly those bytes. An out-of-range integer raises and appends nothing.", "quantifier": "every scalar value (all integers, all bit patterns, all byte strings and all texts) and every trailing byte sequence", "why_tests_cant": "2^64 values per type times unbounded strings and suffixes; tests sample a handful of boundaries.", "anchors": ["lib/py/src/protocol/TBinaryProtocol.py:writeByte..readUuid", "lib/py/src/protocol/TProtocol.py:writeString,readString"]}
{"id": "C02", "title": "Compact integers: zigzag varint round-trip, range check and length", "statement": "With TCompactProtocol, writing any in-range i16/i32/i64 appends the zigzag LEB128 encoding, which is the shortest one and at most 3/5/10 bytes long; reading it back returns the same integer and consumes exactly those bytes. Writing an out-of-range integer raises TProtocolException(INVALID_DATA) and appends nothing.", "quantifier": "every integer and every trailing byte sequence", "why_tests_cant": "the whole 64-bit range (and beyond, for rejection) cannot be enumerated, and the carry chain across 7-bit groups is where errors hide.", "anchors": ["lib/py/src/protocol/TCompactProtocol.py:makeZigZag,fromZigZag,writeVarint,readVarint", "lib/py/src/protocol/TProtocol.py:checkIntegerLimits"]}
{"id": "C03", "title": "Varint reader is bounded on hostile input", "statement": "Reading a compact varint from any byte stream consumes at most 10 bytes and always ends: it returns a natural number below 2^70, or raises INVALID_DATA after exactly 10 continuation bytes, or reports end of stream. It returns the little-endian base-128 value of exactly the bytes consumed.", "quantifier": "every byte stream", "why_tests_cant": "all byte streams, including adversarial non-canonical encodings.", "anchors": ["lib/py/src/protocol/TCompactProtocol.py:readVarint"]}
{"id": "C04", "title": "Binary protocol: struct and container round-trip", "statement": "Serializing any well-typed value (structs with optional, defaulted, required, recursive fields; nested lists, sets, maps; every scalar type) with TBinaryProtocol and deserializing it with the same thrift_spec yields an equal value and consumes exactly the serialized bytes, whatever follows them.", "quantifier": "every schema, every well-typed value of any size and of nesting within the depth limit, every trailing byte sequence", "why_tests_cant": "values are unbounded trees over unbounded schemas; only an induction covers them.", "anchors": ["lib/py/src/protocol/TProtocol.py:writeStruct,readStruct,readFieldByTType,writeFieldByTType", "lib/py/src/protocol/TBinaryProtocol.py", "compiler/cpp/src/thrift/generate/t_py_generator.cc:generate_py_struct_reader,generate_py_struct_writer"]}
{"id": "C05", "title": "Compact protocol: struct and container round-trip", "statement": "The same round-trip holds with TCompactProtocol, including bool fields folded into the field header, bool container elements, field-id deltas (short and long form, ascending or not), nested structs that restart the delta base, and maps of size zero. The writer never raises AssertionError on a well-typed value, and the protocol object is back in the state it started from afterwards.", "quantifier": "every schema, every well-typed value of any size and nesting within the depth limit, every trailing byte sequence, every entry state of the protocol object that can hold a value", "why_tests_cant": "the encoding of a field depends on the previous field and on a stack of saved contexts; the number of combinations is unbounded.", "anchors": ["lib/py/src/protocol/TCompactProtocol.py:TCompactProtocol", "lib/py/src/protocol/TProtocol.py:writeStruct,readStruct"]}
{"id": "C06", "title": "JSON protocol: struct and container round-trip", "statement": "The same round-trip holds with TJSONProtocol for every text (including quotes, backslashes, control characters and characters outside ASCII and outside the basic plane), every byte string (base64), every integer, numeric and string map keys, and every nesting of lists, sets, maps and structs. For doubles it holds when the formatting and parsing of floats are inverse; NaN and infinities do not survive.", "quantifier": "every schema, every well-typed value of any size, every trailing byte sequence", "why_tests_cant": "unbounded texts and trees; the separators depend on a stack of contexts.", "anchors": ["lib/py/src/protocol/TJSONProtocol.py:TJSONProtocol,TJSONProtocolBase"]}
{"id": "C07", "title": "Binary protocol emits the documented wire format", "statement": "The bytes appended by TBinaryProtocol for any well-typed value are exactly those that doc/specs/thrift-binary-protocol.md prescribes: field header type+id, stop byte, element type and count for lists and sets, key type, value type and count for maps; unset fields are absent.", "quantifier": "every schema and every well-typed value", "why_tests_cant": "a reader and a writer can agree on a wrong format and pass all round-trip tests; conformity must be checked against an independent description for all values.", "anchors": ["lib/py/src/protocol/TBinaryProtocol.py", "doc/specs/thrift-binary-protocol.md", "lib/py/src/protocol/TProtocol.py:writeStruct"]}
{"id": "C08", "title": "Compact protocol emits the documented wire format", "statement": "The bytes appended by TCompactProtocol for any well-typed value are exactly those that doc/specs/thrift-compact-protocol.md prescribes.", "quantifier": "every schema and every well-typed value", "why_tests_cant": "as C07, and the format is context dependent.", "anchors": ["lib/py/src/protocol/TCompactProtocol.py", "doc/specs/thrift-compact-protocol.md"]}
{"id": "C09", "title": "JSON protocol emits well-formed JSON of the documented shape", "statement": "The text TJSONProtocol appends for any well-typed value is the rendering of one JSON value: commas and colons are placed exactly between siblings, every opened bracket is closed, strings are escaped and never contain a bare quote or backslash.", "quantifier": "every schema and every well-typed value", "why_tests_cant": "well-formedness for all nestings is a grammar property.", "anchors": ["lib/py/src/protocol/TJSONProtocol.py:JSONBaseContext,JSONListContext,JSONPairContext,writeJSONString"]}
{"id": "C10", "title": "Message envelope round-trip", "statement": "writeMessageBegin(name, type, seqid) followed by readMessageBegin returns the same name, type and seqid: for the binary protocol in strict and non-strict mode, for the compact protocol including negative seqids, and for JSON.", "quantifier": "every text name, every message type the wire can carry, every 32-bit seqid, every trailing byte sequence", "why_tests_cant": "unbounded names and 2^32 seqids, with a sign conversion in the compact protocol.", "anchors": ["lib/py/src/protocol/TBinaryProtocol.py:writeMessageBegin,readMessageBegin", "lib/py/src/protocol/TCompactProtocol.py:writeMessageBegin,readMessageBegin", "lib/py/src/protocol/TJSONProtocol.py:writeMessageBegin,readMessageBegin"]}
{"id": "C11", "title": "Messages of a foreign protocol or version are rejected", "statement": "readMessageBegin accepts a byte stream only if it starts with this protocol's identification: binary accepts a negative first word only when its upper 16 bits are 0x8001 and, with strictRead, rejects every non-negative first word; compact accepts only 0x82 followed by a byte whose low five bits are 1. Otherwise TProtocolException(BAD_VERSION) is raised.", "quantifier": "every byte stream of at least header length", "why_tests_cant": "all 2^32 first words.", "anchors": ["lib/py/src/protocol/TBinaryProtocol.py:readMessageBegin", "lib/py/src/protocol/TCompactProtocol.py:readMessageBegin"]}
{"id": "C12", "title": "Length limits are enforced on every string and container", "statement": "If a string_length_limit (container_length_limit) is configured, no decode of any byte stream ever returns a string (container) longer than the limit, and a negative or oversized length raises TTransportException(NEGATIVE_SIZE or SIZE_LIMIT) before any of the announced contents is read.", "quantifier": "every byte stream, every limit, every type being read", "why_tests_cant": "attacker-controlled lengths in every position of every structure.", "anchors": ["lib/py/src/protocol/TProtocol.py:_check_length", "lib/py/src/protocol/TBinaryProtocol.py:readBinary,readMapBegin,readListBegin,readSetBegin,readMessageBegin", "lib/py/src/protocol/TCompactProtocol.py:readCollectionBegin,readMapBegin,readBinary"]}
{"id": "C13", "title": "skip consumes exactly one value", "statement": "skip(type) applied to the serialization of any value of that type (nesting at most 64) succeeds and consumes exactly the bytes that reading the value would have consumed, leaving the protocol object in the same state; this holds for the binary and the compact protocol.", "quantifier": "every schema, every value, every trailing byte sequence", "why_tests_cant": "unbounded values; a one-byte error only shows in what follows.", "anchors": ["lib/py/src/protocol/TProtocol.py:skip"]}
{"id": "C14", "title": "Forward compatibility: unknown fields do not disturb known ones", "statement": "Deserializing with an older schema data written with a newer one (additional fields anywhere, of any type and value) yields the same value as if the unknown fields had never been written; a field whose wire type differs from the schema is ignored in the same way.", "quantifier": "every pair of schemas, every value, every position and number of unknown fields", "why_tests_cant": "all combinations of schema evolution are unbounded.", "anchors": ["lib/py/src/protocol/TProtocol.py:readStruct,skip", "compiler/cpp/src/thrift/generate/t_py_generator.cc:generate_py_struct_reader"]}
{"id": "C15", "title": "Nesting depth is bounded and the depth counter is balanced", "statement": "Generated read and write code refuses to nest more than 64 structs: deeper data raises TProtocolException(DEPTH_LIMIT). After any read or write call, whether it returned or raised and whatever the input, the protocol's recursion counter has the value it had before the call. skip refuses to descend more than 64 levels.", "quantifier": "every input, every failure point, every nesting", "why_tests_cant": "every failure point inside every nested read must restore the counter.", "anchors": ["lib/py/src/protocol/TProtocol.py:increment_recursion_depth,decrement_recursion_depth,skip", "compiler/cpp/src/thrift/generate/t_py_generator.cc:generate_py_struct_reader,generate_py_struct_writer"]}
{"id": "C16", "title": "Decoding does not depend on how the transport fragments the stream", "statement": "For any decoder of the binary and compact protocols, running it over a transport that delivers a byte stream in arbitrary pieces (each read returns a non-empty piece no longer than requested) gives the same value or exception as running it over a memory buffer holding the whole stream, and leaves the same bytes unread.", "quantifier": "every byte stream, every fragmentation schedule, every sequence of decode calls", "why_tests_cant": "network segmentation schedules are unbounded and nondeterministic.", "anchors": ["lib/py/src/transport/TTransport.py:TTransportBase.readAll", "lib/py/src/protocol/TBinaryProtocol.py", "lib/py/src/protocol/TCompactProtocol.py"]}
{"id": "C17", "title": "Truncated data never decodes", "statement": "If the transport ends anywhere strictly inside the serialization of a value, deserialization raises an end-of-file error; it never returns a value.", "quantifier": "every schema, every value, every truncation point", "why_tests_cant": "every prefix of every encoding.", "anchors": ["lib/py/src/transport/TTransport.py:readAll", "lib/py/src/protocol/TBinaryProtocol.py", "lib/py/src/protocol/TCompactProtocol.py"]}
{"id": "C18", "title": "Decoding arbitrary bytes terminates with a value or a catalogued exception", "statement": "Reading any type from any finite byte stream with the binary or compact protocol terminates, and either returns a value or raises one of a fixed list of exceptions; it never reads more bytes than the stream holds and never needs more steps than a fixed function of the stream length and of the announced container sizes.", "quantifier": "every schema, every type, every byte stream", "why_tests_cant": "hostile input space.", "anchors": ["lib/py/src/protocol/TProtocol.py:readStruct,skip", "lib/py/src/protocol/TBinaryProtocol.py", "lib/py/src/protocol/TCompactProtocol.py"]}
{"id": "C19", "title": "Decoded values are well-typed", "statement": "Every value that a successful decode returns inhabits the declared type: integers lie in the range of their width, strings are valid text, containers have the declared element types.", "quantifier": "every schema, every byte stream", "why_tests_cant": "input space; the compact protocol accepts wider varints than the declared width.", "anchors": ["lib/py/src/protocol/TCompactProtocol.py:readI16,readI32,readI64", "lib/py/src/protocol/TBinaryProtocol.py"]}
{"id": "C20", "title": "Unset and required fields", "statement": "A field whose attribute is None is not written and reads back as its declared default; generated write raises TProtocolException for an unset required field before any byte of the struct is written; generated read does not enforce required fields.", "quantifier": "every schema, every struct value", "why_tests_cant": "all subsets of set fields over all schemas.", "anchors": ["compiler/cpp/src/thrift/generate/t_py_generator.cc:generate_py_struct_writer,generate_py_struct_required_validator", "lib/py/src/protocol/TProtocol.py:writeStruct"]}
{"id": "C21", "title": "readAll returns exactly the requested bytes or raises", "statement": "readAll(n) on a transport returns exactly the next n bytes of the stream, in order, or raises EOFError (or the transport's own exception) when fewer remain; it never returns a short buffer and never consumes more than n bytes, if the transport's read honours its size argument.", "quantifier": "every n, every stream, every fragmentation", "why_tests_cant": "all partial-read schedules.", "anchors": ["lib/py/src/transport/TTransport.py:TTransportBase.readAll"]}
{"id": "C22", "title": "TBufferedTransport is transparent for reads", "statement": "The concatenation of the results of any sequence of positive-size read calls on a TBufferedTransport is a prefix of the underlying stream, nothing is lost, duplicated or reordered, a read never returns more than asked, and it returns empty only at the end of the underlying stream.", "quantifier": "every stream, fragmentation, buffer size and sequence of read sizes", "why_tests_cant": "unbounded call sequences interleaved with arbitrary segmentation.", "anchors": ["lib/py/src/transport/TTransport.py:TBufferedTransport.read,cstringio_refill"]}
{"id": "C23", "title": "Buffered writes reach the peer exactly once, in order, at flush", "statement": "For TBufferedTransport, any sequence of writes and flushes delivers to the underlying transport, at each flush, exactly the bytes written since the previous flush attempt, once and in order; nothing is delivered before a flush; if the underlying write fails the pending bytes are dropped and never re-sent.", "quantifier": "every sequence of writes, flushes and failure points", "why_tests_cant": "histories are unbounded.", "anchors": ["lib/py/src/transport/TTransport.py:TBufferedTransport.write,flush"]}
{"id": "C24", "title": "TFramedTransport: what is flushed is what the peer reads", "statement": "If one side performs any sequence of write batches each ended by flush, the other side's reads return the concatenation of the non-empty batches, each frame prefixed on the wire by its 4-byte big-endian length, independently of fragmentation and of the (positive) sizes of the read calls; one read never crosses a frame boundary.", "quantifier": "every sequence of batches below 2^31 bytes, every fragmentation, every sequence of positive read sizes", "why_tests_cant": "histories and segmentations are unbounded.", "anchors": ["lib/py/src/transport/TTransport.py:TFramedTransport"]}
{"id": "C25", "title": "TMemoryBuffer behaves like a byte file", "statement": "Writing to an empty TMemoryBuffer and calling getvalue returns the concatenation of the writes; reading a TMemoryBuffer built from a value returns that value's bytes in order from the given offset; read at the end returns empty.", "quantifier": "every sequence of operations", "why_tests_cant": "histories are unbounded.", "anchors": ["lib/py/src/transport/TTransport.py:TMemoryBuffer"]}
{"id": "C26", "title": "THeaderTransport frame round-trip", "statement": "A payload flushed by a THeaderTransport with any headers, any list of supported transforms, any flags, sequence id and protocol id is read back by a peer THeaderTransport as exactly the same payload, headers, flags, sequence id and protocol id; headers apply to one message only; the frame on the wire has the layout of doc/specs/HeaderFormat.md.", "quantifier": "every payload, every header map, every transform list, every flags, sequence id and protocol id within the field widths", "why_tests_cant": "unbounded header maps and payloads.", "anchors": ["lib/py/src/transport/THeaderTransport.py:flush,readFrame,_parse_header_format", "doc/specs/HeaderFormat.md"]}
{"id": "C27", "title": "THeaderTransport accepts only permitted client types", "statement": "The client type a THeaderTransport detects is a function of the first two words of the stream; messages of a client type that is not in allowed_client_types raise TTransportException(INVALID_CLIENT_TYPE) and deliver no payload; framed and unframed binary, framed and unframed compact and header frames are each recognised as such.", "quantifier": "every byte stream, every set of allowed types", "why_tests_cant": "all header words.", "anchors": ["lib/py/src/transport/THeaderTransport.py:_set_client_type,readFrame"]}
{"id": "C28", "title": "THeaderTransport size limits", "statement": "A frame larger than max_frame_size is refused before its body is read, and an outgoing message larger than max_frame_size is refused before anything is sent; with any chain of decompression transforms the payload delivered never exceeds max_decompressed_size.", "quantifier": "every stream, every limit, every chain of transforms", "why_tests_cant": "decompression bombs and hostile lengths.", "anchors": ["lib/py/src/transport/THeaderTransport.py:readFrame,flush,_apply_read_transform"]}
{"id": "C29", "title": "Malformed header blocks cannot shift the payload", "statement": "Whatever the contents of a THeader header block, the payload handed to the protocol is exactly the part of the frame after the announced header length (after transforms), and no byte beyond the frame is consumed from the stream.", "quantifier": "every frame content", "why_tests_cant": "hostile header blocks.", "anchors": ["lib/py/src/transport/THeaderTransport.py:_parse_header_format"]}
{"id": "C30", "title": "TZlibTransport round-trip and decompression limit", "statement": "Bytes written and flushed through a TZlibTransport are read back in order by a peer TZlibTransport; the total number of bytes a TZlibTransport with max_decompressed_size=N ever hands out is at most N; flush with nothing written is harmless; a read at the end of the compressed stream terminates.", "quantifier": "every history of writes, flushes and reads, every N", "why_tests_cant": "unbounded histories; exact-boundary behaviour of the limit.", "anchors": ["lib/py/src/transport/TZlibTransport.py:TZlibTransport"]}
{"id": "C31", "title": "SASL transport negotiation and framing", "statement": "TSaslClientTransport.open returns only after the server announced COMPLETE and the local mechanism is complete; any other status raises; afterwards data written and flushed is delivered wrapped in one length-prefixed frame and read back in order.", "quantifier": "every sequence of server messages, every sequence of write batches", "why_tests_cant": "all negotiation transcripts.", "anchors": ["lib/py/src/transport/TTransport.py:TSaslClientTransport"]}
{"id": "C32", "title": "TSocket.write sends every byte once or raises", "statement": "TSocket.write returns normally only if the socket accepted exactly the given bytes, in order, once; if it raises, the bytes accepted are a prefix.", "quantifier": "every buffer, every schedule of partial sends and errors", "why_tests_cant": "partial-send schedules.", "anchors": ["lib/py/src/transport/TSocket.py:TSocket.write"]}
{"id": "C33", "title": "TSocket.open connects to the first reachable address and leaks no handle", "statement": "open tries the resolved addresses in order, ends open on the first that accepts, closes every socket it created that failed to connect, and raises NOT_OPEN with the transport closed if none accepts; on an open transport it raises ALREADY_OPEN and changes nothing.", "quantifier": "every list of addresses and connection outcomes", "why_tests_cant": "outcome combinations.", "anchors": ["lib/py/src/transport/TSocket.py:TSocket.open"]}
{"id": "C34", "title": "Multiplexed calls reach the intended service under their original name", "statement": "A call made through TMultiplexedProtocol(service) is dispatched by TMultiplexedProcessor to the processor registered under that service name, which sees the original method name, message type, seqid and arguments; an unregistered service raises and no processor runs; names without separator go to the default processor if there is one.", "quantifier": "every service name without separator, every method name, every registry", "why_tests_cant": "unbounded names and registries.", "anchors": ["lib/py/src/TMultiplexedProcessor.py:process", "lib/py/src/protocol/TMultiplexedProtocol.py:writeMessageBegin"]}
{"id": "C35", "title": "Generated processor: exactly one reply per call, none for oneway", "statement": "For every request and every handler behaviour (return of a value of the declared type, declared exception, TApplicationException, other exception), process writes exactly one message for a two-way call, carrying the request's seqid and the method name and the right message type, and writes nothing for a oneway call; a TTransportException of the handler passes through and nothing is written; an unknown method is answered with UNKNOWN_METHOD after its arguments were skipped.", "quantifier": "every service, every request, every handler outcome", "why_tests_cant": "all handlers.", "anchors": ["compiler/cpp/src/thrift/generate/t_py_generator.cc:generate_service_server,generate_process_function"]}
{"id": "C36", "title": "Generated client decodes every reply correctly", "statement": "recv of a reply returns the result if success is set, raises the declared exception that is set, raises the TApplicationException carried by an EXCEPTION message, raises MISSING_RESULT for an empty non-void reply and returns for an empty void reply.", "quantifier": "every reply", "why_tests_cant": "all replies.", "anchors": ["compiler/cpp/src/thrift/generate/t_py_generator.cc:generate_service_client"]}
{"id": "C37", "title": "End-to-end call", "statement": "A call through a generated client, the binary or compact protocol, a framed transport and a generated processor returns exactly what the handler returned, or raises the declared exception the handler raised; the handler is invoked exactly once with equal arguments.", "quantifier": "every method signature, every well-typed argument list and result", "why_tests_cant": "composition over all values.", "anchors": ["compiler/cpp/src/thrift/generate/t_py_generator.cc", "lib/py/src/protocol/TBinaryProtocol.py", "lib/py/src/transport/TTransport.py:TFramedTransport"]}
{"id": "C38", "title": "TApplicationException round-trip", "statement": "TApplicationException.write followed by read restores type and message, for every message text and type, and read ignores unknown fields.", "quantifier": "every message and type", "why_tests_cant": "unbounded texts.", "anchors": ["lib/py/src/Thrift.py:TApplicationException.read,write"]}
{"id": "C39", "title": "Nonblocking server: frames are recovered whatever the segmentation", "statement": "The sequence of messages a TNonblockingServer connection hands to its processor is exactly the sequence of frames in the client's byte stream, in order and unmodified, whatever the segmentation of recv.", "quantifier": "every byte stream, every segmentation", "why_tests_cant": "segmentation schedules.", "anchors": ["lib/py/src/server/TNonblockingServer.py:Connection.read"]}
{"id": "C40", "title": "Nonblocking server: connection state machine", "statement": "Under every schedule of socket events and worker completions, a connection processes at most one request at a time, sends each two-way response exactly once, framed, in request order and before the next request is processed, and never sends after it was closed.", "quantifier": "every interleaving of events", "why_tests_cant": "schedules.", "anchors": ["lib/py/src/server/TNonblockingServer.py:Connection,TNonblockingServer.handle"]}
{"id": "C41", "title": "Nonblocking server keeps serving", "statement": "No client input can stop the server: after any client bytes the select loop still reaches the multiplexer wait and still reads from other ready connections.", "quantifier": "every byte stream and segmentation from one client", "why_tests_cant": "liveness over all inputs.", "anchors": ["lib/py/src/server/TNonblockingServer.py:_select,_poll_select,handle,Connection.read"]}
{"id": "C42", "title": "Thread pool, threaded, forking and simple servers serve every accepted connection once and isolate failures", "statement": "Every accepted connection is served by exactly one worker, its transports are closed whatever the processor does, and an exception while serving one connection does not prevent the following connections from being served.", "quantifier": "every sequence of connections and failures", "why_tests_cant": "failure histories.", "anchors": ["lib/py/src/server/TServer.py"]}
{"id": "C43", "title": "Tornado stream lock: mutual exclusion, FIFO order and no lost wake-up", "statement": "At any time at most one holder is inside the lock, waiters are admitted in arrival order, and once every earlier holder has released, a waiter is admitted.", "quantifier": "every sequence of acquire and release operations", "why_tests_cant": "histories.", "anchors": ["lib/py/src/TTornado.py:_Lock"]}
{"id": "C44", "title": "Twisted client: each reply resolves its own request once", "statement": "Every reply resolves the deferred registered under its seqid and no other; no deferred is resolved twice; when the connection is lost every outstanding deferred fails, exactly once.", "quantifier": "every sequence of calls, replies and connection loss", "why_tests_cant": "histories.", "anchors": ["lib/py/src/transport/TTwisted.py:ThriftClientProtocol"]}
{"id": "C45", "title": "HTTP client request/response buffering", "statement": "Each flush of THttpClient sends one POST whose body is exactly what was written since the previous flush and whose Content-Length matches it; reads return the response body.", "quantifier": "every history of writes, flushes and reads", "why_tests_cant": "histories.", "anchors": ["lib/py/src/transport/THttpClient.py:THttpClient"]}
{"id": "C46", "title": "Equal frozen dictionaries have equal hashes", "statement": "Two TFrozenDict built from the same key-value pairs in any order compare equal and have the same hash.", "quantifier": "every set of pairs, every insertion order", "why_tests_cant": "permutations.", "anchors": ["lib/py/src/Thrift.py:TFrozenDict"]}
{"id": "C47", "title": "Recursive specs are fully resolved", "statement": "After fix_spec, every struct reference reachable in any thrift_spec (through lists, sets and maps nested at any depth) is replaced by the class together with its spec, and nothing else changes; running it again changes nothing.", "quantifier": "every collection of specs", "why_tests_cant": "unbounded nesting and mutual recursion.", "anchors": ["lib/py/src/TRecursive.py:fix_spec"]}
{"id": "C48", "title": "Accelerated encoder produces the same bytes as the Python encoder", "statement": "For every well-typed value, the C extension's encode_binary (encode_compact) returns the same bytes that TBinaryProtocol (TCompactProtocol) would write.", "quantifier": "every schema, every value", "why_tests_cant": "two implementations, unbounded values.", "anchors": ["lib/py/src/ext/protocol.tcc:encodeValue", "lib/py/src/ext/binary.h", "lib/py/src/ext/compact.h"]}
{"id": "C49", "title": "Accelerated decoder agrees with the Python decoder", "statement": "For every byte stream, the C extension's decoder and the Python decoder either both fail or both return equal values.", "quantifier": "every schema, every byte stream", "why_tests_cant": "two implementations, hostile inputs.", "anchors": ["lib/py/src/ext/protocol.tcc:decodeValue,skip,readStruct", "lib/py/src/protocol/TProtocol.py"]}
{"id": "C50", "title": "SSL peer verification cannot be bypassed", "statement": "With a verifying configuration, TSSLSocket.open returns normally only if the validate callback accepted the peer certificate for the host name in use; the legacy callback accepts a certificate only if its first commonName equals the host name.", "quantifier": "every certificate, every configuration", "why_tests_cant": "certificate shapes.", "anchors": ["lib/py/src/transport/TSSLSocket.py", "lib/py/src/transport/sslcompat.py:legacy_validate_callback"]}
{"id": "C51", "title": "A failed call does not corrupt the next one", "statement": "If serializing the arguments of a call raises, a following call on the same client, protocol and transport is transmitted as if the failed one had not happened.", "quantifier": "every failing value, every failure point, every following call", "why_tests_cant": "failure points.", "anchors": ["lib/py/src/transport/TTransport.py:TFramedTransport,TBufferedTransport", "lib/py/src/protocol/TCompactProtocol.py", "compiler/cpp/src/thrift/generate/t_py_generator.cc:generate_service_client"]}
{"id": "C52", "title": "Serialization helpers are inverse", "statement": "TSerialization.deserialize(base, serialize(x)) equals x for every well-typed x, with the default binary factory and with the compact factory.", "quantifier": "every value", "why_tests_cant": "unbounded values.", "anchors": ["lib/py/src/TSerialization.py:serialize,deserialize"]}
{"id": "C53", "title": "Repeated set elements and map keys", "statement": "Reading a set or map whose encoding repeats an element or key (in the sense of Python equality: equal zeros, NaN different from itself) keeps the first occurrence and, for maps, the last value given to the key.", "quantifier": "every schema, every sequence of elements or pairs", "why_tests_cant": "unbounded sequences, doubles with unusual equality.", "anchors": ["lib/py/src/protocol/TProtocol.py:readContainerSet,readContainerMap", "compiler/cpp/src/thrift/generate/t_py_generator.cc:generate_deserialize_container"]}
{"id": "C54", "title": "TSocket reports the end of the stream and never steals data", "statement": "TSocket.read returns only non-empty data as received and raises END_OF_FILE or TIMED_OUT otherwise; isOpen does not consume data, restores the timeout, and closes the handle exactly when it answers False.", "quantifier": "every outcome of recv", "why_tests_cant": "timing and error codes of the operating system.", "anchors": ["lib/py/src/transport/TSocket.py:read,isOpen"]}
{"id": "C55", "title": "TZlibTransport statistics", "statement": "getCompSavings reports, for each direction, the number of uncompressed bytes minus the number of compressed bytes; getCompRatio reports compressed over uncompressed, and None if nothing was transferred in that direction.", "quantifier": "every history of writes, flushes and reads", "why_tests_cant": "the values depend on the whole history and on the compressor.", "anchors": ["lib/py/src/transport/TZlibTransport.py:getCompRatio,getCompSavings,readComp,flush"]}
{"id": "C56", "title": "Tornado transport: frames in the order of the calls", "statement": "However many readFrame calls run on one TTornadoStreamTransport, the n-th call returns the n-th frame of the stream, they end in order, no read is started while another is pending, and a failed read ends only its own call; each flush gives the stream one frame with exactly what was written since the previous flush.", "quantifier": "every interleaving of calls, resumptions, answers and failures of the stream", "why_tests_cant": "schedules of the event loop.", "anchors": ["lib/py/src/TTornado.py:TTornadoStreamTransport.readFrame,flush,_Lock"]}
{"id": "C57", "title": "A TFrozenDict does not change", "statement": "Once built, a TFrozenDict keeps its items and its hash, whatever methods are called on it.", "quantifier": "every method of dict, every content", "why_tests_cant": "every method of the base class.", "anchors": ["lib/py/src/Thrift.py:TFrozenDict"]}
{"id": "C58", "title": "The thrift_spec describes every field", "statement": "The thrift_spec that the compiler writes for a struct has, at the index that is the id of a field, the entry of that field (id, type, name, type arguments, default), for every field, and None at every other index.", "quantifier": "every struct, every type of a field", "why_tests_cant": "unbounded structs and types.", "anchors": ["compiler/cpp/src/thrift/generate/t_py_generator.cc:generate_py_thrift_spec,type_to_spec_args"]}
{"id": "C59", "title": "Tornado client: each reply resolves its own request once", "statement": "Every reply resolves the future of the call with its seqid and no other; no future is resolved twice; when reading from the connection fails every outstanding future fails; the client goes on receiving whatever the peer sends and whatever calls the application cancels.", "quantifier": "every sequence of calls, cancellations, frames and failures", "why_tests_cant": "histories.", "anchors": ["compiler/cpp/src/thrift/generate/t_py_generator.cc:generate_service_client", "lib/py/src/TTornado.py:TTornadoStreamTransport"]}
{"id": "C60", "title": "Generated methods find each other by name", "statement": "For every function of a service the generated client has a callable method that uses the send and receive helpers of the same function, a reply is read by the helper of the function it names, the processor dispatches a message to the method of the function it names, and no generated identifier is a reserved word of Python.", "quantifier": "every service, every set of function names, every kind of generated code", "why_tests_cant": "unbounded sets of names.", "anchors": ["compiler/cpp/src/thrift/generate/t_py_generator.cc:maybe_escape_identifier,generate_service_client,generate_service_server"]}
{"id": "C61", "title": "SSL options mean what they say", "statement": "cert_reqs decides whether the certificate of the peer is verified: with CERT_NONE any peer is accepted and ca_certs is not needed, with the other values a peer without a trusted certificate for the host name is refused; a TSSLServerSocket with a certificate and otherwise default options accepts clients.", "quantifier": "for all option values, host names, certificates, histories of open and close, and address lists", "why_tests_cant": "The outcome depends on the interplay of option defaults, the state of a fresh SSLContext, the order of assignments, the Python version and the peer; tests connect with a handful of certificates on one Python version.", "anchors": ["lib/py/src/transport/TSSLSocket.py:122-190", "lib/py/src/transport/TSSLSocket.py:330-414", "lib/py/src/transport/sslcompat.py:67-108"]}
{"id": "C62", "title": "A TSSLSocket whose open raised is closed", "statement": "After TSSLSocket.open has raised, the object is not open, no connection is left behind, and is_valid is false.", "quantifier": "for all configurations, earlier calls, addresses and ways in which connecting, the handshake or the validate callback fails", "why_tests_cant": "Each point of failure leaves the object in a different state, and what a previous open left is still there; a test looks at one failure on a fresh object.", "anchors": ["lib/py/src/transport/TSSLSocket.py:275-316", "lib/py/src/transport/TSocket.py:127-157"]}
{"id": "C63", "title": "JSON: a truncated document never decodes", "statement": "If the transport ends anywhere strictly inside the document that TJSONProtocol writes for a value or a message, reading it raises an exception; it never returns a value and it always ends. Bytes behind a complete document are left alone and do not influence the result.", "quantifier": "every schema, every value, every truncation point, every trailing byte sequence", "why_tests_cant": "every cut of every document; a reader that looks one character ahead can depend on what stands behind a value.", "anchors": ["lib/py/src/protocol/TJSONProtocol.py:LookaheadReader,readJSONString,readJSONNumericChars"]}
{"id": "C64", "title": "JSON: decoding does not depend on fragmentation", "statement": "Running a decoder of TJSONProtocol over a transport that delivers a byte stream in arbitrary non-empty pieces gives the same value as running it over a memory buffer holding the whole stream.", "quantifier": "every document, every fragmentation schedule", "why_tests_cant": "schedules.", "anchors": ["lib/py/src/protocol/TJSONProtocol.py:LookaheadReader,readJSONString"]}
{"id": "C65", "title": "JSON: with a length limit every input ends", "statement": "With a string_length_limit of l >= 0, reading or skipping a value, or reading a whole message, with TJSONProtocol from any finite input ends: it returns or raises TypeError, ValueError, UnicodeDecodeError, KeyError, TTransportException(SIZE_LIMIT) or TProtocolException(INVALID_DATA, DEPTH_LIMIT, for a message also BAD_VERSION). It calls trans.read at most once per byte consumed and l + 3 times more, and never reads past what it was given.", "quantifier": "every byte sequence, every schema and type, every limit", "why_tests_cant": "all byte strings; a number that is never terminated is polled until the limit is reached.", "anchors": ["lib/py/src/protocol/TJSONProtocol.py:LookaheadReader,readJSONString,readJSONNumericChars,readJSONSyntaxChar"]}
{"id": "C67", "title": "JSON: what string_length_limit limits", "statement": "With string_length_limit set, TJSONProtocol reads back exactly those texts, byte strings and integers whose written form is not longer than the limit and raises TTransportException(SIZE_LIMIT) for the others; the written form is what stands between the quotation marks (with escapes, in UTF-8 or base64), or the digits and sign of an integer.", "quantifier": "every limit, every text, every byte string, every integer", "why_tests_cant": "unbounded lengths, boundary cases with escapes.", "anchors": ["lib/py/src/protocol/TJSONProtocol.py:_check_string_length uses in readJSONString,readJSONNumericChars,readJSONBase64"]}
{"id": "C68", "title": "JSON: every spelling of a string is read as RFC 8259 defines it", "statement": "A peer may write the characters of a string as they are, with two-character escapes (including \\/), with \\u escapes in upper or lower case, or as surrogate pairs; readString returns the text that RFC 8259 says the spelling stands for and consumes exactly the string, on its own and as element of a list. A UUID with another number of digits than 32 raises ValueError.", "quantifier": "every text, every spelling of each of its characters, every transport that answers reads in one piece while it has enough", "why_tests_cant": "unboundedly many spellings; the library's own writer produces only one of them.", "anchors": ["lib/py/src/protocol/TJSONProtocol.py:readJSONString,ESCAPE_CHARS,readUuid"]}
{"id": "C66", "title": "TSimpleJSONProtocol writes plain JSON with field names", "statement": "TSimpleJSONProtocol writes every value as one RFC 8259 text: a struct is an object with the names of the fields that are set, in id order, lists and sets are arrays, maps are objects with the text of the key as name; no object has two members of the same name; a message is just its struct.", "quantifier": "all schemas, all well-typed values, both kinds of generated code", "why_tests_cant": "unboundedly many value trees; separators, quoting of numbers in key position and the context stack interact with nesting.", "anchors": ["lib/py/src/protocol/TJSONProtocol.py:TSimpleJSONProtocol,JSONPairContext,writeJSONNumber"]}
{"id": "C69", "title": "Default values belong to the instance", "statement": "Changing the default value of one struct instance in place (for example point.tags.append(x)) is not seen in any other instance: every instance created without a value for a member shows the default declared in the IDL, whatever the program did before with other instances.", "quantifier": "every IDL program (structs, nested defaults, several modules), every sequence of constructions, reads and in-place changes", "why_tests_cant": "a property of aliasing over all histories; tests look at one fresh instance.", "anchors": ["compiler/cpp/src/thrift/generate/t_py_generator.cc:generate_py_struct_definition,declare_argument,generate_py_thrift_spec"]}
{"id": "C70", "title": "Generated modules import, and new instances have the declared defaults", "statement": "For every IDL program that the compiler accepts, the generated ttypes.py modules can be imported, and an instance created without arguments can be created and has for every member the default declared in the IDL, or None.", "quantifier": "every IDL program: all struct definitions, all (nested) default values, all orders and modules", "why_tests_cant": "all programs; depends on the order in which classes, default arguments and thrift_specs are evaluated.", "anchors": ["compiler/cpp/src/thrift/generate/t_py_generator.cc:generate_py_struct_definition,render_const_value,generate_py_thrift_spec", "compiler/cpp/src/thrift/generate/t_generator.cc:generate_program"]}
{"id": "C71", "title": "What the format cannot represent is refused", "statement": "If writing a struct or any other value succeeds (no exception), then everything in it can be represented in the declared types: every integer, at any depth, is in the range of its type, every string is encodable, every length is below 2^31, and (generated code) every required field is set. No value is silently truncated or wrapped.", "quantifier": "every schema, every value of any size and nesting, every state of the protocol object; binary, compact, JSON, the C extension", "why_tests_cant": "the property is about all values outside of the domain, at every position in a nested value; tests try a few integers at top level.", "anchors": ["lib/py/src/protocol/TBinaryProtocol.py:writeByte..writeBinary", "lib/py/src/protocol/TCompactProtocol.py:makeZigZag,__writeSize", "lib/py/src/protocol/TJSONProtocol.py:writeByte..writeI64", "lib/py/src/ext/protocol.tcc:parse_pyint,check_ssize_t_32,encodeValue"]}
{"id": "C72", "title": "Names in the IDL do not interfere with the generated code", "statement": "Whatever members, parameters and declared exceptions are called (any names that the compiler accepts): reading an immutable struct or exception gives every member the value sent for it or its default; a client method sends the values it was called with; and when the handler raises a declared exception, the processor replies with that exception under its field id.", "quantifier": "every struct, function signature and list of declared exceptions; every sequence of fields on the wire; blocking, Twisted and Tornado code", "why_tests_cant": "a property of all names; tests compile IDL files with a few fixed names.", "anchors": ["compiler/cpp/src/thrift/generate/t_py_generator.cc:generate_py_struct_reader,generate_service_client,generate_process_function,generate_py_function_helpers", "compiler/cpp/src/thrift/parse/t_struct.h:append"]}
{"id": "C73", "title": "The members of generated classes work whatever they are called", "statement": "Whatever the members of a struct or exception are called (any names that the compiler accepts): the class can be defined; an instance can be built with keyword arguments and then has these values as attributes; write sends exactly the members that are set, in the order of thrift_spec; read gives every member the value received last for it or None; the C extension does the same as the Python code; all this with and without the options slots and immutable.", "quantifier": "every list of member names, every class option, all values, every sequence of fields received", "why_tests_cant": "a property of all names and combinations of options; tests compile IDL files with a few fixed names.", "anchors": ["compiler/cpp/src/thrift/generate/t_py_generator.cc:generate_py_struct_definition,generate_py_struct_reader,generate_py_struct_writer", "lib/py/src/ext/protocol.tcc:encodeValue,readStruct"]}
{"id": "C74", "title": "Instances of immutable classes do not change; equality and hash agree", "statement": "After any sequence of attribute assignments and deletions an instance of an immutable struct or exception has the members it was built with, and each attempt on a member raises TypeError, while attributes that are not members (such as __traceback__) can be set as on any exception. Two instances are equal exactly if they are of the same class and all their members are equal; equal instances of immutable classes have equal hashes; instances of mutable classes are not hashable.", "quantifier": "every class, every sequence of operations, all values, every equality and hash of values that agree", "why_tests_cant": "sequences of operations of any length and all pairs of instances.", "anchors": ["compiler/cpp/src/thrift/generate/t_py_generator.cc:generate_py_struct_definition"]}
{"id": "C75", "title": "The Twisted server answers every request once", "statement": "Whatever requests arrive on a connection and in whatever order the handlers (which may return a Deferred) finish: every handler is called once for its request, with the arguments sent; every request of a two-way function gets exactly one reply, with its name and sequence id and what its own handler did, and oneway requests get none (an HTTP request gets an empty response); what is sent for a request does not depend on the others; an unknown function is answered with a TApplicationException; if a handler raises TTransportException the connection is closed. A result that cannot be written never reaches the client as a value. Every HTTP request gets a response.", "quantifier": "every history of frames (any bytes) and of handlers that finish, any number of requests in flight", "why_tests_cant": "all interleavings of requests and completions; all results that cannot be serialized.", "anchors": ["lib/py/src/transport/TTwisted.py:ThriftServerProtocol,ThriftResource", "compiler/cpp/src/thrift/generate/t_py_generator.cc:generate_service_server,generate_process_function"]}
{"id": "C76", "title": "The Tornado server serves a connection one request at a time", "statement": "Whatever arrives on a connection and whatever the handlers do: at most one handler runs at a time; every frame gets at most one reply and none before its handler is done; only whole messages in frames are sent; every request of a two-way function is answered with its name, its sequence id and what its handler did, oneway requests get no reply, unknown functions are answered with a TApplicationException, each before the next frame is read. If a request cannot be answered (TTransportException, a result that cannot be written, a frame that cannot be read) the connection is closed and nothing follows. A client never waits for ever for an answer that the server has given up.", "quantifier": "every history of frames (any bytes), failures of reading and writing, and outcomes of handlers", "why_tests_cant": "conversations of any length with every kind of failure in every place.", "anchors": ["lib/py/src/TTornado.py:TTornadoServer.handle_stream,TTornadoStreamTransport.flush", "compiler/cpp/src/thrift/generate/t_py_generator.cc:generate_service_server,generate_process_function"]}
{"id": "C77", "title": "String and binary constants have in Python the value they have in the IDL", "statement": "For every string constant or default of an IDL file in UTF-8, however it is spelled (either kind of quotes, all escapes), the literal in the generated module has exactly that text as its value in Python and ends where it should, so that the code after it is not changed; for every constant of type binary the literal has exactly the bytes of the IDL.", "quantifier": "every value: all characters, quotes, backslashes, control characters and non-ASCII text; every code around it", "why_tests_cant": "all texts: escaping by the compiler has to be undone exactly by two other lexers.", "anchors": ["compiler/cpp/src/thrift/thriftl.ll:literal_begin", "compiler/cpp/src/thrift/generate/t_generator.cc:escape_string", "compiler/cpp/src/thrift/generate/t_py_generator.cc:render_const_value"]}
{"id": "C78", "title": "Comments of the IDL do not change the generated code", "statement": "For every documentation comment of the IDL the generated module is valid Python, the comment is found in it as one string literal with the lines of the comment in it, and the code after it is what it would be without the comment.", "quantifier": "every comment: all characters, any number and length of lines, any indentation", "why_tests_cant": "all comments: depends on how arbitrary text is read inside a Python literal.", "anchors": ["compiler/cpp/src/thrift/generate/t_generator.cc:generate_docstring_comment", "compiler/cpp/src/thrift/generate/t_py_generator.cc:generate_python_docstring"]}
{"id": "C79", "title": "Numeric and boolean constants have in Python the value they have in the IDL", "statement": "Every integer constant of 64 bits, in decimal or hexadecimal notation, is in the generated module the integer that was written, larger ones are refused by the compiler; true and false, 1 and 0 are True and False, and no other number is accepted for a bool; every double constant is in Python the number of type double nearest to what was written in the IDL.", "quantifier": "all integers and all numbers of type double", "why_tests_cant": "2^64 values; rounding when the compiler writes the number and when Python reads it.", "anchors": ["compiler/cpp/src/thrift/thriftl.ll:intconstant,hexconstant,dubconstant", "compiler/cpp/src/thrift/generate/t_generator.h:emit_double_as_string", "compiler/cpp/src/thrift/generate/t_py_generator.cc:render_const_value"]}
{"id": "C80", "title": "A constant that refers to other constants has their values", "statement": "For every sequence of constant declarations that is correctly typed, with nested lists, sets, maps and structs, enum values by name or number, and references to constants declared before, the compiler accepts the declarations and every constant in the generated module has the value that follows from them; declarations that are not correctly typed are refused.", "quantifier": "every program: any number of constants, types and values of any depth", "why_tests_cant": "all programs; the compiler represents values by objects whose kind changes while references are resolved.", "anchors": ["compiler/cpp/src/thrift/parse/t_scope.h:resolve_const_value", "compiler/cpp/src/thrift/parse/t_const_value.h", "compiler/cpp/src/thrift/main.cc:validate_const_rec", "compiler/cpp/src/thrift/generate/t_py_generator.cc:render_const_value"]}
{"id": "C81", "title": "The class of an enum has the names and values of the IDL", "statement": "For every enum the compiler assigns the values that the IDL gives (given ones, else one more than the name before, the first 0) and refuses those that do not fit into 32 bits and names that occur twice; the generated module can be imported; every name is an attribute of the class with its value; _NAMES_TO_VALUES contains exactly the names with their values, _VALUES_TO_NAMES exactly the values, each with a name that has it.", "quantifier": "every enum: any number of names, any names and values", "why_tests_cant": "all names, in particular reserved and private ones, and all sequences of given and implicit values.", "anchors": ["compiler/cpp/src/thrift/thrifty.yy:EnumDefList,EnumValue", "compiler/cpp/src/thrift/generate/t_py_generator.cc:generate_enum", "compiler/cpp/src/thrift/parse/t_scope.h:add_constant"]}
{"id": "C82", "title": "With the option enum, enums are members of their classes on both sides of the wire", "statement": "With the option enum of the generator every value of a declared type, with enums at any depth, is written and read as an equal value by the Python and by the accelerated protocols, for mutable and immutable structs; numbers that are assigned in place of members become the members; and numbers that the reader does not know do not prevent it from reading the rest.", "quantifier": "all schemas and values: structs, lists, maps nested to any depth", "why_tests_cant": "all schemas and positions of enums, and the combinations of immutable structs, typedefs and the C extension.", "anchors": ["compiler/cpp/src/thrift/generate/t_py_generator.cc:generate_py_struct_definition,generate_deserialize_field,generate_serialize_field", "lib/py/src/ext/protocol.tcc:readStruct"]}
{"id": "C83", "title": "THttpServer sends exactly one right response to each request", "statement": "A call through a generated client over THttpClient to a THttpServer calls the handler once with equal arguments and gives the client the answer to what the handler did; oneway messages are answered before the handler is called, and not again; a handler that raises ResponseException determines the response; a request whose body is shorter than a message is answered or refused; and each request gets exactly one response, with any server_class.", "quantifier": "all services, handlers, arguments, request bodies, formats of client and server, and interleavings of any number of requests", "why_tests_cant": "all schedules of concurrent requests, and requests that never end.", "anchors": ["lib/py/src/server/THttpServer.py:THttpServer", "lib/py/src/transport/THttpClient.py:THttpClient.flush", "lib/py/src/transport/TTransport.py:TFileObjectTransport.read"]}
{"id": "C84", "title": "THeaderProtocol answers every peer in its own dialect", "statement": "A server with THeaderProtocol answers a call with one message in the dialect (headers, framed, unframed) and the protocol (binary, compact) of the request and with its sequence id, calls the handler once with equal arguments, and leaves what follows the request for the next one; with a client that uses THeaderProtocol the client gets the answer to what the handler did, and each side gets the headers that the other had set, once; a message with an unknown protocol id or transform is answered with an exception.", "quantifier": "all services, handlers, arguments, headers, transforms, dialects and protocols, all sequences of messages on a connection, and all ways of the transport to split the bytes", "why_tests_cant": "all combinations of dialects, headers and fragmentation, and messages that follow each other.", "anchors": ["lib/py/src/protocol/THeaderProtocol.py:THeaderProtocol", "lib/py/src/transport/THeaderTransport.py:THeaderTransport"]}
{"id": "C85", "title": "Declarations of structs and services mean what they say", "statement": "The compiler accepts a struct, union, exception or service if and only if names and numbers of fields (and names of functions) are distinct and the rules of the IDL are kept; each generated class has exactly the declared fields, with the numbers that are written; the order of the declarations does not change what is sent, nor does adding a field with a new number change the others; the generated result class of a function has the result as field 0 and one field for each declared exception; and a call through the generated client and processor of an accepted service returns or raises what the handler did.", "quantifier": "all declarations of structs, unions, exceptions and services, of any size, all options -strict and -allow-neg-keys, all calls", "why_tests_cant": "all combinations of numbers, omitted numbers, names and orders of fields, and all calls of the services that are accepted.", "anchors": ["compiler/cpp/src/thrift/thrifty.yy:FieldIdentifier", "compiler/cpp/src/thrift/parse/t_struct.h:t_struct::append", "compiler/cpp/src/thrift/parse/t_function.h:t_function", "compiler/cpp/src/thrift/generate/t_py_generator.cc:generate_py_function_helpers"]}
{"id": "C86", "title": "Client and server may be of different versions", "statement": "A client and a server that were generated from different versions of a service (fields and exceptions added or removed, none given another type) understand each other: the handler runs once, with every argument that both versions have as it was sent and with the defaults for those the client does not know; the client returns or raises what the handler did, with every field that both versions have as it was sent; an exception that the client does not know makes the call fail.", "quantifier": "all pairs of versions of a service, all arguments, all outcomes of handlers, all protocols that are modelled, all ways the network cuts the messages", "why_tests_cant": "all pairs of versions and all calls between them.", "anchors": ["compiler/cpp/src/thrift/generate/t_py_generator.cc:generate_service_client", "compiler/cpp/src/thrift/generate/t_py_generator.cc:generate_process_function", "lib/py/src/Thrift.py:TProcessor"]}
{"id": "C87", "title": "A change that passes `thrift --audit` does not break clients", "statement": "If `thrift --audit old.thrift new.thrift` reports no failure, then every field, exception and function of the old program is still there in the new one with the same meaning, what was added is not required, and clients generated from the old program can call servers generated from the new one: the handler gets the arguments that were sent, and the caller is told what the handler did. The audit reports a failure exactly for removed or retyped fields, changed requiredness, fields added in between or as required, removed structs, functions, services or enum values, and changed results, oneway flags or inheritance.", "quantifier": "all pairs of programs that the compiler accepts, all functions, all arguments, all outcomes of handlers", "why_tests_cant": "all pairs of programs and all calls between code generated from them; tests have a list of single changes.", "anchors": ["compiler/cpp/src/thrift/audit/t_audit.cpp:compare_single_struct", "compiler/cpp/src/thrift/audit/t_audit.cpp:compare_type", "compiler/cpp/src/thrift/audit/t_audit.cpp:compare_functions", "compiler/cpp/src/thrift/audit/t_audit.cpp:compare_services", "compiler/cpp/src/thrift/main.cc:audit"]}
{"id": "C88", "title": "A service offers what the service it extends offers", "statement": "The processor of a service that extends others answers exactly the functions that the service declares and those of all services it extends, directly or not; no function hides an inherited one, so that a client of an extended service can use a server of the extending one.", "quantifier": "all programs that the compiler accepts, inheritance of any depth, all functions", "why_tests_cant": "inheritance of any depth and all sets of functions.", "anchors": ["compiler/cpp/src/thrift/generate/t_py_generator.cc:generate_service_server", "compiler/cpp/src/thrift/parse/t_service.h:validate_unique_members", "compiler/cpp/src/thrift/thrifty.yy:Service"]}
{"id": "C89", "title": "A server socket takes over only what is dead", "statement": "TServerSocket.listen on a Unix socket path removes the socket that an ended server has left there, and nothing else: if another server listens on the path, or something that is not a socket is there, it raises and changes nothing. A server whose listen has returned is the one that clients of the path get to until it is closed. Without host, a server is reached at all addresses of the machine, of both families; with a host, a client that is given the same host gets to the server.", "quantifier": "all contents of the file system, any number of servers and other programs, all interleavings of their system calls, all lists of addresses", "why_tests_cant": "all interleavings of servers that start at the same time, and all states of the file system.", "anchors": ["lib/py/src/transport/TSocket.py:TServerSocket", "lib/py/src/transport/TSocket.py:TServerSocket.listen", "lib/py/src/transport/TSocket.py:TSocketBase"]}
{"id": "C90", "title": "Calls are the same over every protocol and every transport", "statement": "What a generated client and processor do in a call does not depend on the protocol: over TBinaryProtocol, TCompactProtocol and TJSONProtocol, also with requests in one and replies in another, and over every transport that delivers what was sent, in pieces of any size, the handler runs once with the arguments that were given (as the server's version of the interface reads them), the caller is told what the handler did (as the client's version reads it), each side consumes exactly one message and leaves what follows it, a oneway call is not answered, and an unknown method is answered with UNKNOWN_METHOD.", "quantifier": "all schemas of both versions, functions, arguments, handlers, outcomes, protocols that write and read messages, transports and cuts into pieces", "why_tests_cant": "the JSON reader takes the message from the transport byte by byte with look-ahead; tests use whole messages in memory.", "anchors": ["lib/py/src/protocol/TJSONProtocol.py:TJSONProtocol", "lib/py/src/protocol/TJSONProtocol.py:TJSONProtocolBase", "compiler/cpp/src/thrift/generate/t_py_generator.cc:generate_process_function", "compiler/cpp/src/thrift/generate/t_py_generator.cc:generate_service_client"]}
{"id": "C91", "title": "The accelerated decoder takes from a transport what it needs and loses nothing", "statement": "The decoder of the C extension, which reads the transport's buffer directly and asks for refills (CReadableTransport), gives over every transport that has this interface, however the bytes arrive and wherever frames begin and end, the value or exception that it gives over a buffer with all the bytes, and what follows the value is still to come from the transport, for the extension and for the Python code.", "quantifier": "all bytes, schemas and values, all states of the transports, all ways of the transport below to split the bytes, all divisions into frames", "why_tests_cant": "the refill functions run only when a request crosses the end of the buffer; whether data is lost depends on the sizes of pieces and frames.", "anchors": ["lib/py/src/transport/TTransport.py:CReadableTransport", "lib/py/src/transport/TTransport.py:TBufferedTransport.cstringio_refill", "lib/py/src/transport/TTransport.py:TFramedTransport.cstringio_refill", "lib/py/src/transport/TTransport.py:TSaslClientTransport.cstringio_refill", "lib/py/src/transport/TZlibTransport.py:TZlibTransport.cstringio_refill", "lib/py/src/transport/THeaderTransport.py:THeaderTransport.cstringio_refill", "lib/py/src/ext/protocol.tcc:readBytes"]}
{"id": "C92", "title": "Types of included files are what their names say, and generated code finds them", "statement": "The compiler rejects circular includes, and only these, as recursion, and compiles the file and all files that it includes, directly or not. A declaration is rejected as already defined exactly if its file, or an included one that has the same namespace in every language, declares the name too. In every struct and function of every file, a name without a dot is the declaration of the file itself, base.name is the declaration of the included file base.thrift, before or after its use, and typedefs stand for what they were declared as in their own file. The generated Python module of a file and those of its services find the class of every type that they use.", "quantifier": "all sets of files, includes of any depth, all declarations", "why_tests_cant": "the combinations of names, namespaces and includes are unlimited; the tests of the compiler have a few fixed files.", "anchors": ["compiler/cpp/src/thrift/main.cc:parse", "compiler/cpp/src/thrift/thrifty.yy:FieldType", "compiler/cpp/src/thrift/parse/t_program.h:is_unique_typename", "compiler/cpp/src/thrift/generate/t_py_generator.cc:init_generator", "compiler/cpp/src/thrift/generate/t_py_generator.cc:generate_service", "compiler/cpp/src/thrift/generate/t_py_generator.cc:type_name"]}
{"id": "C93", "title": "A SASL connection of Twisted is negotiated and carries calls", "statement": "ThriftSASLClientProtocol(client_class, iprot_factory, host=..., service=...) negotiates with a server that follows the SASL specification of Thrift, then fires started with a client; calls of this client are sent wrapped, and the unwrapped replies complete them. Before that, the server sees only messages of the negotiation.", "quantifier": "all SASL objects, all servers, all orders of events", "why_tests_cant": "no test of the library uses this class, and SASL mechanisms and servers are many.", "anchors": ["lib/py/src/transport/TTwisted.py:ThriftSASLClientProtocol"]}
{"id": "C94", "title": "repr of a generated instance is a program that makes an equal instance", "statement": "For an instance x of a generated struct, union or exception, however deep its containers and structs are nested, repr(x) returns a text, and eval of this text in the module of the class returns an instance that equals x. Hence two instances with the same text are equal.", "quantifier": "all instances of all generated classes, with all values of fields, all options of the generator", "why_tests_cant": "texts have quotes, control characters, surrogates, empty containers, negative numbers, one-element tuples and names of all kinds, in any combination; a test tries a few.", "anchors": ["compiler/cpp/src/thrift/generate/t_py_generator.cc:generate_py_struct_definition (__repr__)", "lib/py/src/protocol/TBase.py:TBase.__repr__", "lib/py/src/Thrift.py:TFrozenDict"]}
{"id": "C95", "title": "the generated command line tool calls the function one names, at the server one names, with the arguments one gives", "statement": "For a service S the compiler generates the script S-remote. Run with options for the server, the name of a function of S (or of a service S extends) and one word for each argument, it connects to this server in the way the options say, calls this function once, with the text itself for a string, with its bytes for a binary and with the value of the expression otherwise, prints the result and closes the connection. It calls nothing else, whatever the command line.", "quantifier": "all services, all options and combinations of them, all texts as arguments, all servers", "why_tests_cant": "command lines are arbitrary lists of arbitrary byte strings; options may be absent, repeated or in another order, URLs have many forms, and declared types and names of services vary with the IDL.", "anchors": ["compiler/cpp/src/thrift/generate/t_py_generator.cc:generate_service_remote", "lib/py/src/transport/THttpClient.py:THttpClient.__init__", "lib/py/src/transport/TSSLSocket.py:TSSLSocket.__init__"]}
{"id": "C96", "title": "THttpClient sends its requests to the server and the resource of its URL, and the credentials of a proxy to the proxy only", "statement": "THttpClient(url) connects to the host and the port of the URL (the port of the scheme if there is none), with TLS exactly for https and then with a certificate for this host, and its requests are for the path and the query of the URL, with a Host header for its host and port. If the environment names a proxy for the scheme and the host is not exempt, it connects to the host and the port of the proxy, and the same request gets to the same server; user and password in the URL of the proxy are shown to the proxy and to nobody else.", "quantifier": "all URLs, all arguments for TLS, all environments with and without proxies", "why_tests_cant": "URLs have optional parts of any text: hosts as names or addresses, ports, parameters, queries; the result depends on the environment of the process, and what goes through a tunnel is not seen by a test at the proxy.", "anchors": ["lib/py/src/transport/THttpClient.py:THttpClient.__init__", "lib/py/src/transport/THttpClient.py:basic_proxy_auth_header", "lib/py/src/transport/THttpClient.py:THttpClient.open", "lib/py/src/transport/THttpClient.py:THttpClient.flush"]}
{"id": "C97", "title": "The doc comments of the IDL are the docstrings of what they stand before", "statement": "The text of a doc comment, without the stars and the indentation that only lay it out, is the doc of the definition, field, enum value or function that follows it, and of no other; nothing is lost of it, and the compiler accepts any comment. The docstring of the generated class or method is this text, followed by one entry for each field or parameter with its own text.", "quantifier": "all comment texts, with and without stars, all sequences of comments and declarations, all lists of members", "why_tests_cant": "Comments are free text in any layout, and which one belongs to which declaration depends on everything between them; a test has a few.", "anchors": ["compiler/cpp/src/thrift/main.cc:clean_up_doctext", "compiler/cpp/src/thrift/thriftl.ll:doctext_begin", "compiler/cpp/src/thrift/thrifty.yy:CaptureDocText", "compiler/cpp/src/thrift/generate/t_py_generator.cc:generate_python_docstring"]}
{"id": "C98", "title": "Decorated protocols are protocols, and multiplexers are processors: both can be nested", "statement": "TMultiplexedProtocol(p, service) and the StoredMessageProtocol of a TMultiplexedProcessor exist for any protocol object p; the methods of the decorator come first, and in them super is p, and everything else is as in p. In particular a TMultiplexedProcessor can be registered with another, as a service or as the default, and then a call of outer:inner:method reaches the processor registered as inner.", "quantifier": "any protocol class with any base classes, decorated or not; any registries", "why_tests_cant": "Which method Python finds depends on the linearization of a class made at run time from the class of the object; tests decorate the few classes of the library once.", "anchors": ["lib/py/src/protocol/TProtocolDecorator.py:TProtocolDecorator.__new__", "lib/py/src/protocol/TMultiplexedProtocol.py:TMultiplexedProtocol", "lib/py/src/TMultiplexedProcessor.py:StoredMessageProtocol", "lib/py/src/TMultiplexedProcessor.py:process"]}
{"id": "C99", "title": "A callback installed with on_message_begin of a multiplexer is called for every message, and THttpServer answers oneway messages at once", "statement": "After on_message_begin(f) of a TMultiplexedProcessor, f is called with the name (without the service), the type and the sequence id of each message that one of its processors, default included, processes, before the handler is called. So a THttpServer with a multiplexer answers a oneway message before the handler runs, and any other message with one response that carries the reply.", "quantifier": "any sequence of registerDefault, registerProcessor and on_message_begin; any services, protocols and messages", "why_tests_cant": "The callbacks are attributes of the registered processors, which may be registered under several names, replaced, or registered after the callback was installed; the order of response and handler is visible only to slow handlers.", "anchors": ["lib/py/src/TMultiplexedProcessor.py:TMultiplexedProcessor.on_message_begin", "compiler/cpp/src/thrift/generate/t_py_generator.cc:generate_service_server", "lib/py/src/server/THttpServer.py:do_POST", "lib/py/src/server/THttpServer.py:on_begin"]}
{"id": "C100", "title": "With the option type_hints, what is read is what the annotations say", "statement": "Every attribute of every instance that generated code reads, with or without the C extension, every argument that a handler gets, and every value that a function of a client returns, is an instance of the annotation that the compiler wrote for it (Optional members may be None).", "quantifier": "any types, structs, enums and defaults; any message; any depth of nesting", "why_tests_cant": "Annotations are not evaluated, so no test at run time fails; a type checker believes them and does not see what is read. Whether they hold depends on the bytes received.", "anchors": ["compiler/cpp/src/thrift/generate/t_py_generator.cc:type_to_py_type", "compiler/cpp/src/thrift/generate/t_py_generator.cc:member_hint", "compiler/cpp/src/thrift/generate/t_py_generator.cc:arg_hint", "compiler/cpp/src/thrift/generate/t_py_generator.cc:func_hint", "compiler/cpp/src/thrift/generate/t_py_generator.cc:generate_deserialize_container", "lib/py/src/ext/protocol.tcc:decodeValue"]}
{"id": "C101", "title": "What arrives is == to what was sent", "statement": "If a program writes an instance of a generated class and a peer with the same code reads it, the two instances are equal, in the sense of the generated __eq__ and of Python's == of the numbers, texts and containers in them, whichever of the two is asked; and an instance is refused only if a required member is None.", "quantifier": "any types, structs, enums and defaults; any instance, of any depth; reading with and without the C extension", "why_tests_cant": "Tests of round trips use == themselves, on a few instances that have all their members set; whether it holds depends on the defaults, on which containers are immutable and on the values.", "anchors": ["compiler/cpp/src/thrift/generate/t_py_generator.cc:generate_py_struct_definition", "compiler/cpp/src/thrift/generate/t_py_generator.cc:generate_py_struct_writer", "compiler/cpp/src/thrift/generate/t_py_generator.cc:generate_serialize_field", "compiler/cpp/src/thrift/generate/t_py_generator.cc:generate_serialize_container", "compiler/cpp/src/thrift/generate/t_py_generator.cc:generate_py_struct_required_validator", "compiler/cpp/src/thrift/generate/t_py_generator.cc:generate_deserialize_container", "lib/py/src/ext/protocol.tcc:decodeValue"]}
{"id": "C102", "title": "Copies and pickles of instances equal the original", "statement": "copy.copy, copy.deepcopy and pickle.loads(pickle.dumps(o)) of an instance of a generated struct or exception give an instance of the same class with (copies of) the same members, equal to the original.", "quantifier": "any class, mutable or immutable, with or without slots, struct or exception, with any members; any instance reached by construction, assignment, deletion and copying; any way of copying values", "why_tests_cant": "The tests deep-copy one mutable struct and pickle nothing; a sample would not settle it either, since whether a copy can be made depends on the combination of options and of base class, and for exceptions on how the instance was made.", "anchors": ["compiler/cpp/src/thrift/generate/t_py_generator.cc:generate_py_struct_definition", "lib/py/src/Thrift.py:TException"]}
