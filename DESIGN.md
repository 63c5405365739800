# Formal model of the Thrift Python library: design

Subject: `/repo` (Apache Thrift at the pinned commit), the Python library in
`lib/py/src`, the C extension in `lib/py/src/ext`, and the Python code that
`compiler/cpp/src/thrift/generate/t_py_generator.cc` emits. The code is never
run; it is read as text. All proofs are in Lean 4.33.0.

Files: `properties.jsonl` (the properties), `MANIFEST.json` (which theorems
settle which property), `AXIOMS.md` (axioms per theorem), `seeded/LOG.jsonl`
(wrong programs the theorems were tried on), `lean/` (model and proofs),
`tools/` (generators of the JSON files and the mutation driver).

## 1. Trusted base

* Lean's kernel (and the Lean front end that turns the source text into terms).
* Axioms: at most `propext`, `Classical.choice`, `Quot.sound`. `AXIOMS.md` lists
  them theorem by theorem. No own axioms, no `sorry`, no `native_decide`, no
  `bv_decide`.
* The reading of the Python and C++ code: every model definition cites the file
  and the lines it models. Nothing mechanical ties the model to the code.
* The reading of the Python, OS and library primitives the code calls, modelled as
  data, as parameters with contracts, or as environment events (section 3).
* The specifications in `lean/Verif/Spec`: the theorem statements mention them and
  the definitions of the model (`Model`), nothing of `Proofs`.

## 2. Shape of the model

* Bytes are `List UInt8`, Python ints are `Int`, texts are lists of code points.
* Exceptions are values (`Exc`). A Python method that can raise and that mutates
  the protocol object is a function `state → result-or-exception × state`: the
  mutations made before an exception are kept, as in Python.
* A method that reads from a transport is an *interaction tree* (`Prog`): it may
  call `trans.read(n)` and continue with the answer. The same tree can be run over
  any transport. Binary and compact readers call only `readAll`, which is itself
  modelled as a loop over `read`; `exec` runs a tree on a complete byte string.
* Loops `while True` take fuel; running out of fuel is a separate outcome
  (`diverge`), never an exception and never a value. Termination is a theorem
  (fuel above an explicit bound is never exhausted); non-termination is a theorem
  (every fuel is exhausted).
* `TProtocolBase.skip`, `readStruct`, `writeStruct` are modelled once, over a record
  of protocol operations (`RdOps`, `WrOps`), and instantiated with the binary, compact
  and JSON operations, as in the class hierarchy. `Mode.gen` is the code the compiler
  generates by default, `Mode.dyn` is `TBase`/`readStruct`/`writeStruct`
  (`-gen py:dynamic`).
* Servers, event-loop code and clients of asynchronous transports are state machines;
  the theorems quantify over all sequences of events (schedules, results of calls,
  interleavings).
* Proof pattern of the codecs: a value is a sequence of tokens (`Proofs/Tokens`); a
  protocol is a language of tokens with a state; the writer emits the bytes of the
  tokens, the reader inverts them (`WriterLaws`, `ReaderLaws`). Arbitrary input is
  handled by invariants over the interaction trees (`Proofs/Safe`, `Always`, `Deep`,
  `Fuel`, `Simulate`).
* Property theorems live in `Verif/Props/*`, helper lemmas in `Verif/Proofs/*`,
  independent specifications in `Verif/Spec/*`. Every property theorem has an
  `example` beside it that meets its hypotheses.

## 3. What is modelled, what is a parameter, what is left out

| thing | treatment |
|---|---|
| IEEE doubles | a double is its 64-bit pattern; `struct.pack('d')` is the identity on patterns |
| float formatting and parsing (JSON) | parameters `Floats`; contracts `Faithful` (finite doubles are written as JSON numbers and read back) and `Words` (`inf`, `nan`) are explicit hypotheses with an instance |
| zlib | parameters with the documented contract as hypotheses (`ZlibOk`, `ZlibContract`); instances `storedZlib`, `toy` |
| SASL mechanism | parameter; contract `Peers` only for the data phase |
| sockets, operating system | the results of `recv`/`send`/`connect`/`accept`/`select` are events or a transition function |
| threads, forks, Tornado and Twisted event loops | explicit interleavings of atomic steps |
| `dict`/`set` | lists in iteration order; equality of keys is `pyEq` (numbers of different types are not mixed) |
| memory exhaustion, Python's recursion limit, signals, timing, logging | not modelled |

Per module of the model:

* `Base`, `Pack`, `Bits`, `Types`: `struct.pack/unpack` for the formats in use, UTF-8
  (`String.utf8EncodeChar` of Lean's library as the specification of encoding), Python's
  bit operations on unbounded ints. `Types`: `thrift_spec` as `Schema`; immutability
  flags of container specs are left out; enums are `i32`; `slist` and `typedef` do not occur.
* `Protocol`, `Binary`, `Compact`: all of `TProtocolBase`'s generic code, `TBinaryProtocol`,
  `TCompactProtocol`. A Python object of another type than declared is a `TypeError` at the
  point where the method would use it; duck typing beyond this (e.g. `True` written as an
  i32) is left out. `TBinaryProtocolAccelerated` and `TCompactProtocolAccelerated` without the
  extension are these classes.
* `Json`, `SimpleJson`: `TJSONProtocol`, `TSimpleJSONProtocol`. Left out: Python's limit of
  4300 digits for `int`, digits of other scripts in `int(text, 16)`. Numbers at the outermost
  level (no message, no container around them) are excluded from the reading theorems, because
  nothing marks their end. `JsonProto` has it as a protocol object.
* `Fast`: the C extension, encoder and decoder, both protocols. Memory management is left out,
  `long` has 64 bits, classes are mutable; what Python does with invalid UTF-8 under
  `errors="replace"` and with schema types the extension does not know is the parameter `Env`.
  Its loops on streams of unlimited length are fuelled like the others.
* `Transport`: `TTransportBase.readAll`, `TMemoryBuffer`, `TBufferedTransport`,
  `TFramedTransport`. `cstringio_refill` is in `Fast` and `CReadable`. Closing of the
  underlying transport is an event.
* `Header`: `THeaderTransport` completely.
* `Socket`: `TSocket` (`open`, `read`, `write`, `isOpen`, `close`); Unix sockets only as
  address kind. `TServerSocket` is in `ServerSocket`.
* `Sasl`: `TSaslClientTransport`. The Kerberos helper classes are left out.
* `Zlib`: `TZlibTransport` with its statistics.
* `Rpc`: messages, generated clients and processors, `TApplicationException`,
  `TMultiplexedProtocol`, `TMultiplexedProcessor`, `TSerialization`. Declared exceptions are
  tried in the order of their field ids; a generated exception matches only its own class
  (subclassing by users is left out); the return value of `process` is left out;
  `on_message_begin` of the multiplexer is left out.
* `Nonblocking`: `TNonblockingServer`, the variant with `poll`; connections are numbered
  instead of identified by file descriptors (which the OS reuses).
* `Servers`: `TSimpleServer`, `TThreadedServer`, `TThreadPoolServer`, `TForkingServer`,
  `TProcessPoolServer` as loops whose calls get their results from the environment;
  asynchronous exceptions are left out.
* `Tornado`, `TornadoClient`: `TTornado.py` lock, frames, server loop; the generated client.
  Left out: `open`, timeouts, deprecation warnings; frames of 2^31 bytes and more; what
  `read_bytes` does with a negative count. Futures are asyncio futures (Tornado 5 and later).
* `Twisted`: `ThriftClientProtocol` and the generated client with Deferreds, including
  cancelling. Left out: the SASL client, `sendString` of 2^32 bytes,
  `connectionLost` before `connectionMade`.
* `Names`: which names generated clients and processors use; names of other attributes
  (`_seqid`, `__init__`) left out.
* `FrozenDict`, `Recursive`: `TFrozenDict` with the methods of `dict` it inherits and Python's
  operators as parameters; `fix_spec` over a heap, and the `thrift_spec` the compiler writes.
* `Defaults`: default values of struct members in generated Python modules on a heap of objects:
  class bodies with default arguments, `thrift_spec`, `__init__`, the fresh instance that `read`
  fills. Scalars and enums are atoms; typedefs, constants and imports of other modules as default
  values, slots and the enum option are left out.
* `Locals`: the variables of the generated `read` of immutable structs, client methods and `send_*`,
  `process_*` and `write_results_exception_*`, by name. Reading and writing of the fields themselves is not
  repeated here. Members with the names of module-level objects or of temporaries are left out.
* `Attrs`: the attributes of instances of generated classes by name: class statement, `__init__`,
  `__setattr__`, `__delattr__`, `__eq__`, `__hash__`, and the attribute accesses of `read`, `write` and the
  C extension. Python's name mangling, `__slots__` and `object.__setattr__` are written down from the
  language reference. Dynamic base classes, the enum option and subclasses are left out.
* `TornadoServer`: the coroutine `handle_stream` with the generated Tornado processor, one connection; an
  event is a look at the stream, the end of `readFrame`, or the end of a handler. `readFrame` itself is in
  `Tornado`.
* `Source`: the bytes of string literals and docstrings in generated modules, the lexer of the IDL for literals,
  and Python's reading of a string literal (decoding of the module, end of the token, escape sequences),
  written down from the language reference. The text of a comment is taken as the lexer of the IDL leaves it
  (`clean_up_doctext` is not modelled). Left out: NUL in IDL files, the option `coding`, and the indentation
  and place of the literals in the module.
* `Numbers`: the text of integer, boolean and double constants, `strtoll` of the lexer, and Python's reading of
  that text. Finite doubles are rational numbers (no signed zero); `printf` with 16 decimals rounds to nearest,
  ties to even; `atof` and Python round a decimal number to a nearest double by the same rule, which is a
  parameter (`Rounds`). The parser of double literals in the IDL is not modelled: theorems speak about the
  number that is written.
* `Consts`: `t_const_value`, `resolve_const_value`, `validate_const_rec` and the value of
  `render_const_value` as a tree. Typedefs are expanded; the order of `std::map` and equal keys are left out,
  and so is the option `enum`.
* `Enums`: the values of enums in `thrifty.yy` and the class of `generate_enum` without the option `enum`. What
  names like `__slots__` mean to Python is not modelled.
* `IntEnum`: the option `enum`: `__init__` of immutable classes, `__setattr__` of the others, reading and
  writing, with the Python protocols and with the C extension. Values are trees; the bytes are the subject of
  other models. Members have no defaults and are not named like reserved words.
* `HttpServer`: `THttpServer.do_POST`, `on_begin`, `TFileObjectTransport.read` over a connection that may stay open,
  `THttpClient.flush` connected to the server, and the interleavings of requests with a threaded `server_class`
  (as steps between the accesses to shared attributes). `http.server` itself is not modelled: it parses the headers,
  calls `do_POST` and closes the connection. Not modelled: TLS, `shutdown`.
* `HeaderProtocol`: `THeaderProtocol` with the pure Python protocols behind it, generated processors and clients that
  use one object for both directions. The reply is written with a copy of the protocol object from before the
  message, and `sequence_id` is set when the reply is flushed, see `finish` and `serveWith`. The handler does not
  set headers while it runs.
* `Structs`: how the compiler makes structs, unions, exceptions and functions of their declarations: the actions of the
  grammar for fields and field lists, `t_struct`, `t_function`, `t_service::add_function`, and the structs for
  arguments and results. The definitions are for any kind of types; `compile` has resolved ones. Not modelled: the
  lexer and parser themselves, `xsd_attrs`, the validation of defaults (see `Consts`). `extends` and names of types
  are in `Audit`.
* `Audit`: programs with types as they are written (names, typedefs), `thrift --audit` on two of them, `extends`, and
  the classes that are generated. Classes get numbers by any injective function of their names (`Numbering`).
  Not modelled: `include` (see `Includes`), constants and default values in the audit (they only give warnings), warnings.
* `ServerSocket`: `TServerSocket.listen` and `close`, one system call after the other, for any number of servers and
  other programs; the choice of the internet address. The operating system (Linux: what `connect`, `unlink`, `bind`,
  `listen` and `close` do) is written down there and is part of the trusted base. Not modelled: permissions, links,
  queues of connections, `accept` (see `Servers`), abstract names.
* `JsonProto`: the methods of `TJSONProtocol` (see `Json`) as a protocol object for clients and processors (`Rpc`).
* `CReadable`: `readBytes` of the C extension with the buffer of a transport, and `cstringio_refill` of `TMemoryBuffer`,
  `TBufferedTransport`, `TFramedTransport`, `TSaslClientTransport`, `THeaderTransport` and `TZlibTransport`. Not modelled:
  the length of the bytes in the call of the refill function is passed as `int` for the format `y#`.
* `Includes`: programs of several files: parsing of included files, the scope of a program, the names of types and
  services, the generated Python modules, what they import and what dotted names in them are. Not modelled: how
  an included file is searched for, constants, file names that are no Python names, modules of Python or of the
  library with the same name as a generated one, options of the generator. That modules can be executed is assumed.
* `TwistedSasl`: `ThriftSASLClientProtocol`; the SASL object is a parameter, `Int32StringReceiver` of Twisted is written
  down. What a client does once it is connected is in `Twisted`.
* `Repr`: `__repr__` of generated classes and of the values of fields, and `eval` of such texts (constants, displays, calls).
  The shortest decimal form of floats, the printable characters and `==` are parameters; that a float is read back from
  its text is assumed of them (`Spec.Repr.Lawful`). The limit of open brackets is a parameter.
* `Remote`: the generated script `<Service>-remote`: reading of the options, `urlparse` for printable ASCII, the choice of the
  transport and the checks of its constructor, the conversion of arguments, the scope of `eval`. `int`, `eval`, files,
  `open()` and the client are parameters; what `eval` does besides giving a value and the proxies of `THttpClient` are not modelled.
* `HttpUrl`: `THttpClient.__init__`, `basic_proxy_auth_header`, `open` and the request line, `Host` and `Proxy-Authorization`
  of `flush`; from Python 3.11 the attributes of `urlparse` results, and `_get_hostport`, `set_tunnel`, `_tunnel` and the `Host`
  header of `http.client`. `getproxies`, `proxy_bypass`, `unquote` of a text with `%` and the loading of certificates are parameters.
* `Doc`: the rule of the lexer for doc comments, `clean_up_doctext`, `CaptureDocText` and `DestroyDocText` and the state they
  share, and the contents made by `generate_python_docstring`. The grammar is a sequence of events (`Doc.Ev`); `Source` has the
  printing of docstrings and how Python reads them.
* `Decorator`: `TProtocolDecorator.__new__`: the class it makes, with CPython's `pmerge`, and where its attributes are found.
* `Callbacks`: `on_message_begin` of generated processors and of `TMultiplexedProcessor`, with the history of registrations; `THttpServer` with a
  multiplexer. Registered multiplexers are left out (C98).
* `Hints`: the annotations of the option `type_hints`, as syntax trees, and the classes of the objects that generated code and the C extension put where they
  stand. What an annotation means is `Spec/Hints.lean`. Values on the wire are trees.
* `Equal`: `write` of generated code (option `enum`) to the trees of `Hints`, and `==` of instances and of Python's numbers, texts and
  containers, written down from the language reference. Which objects programs use is `Spec/Equal.lean`.
* `Copies`: what `copy.copy`, `copy.deepcopy` and `pickle` do with instances of `Attrs`, written down from `copy.py`, `copyreg.py` and
  CPython's `object` and `BaseException`. Not modelled: exceptions without members, shared and cyclic values.
* `TwistedServer`: `ThriftServerProtocol`, `ThriftResource` and the generated Twisted processor; handlers
  answer at once or later, as events. Left out: `_on_message_begin`, what Twisted drops or delivers after
  the connection is closed (all events stay possible).
* `Http`: `THttpClient` after the URL is parsed; `http.client` is the environment.
* `Ssl`: `TSSLSocket`, `TSSLServerSocket`, `sslcompat` for Pythons with `SSLContext`; what
  `SSLContext` and the OpenSSL handshake do is written down as `Ctx.fresh`, `setVerify`,
  `wrap`, `Ctx.admitsServer`, `Ctx.admitsClient` and is part of the trusted base.
  Deprecated positional arguments are left out.

Not modelled at all: `TForkingServer`'s signal handling beyond
the above, `TSCons`/`contrib`, `TBinaryProtocolFactory` and other factories, `perf`,
the compiler's lexer and grammar (their actions are modelled).

## 4. Properties and the modules that settle them

| properties | model | theorems in `Props/` |
|---|---|---|
| C01, C04, C07, C10, C11, C13, C14, C17, C53 (binary) | Binary | Binary |
| C02, C03, C05, C08 and the compact halves of the above | Compact | Compact |
| C12, C15, C16, C18, C19, C20 | Protocol, Binary, Compact | Arbitrary, Depth, Fragmentation, Unset |
| C06, C09–C15, C19, C63–C65, C67, C68 (JSON) | Json | Json, JsonText, JsonReject, JsonTruncate, JsonDepth, JsonArbitrary, JsonForeign, IntText, Base64 |
| C66 | SimpleJson | SimpleJson |
| C21–C25 | Transport | Transport |
| C26–C29 | Header | Header |
| C30, C55 | Zlib | Zlib |
| C31 | Sasl | Sasl |
| C32, C33, C54 | Socket | Socket |
| C34–C38, C51, C52 | Rpc | Rpc, Calls, Multiplex, AnyMultiplex, Failed |
| C39–C41 | Nonblocking | Nonblocking |
| C42 | Servers | Servers |
| C43, C56 | Tornado | Tornado, TornadoFrames |
| C44 | Twisted | Twisted |
| C45 | Http | Http |
| C46, C57 | FrozenDict | FrozenDict |
| C47, C58 | Recursive | Recursive |
| C48, C49 | Fast | Fast, FastDecode |
| C50, C61, C62 | Ssl | Ssl |
| C59 | TornadoClient | TornadoClient |
| C60 | Names | Names |
| C69, C70 | Defaults | Defaults |
| C71 | Binary, Compact, Json, Fast | Refuse |
| C72 | Locals | Locals |
| C73, C74 | Attrs | Attrs |
| C75 | TwistedServer | TwistedServer |
| C76 | TornadoServer | TornadoServer |
| C77 | Source | Source |
| C78 | Source | Source |
| C79 | Numbers | Numbers |
| C80 | Consts | Consts |
| C81 | Enums | Enums |
| C82 | IntEnum | IntEnum |
| C83 | HttpServer | HttpServer |
| C84 | HeaderProtocol | HeaderProtocol |
| C85 | Structs | Structs |
| C86 | Rpc | Versions, Rpc |
| C87 | Audit, Structs, Rpc | Audit, Structs, Versions |
| C88 | Audit | Audit |
| C89 | ServerSocket, Socket | ServerSocket |
| C90 | Rpc, Json, JsonProto, Binary, Compact | AnyProtocol |
| C91 | CReadable, Fast, Transport, Sasl, Header, Zlib | CReadable |
| C92, C88 (several files) | Includes | Includes |
| C93 | TwistedSasl | TwistedSasl |
| C94 | Repr | Repr |
| C95 | Remote | Remote |
| C96 | HttpUrl | HttpUrl |
| C97 | Doc | Doc |
| C98 | Decorator, Rpc | Decorator, Multiplex |
| C99 | Callbacks, Rpc, HttpServer | Callbacks |
| C100 | Hints | Hints |
| C101 | Equal, Hints | Equal |
| C102 | Copies, Attrs | Copies |

A property that is false of the code is claimed `partial`: the theorems with the suffix
`_partial` say what holds, and the negation is proved with a witness. The notes in
`MANIFEST.json` say what is missing.

## 5. Disagreements between the code and a property

Each is proved as a theorem of the model; the names are those of the theorems (without the
prefix `Thrift.`).

Protocols

1. `TBinaryProtocol.readMessageBegin`, non-strict: the name is not subject to
   `string_length_limit` (C12): `binary_old_name_unlimited`.
2. `skip` of a STRING decodes UTF-8, so an unknown `binary` field that is not valid UTF-8
   makes deserialization raise (C13, C14): `Binary.binary_skip_non_text`,
   `Binary.binary_unknown_binary_field`, `Compact.compact_skip_non_text`,
   `Compact.compact_unknown_binary_field`.
3. Dynamic `readStruct` indexes `thrift_spec` with a negative field id, so that the field
   overwrites another one (C14): `Binary.dyn_negative_id_aliases`.
4. Dynamic `readStruct`/`writeStruct` do not count nesting (C15): `dynamic_depth_unbounded`.
5. Compact and JSON integers are not range checked on reading (C19): `compact_out_of_range`,
   `Json.json_out_of_range`.
6. JSON without a length limit: a document that ends within a number makes the reader loop
   forever (C63): `Json.json_truncated_hangs`.
7. JSON `\u` escapes are read with `read(4)`, so fragmentation matters (C64):
   `Json.json_fragmentation_differs`.
8. JSON NaN and infinities do not round-trip and are not JSON (C06, C09):
   `Json.json_nonfinite_lost`, `Json.json_nonfinite_invalid`; raw control characters are written
   as they are: `Json.json_control_invalid`. The same for `TSimpleJSONProtocol` (C66), which in
   addition writes maps with compound keys as objects without names:
   `SimpleJson.simple_compound_key_invalid`.
9. `read` of a generated struct does not check required fields (C20): `read_ignores_required`.

C extension

10. The encoder drops all fields of a struct with a negative field id, and does not validate
    nested structs (C48): `Fast.fast_drops_implicit_ids`, `Fast.fast_nested_required`.
11. The decoder differs from Python on bool bytes other than 0 and 1, invalid UTF-8, element
    types of containers, lengths of skipped strings, depth of skipped values, overlong compact
    integers (C49): `Fast.fast_decoder_differs`, `Fast.fast_decoder_differs_depth`,
    `Fast.fast_compact_differs`, `Fast.fast_compact_fails_alone`. For the compact protocol
    "overlong" is made precise by `Spec.Strict`: `TCompactProtocol` with range checks. Where it has
    no objection, the two decoders agree on every byte stream (`Fast.fast_compact_agrees_partial`).

Transports

12. `TBufferedTransport`/`TFramedTransport`: `read(0)` drops buffered bytes (C22, C24):
    `buffered_read_zero`, `framed_read_zero`.
13. `TZlibTransport`: a limit that is reached exactly is lifted, an empty first flush raises
    `TypeError` and breaks the stream, a read at the end loops forever (C30), the inbound
    counters are exchanged (C55): `zlib_limit_bypassed`, `zlib_empty_flush`,
    `zlib_empty_flush_breaks`, `zlib_eof_hangs`, `zlib_stats_inbound`.
14. `THeaderTransport`: a frame shorter than four bytes raises `struct.error` (C27):
    `Header.header_tiny_frame`; headers set while answering a client of another type are kept:
    `Header.header_kept_framed`.
15. `TSocket.open` leaks a socket when `settimeout` fails or `connect` raises something other than `OSError` (C33): `Socket.socket_open_leaks`.
16. `THttpClient`: error statuses are not noticed, a second Content-Length is possible, `open`
    leaks the connection (C45): `Http.http_status`, `Http.http_length_twice`, `Http.http_open_leaks`.
17. `TSSLSocket`: multi-valued subject elements in the legacy callback, connection left open after a
    rejected certificate, stale `is_valid`, default options that cannot connect, host names unchecked
    (C50, C61, C62): `Ssl.ssl_legacy_multivalued`, `Ssl.ssl_rejected_open`, `Ssl.ssl_stale_valid`,
    `Ssl.ssl_cert_none`, `Ssl.ssl_ca_certs`, `Ssl.ssl_server_default`, `Ssl.ssl_hostname_unchecked`.

RPC and servers

18. `TMultiplexedProtocol`: a service name with the separator is misrouted (C34):
    `multiplexed_misrouted`.
19. A result that cannot be serialized gets no reply (C35): `process_unserializable`. The client
    checks neither name nor sequence id of a reply (C36).
20. A failed call leaves bytes in the write buffer, and a compact protocol object in a state that
    refuses the next call (C51): `binary_failed_call_leaks`, `compact_failed_call_sticks`,
    `Twisted.twisted_polluted`, `TornadoClient.tornado_client_polluted`.
21. `TNonblockingServer`: a `recv` of exactly 8192 bytes inside a frame closes the connection or,
    at its end, makes the loop spin; trailing bytes are handed to the processor; a negative length
    after a request ends the loop (C39–C41): `Nonblocking.nonblocking_drops`,
    `Nonblocking.nonblocking_livelock`, `Nonblocking.nonblocking_trailing`,
    `Nonblocking.nonblocking_crash`.
22. The other servers lose connections or end when factories, `close`, `accept`, `fork` or
    `Thread.start` raise (C42): `Servers.servers_factory_leak` and the theorems after it in the
    manifest.
23. Twisted: a reply that cannot be read never fires its deferred (C44): `Twisted.twisted_never`.
24. Tornado client: the receiving coroutine ends with a frame that is no message, a reply with an
    unknown name, or the reply to a cancelled call (C59): `TornadoClient.tornado_client_deaf`,
    `TornadoClient.tornado_client_deaf_name`, `TornadoClient.tornado_client_cancelled`.
25. Functions named like keywords, like helpers of others, or `await` (C60): `Names.names_keyword`,
    `Names.names_clash`, `Names.names_await`.

Data types

26. `TFrozenDict` is not frozen, and equal ones may have different hashes (C46, C57):
    `FrozenDict.frozendict_hash_differs`, `FrozenDict.frozendict_not_frozen`.
27. `thrift_spec` is empty when the smallest field id is negative (C58):
    `Recursive.generated_spec_negative`.
28. The object of a compound default value is shared by all instances built without that argument,
    because the test `is self.thrift_spec[..][4]` never holds (C69): `Defaults.default_shared`,
    `Defaults.default_leaks`.
29. A module in which the default of a member is a struct of the same module with compound
    defaults of its own cannot be imported (C70): `Defaults.import_fails`. The constructor of a
    class with a compound default and a negative field id raises `IndexError`:
    `Defaults.default_negative`.
30. `TCompactProtocol` writes lengths of 2^31 and more, which the format does not have (C71):
    `compact_length_unchecked`.
31. Names of variables and methods of the generated code are not avoided (C72). A member `fid`, `ftype`
    or `fname` of an exception is never received, `iprot` and `cls` make `read` raise
    (`Locals.read_immutable_wrong`); a parameter `args`, `seqid` (Twisted), `future` (Tornado) or `oprot`
    (both) is replaced by an object of the generated code (`Locals.call_wrong`); a member `write`, `read`
    or `validate` hides the method (`Locals.call_hidden`); exceptions named `result`, `oprot`, `seqid`
    or `msg_type` are never sent (`Locals.process_no_reply`), and one named `success` is sent as the
    result (`Locals.process_success`).
32. Members named as Python keywords (C73). The constructor of an immutable class (every exception)
    sets `self.from`, everything else uses `self.from_`: `write` raises `AttributeError`
    (`Attrs.immutable_keyword`). With slots, `__slots__` has `from` and the constructor sets `from_`
    (`Attrs.slots_keyword`). The C extension uses the unescaped name: writing raises `AttributeError`
    and reading stores the value where the program does not look (`Attrs.fast_write_keyword`,
    `Attrs.fast_read_keyword`).
33. Members `read`, `write`, `validate` hide the methods of the class, with slots the module does not
    import (`Attrs.method_hidden`, `Attrs.slots_method`); members beginning with two underscores are
    mangled, so that the constructor and `read` of immutable classes do not know them
    (`Attrs.construct_mangled`).
34. The generator lets `__setattr__` of immutable classes pass attributes that are not members, for
    `__traceback__`, only with slots (its comment says that this is not solved without); without, every
    assignment raises (`Attrs.immutable_other_raises`).
35. Twisted server with `TBinaryProtocol` (C75): if writing the result fails, the error message is written
    after the unfinished reply. A handler that returns an integer out of range of `i32` makes the client
    return -2147418109, the first four bytes of the second message (`TwistedServer.wrong_result`).
36. `ThriftResource` adds no errback (`TTwisted.py:328`): if the handler raises `TTransportException` the
    HTTP request is never finished (`TwistedServer.resource_hangs`).
37. `TTornadoServer.handle_stream` closes the connection only for `Exception`: a handler that ends with
    `asyncio.CancelledError` (a `BaseException` since Python 3.8) leaves the client waiting
    (`TornadoServer.cancelled_hangs`).
38. A `binary` constant or default with a character that is not ASCII becomes `b"é"`, a SyntaxError: the module
    cannot be imported (`Source.binary_const_fails`).
39. Comments of the IDL are copied into docstrings as they are. Three quotes in a comment end the docstring, and
    what follows is executed when the module is imported (`Source.docstring_injection`); `C:\xampp` in a comment
    is a SyntaxError (`Source.docstring_backslash`); a line of more than 1023 bytes ends the comment, possibly
    inside a character, which makes the module unreadable (`Source.docstring_cut`, `Source.docstring_cut_inside`).
40. Double constants are written with 16 decimals: `const double x = 1e-20` is 0.0 in Python
    (`Numbers.double_tiny`), and small numbers lose digits; `1e999` becomes the name `inf`, a NameError
    (`Numbers.double_inf`). `const bool b = -1` is False (`Numbers.bool_negative`).
41. `const list<i32> b = a`, where `a` is another constant or even is not declared, gives an empty list without a
    message, and so for sets and maps (`Consts.container_ref`, `Consts.references_fail`); so does a literal of the
    wrong kind (`Consts.container_kind`). `const double a = 1; const double b = a` makes `b` 0.0
    (`Consts.double_ref`). `const i8 x = 300` is accepted (`Consts.int_unchecked`), as are a value of another enum
    and a string for an enum (`Consts.enum_prefix`, `Consts.enum_string`).
42. Enum values named `async` or `await` make the module unreadable (`Enums.async_name`); `None` and `None_` in one
    enum share one attribute (`Enums.reserved_collision`); `__A` is not an attribute (`Enums.private_name`); `A.B = 1`
    is accepted by the compiler and fails at import (`Enums.dotted_name`).
43. With the option `enum` a value that the reader's enum does not have makes the whole message unreadable
    (`IntEnum.unknown_value`), while without the option it is a number. `S(e=1)` for an immutable struct sets `e`
    to None, since `E.__members__` is searched by value although its keys are names
    (`IntEnum.number_immutable`); for the same reason the C extension reads None in every enum member of an
    immutable struct (`IntEnum.fast_immutable`). It reads enums in containers as numbers, which the generated
    `write` refuses (`IntEnum.fast_list`), as are numbers in members whose type is a typedef of an enum or an
    enum that is declared later (`IntEnum.number_typedef`).
44. `ResponseException` of `THttpServer` is dead code: generated processors catch the exceptions of the handler, so
    that the response is an INTERNAL_ERROR with status 200 (`HttpServer.response_exception_ignored`). A request
    whose body is shorter than a message makes the server wait for more, although `Content-Length` tells where it
    ends; the default `server_class` then serves nobody else (`HttpServer.post_truncated_waits`). `_replied` and the
    callback of the processor are shared by all requests: with a threaded `server_class` a oneway request makes
    others lose their response (`HttpServer.threads_no_answer`), get two (`HttpServer.threads_two_answers`), or get
    one that belongs to another request (`HttpServer.threads_wrong_answer`).
45. `THeaderProtocol.readMessageBegin` answers a message with an unknown protocol id or transform with an exception,
    but writes the message with the name `b""`, which is not a `str`: encoding it raises `TypeError`. Nothing is
    sent, and the first bytes of the answer stay in the buffer (`HeaderProtocol.bad_protocol_silent`,
    `bad_transform_silent`). The exception it would have sent has the type of `TProtocolException.INVALID_PROTOCOL`
    (7), which means PROTOCOL_ERROR in a `TApplicationException`. If it had been sent, the code would go on and read
    the rejected message.
46. The compiler accepts field numbers that are not 16-bit numbers, even with `-strict`, and only warns: instances of
    the class cannot be written (`Structs.number_too_big`). Numbers are cut off to 32 bits before that is looked
    at: 4294967298 is 2, without a warning (`number_cut`). A number that is not positive is replaced by
    the next free negative one, unless `-allow-neg-keys` is given (`number_replaced`).
47. `generate_py_function_helpers` ignores the result of `append`: an exception that is called `success` (or, with
    `-allow-neg-keys`, has the number 0) is missing in the result class of a function that is not void, while
    the generated `except` clause assigns it to `result.success` (`Structs.success_dropped`).
48. Defaults are accepted in `throws` clauses. Then every new result object has the exception set, so that clients
    raise it although the (void) function returned (`Structs.throws_default`). `Rpc.emptyResult` is for functions
    without such defaults.
49. A client that does not know an exception takes it for a success if the function is void: the result struct has no
    field that it knows (`added_exception_lost`). The IDL has no rule against adding exceptions to such functions.
50. `compare_type` of the audit compares names, and `binary` and `uuid` have the name `string` (`common.cc` 36-45): a
    change between them passes (`uuid_unseen`). So does a typedef that gets another type (`typedef_unseen`), while a
    typedef in the place of its own type is reported (`typedef_alarm`).
51. The audit only warns if an enum is missing. A struct may have taken its name, and then fields of this type are lost
    (`enum_unseen`).
52. The audit accepts exceptions that are added to void functions (`exception_unseen`; see 49).
53. `TServerSocket.listen` with a `unix_socket` deletes a file that is not a socket, because Linux answers
    `ECONNREFUSED` when one connects to such a file (`ServerSocket.file_deleted`).
54. Between `bind` and `listen` of a server, another one that starts finds the connection refused and removes the file;
    then both listen, and the first one is not reached any more (`two_servers`).
55. A second `listen` of a `TServerSocket` with a `unix_socket` raises `OSError` and closes the first socket
    (`listen_twice`), for instance if the user calls `listen` before `serve`.
56. A path of more than 107 bytes raises `ValueError` because `err.args` has one element (`path_too_long`).
57. `TZlibTransport.cstringio_refill` replaces the read buffer by what it returns. If a piece inflates to more than it has
    asked for, the rest is lost; a struct of a later message can be returned for an earlier one (C91):
    `CReadable.zlib_loses`, `CReadable.zlib_wrong_value`.
58. `THeaderTransport.cstringio_refill` does the same with the rest of a frame; it happens if the decoder begins or goes on
    in a frame that has not been read. Without frames it does not return at the end of the data (C91):
    `CReadable.header_loses`, `CReadable.header_wrong_value`, `CReadable.header_unframed_hangs`.
59. If a file includes two files of the same base name, `base.T` is silently that of the later one (C92):
    `Includes.same_base_name`.
60. Two files with the same Python namespace write the same `ttypes.py`; the compiler does not complain (C92):
    `Includes.same_namespace`.
61. A typedef of an included file for a type of a file that this one includes is written as `c.ttypes.C`, but only the
    directly included modules are imported: NameError (C92): `Includes.typedef_unreached`.
62. A struct or enum that is called like the package of an included file hides the package (C92, C88):
    `Includes.package_hidden`, `Includes.base_hidden`.
63. Types called `Client`, `Iface`, `Processor` or `f_args`, and types whose name begins with an underscore, are not what
    the module of a service finds under this name (C92): `Includes.service_hides`.
64. `ThriftSASLClientProtocol` cannot connect on Python 3: the constructor reads an attribute whose name it has misspelt,
    texts are added to bytes, a byte is unpacked that is already a number (C93): `TwistedSasl.init_raises`,
    `TwistedSasl.never_started`, `TwistedSasl.silent`.
65. `repr` of an instance is not always a program that makes it (C94): infinities and NaN are names that are not defined,
    members of enums are written in angle brackets, classes of other files by their bare names, a `TFrozenDict` like a dict:
    `Repr.not_finite`, `Repr.no_expression`, `Repr.class_unknown`, `Repr.other_class`, `Repr.frozen_inside`. In immutable
    classes a member `from` is stored under a name that no call can use, and `__x` under one that is not a
    parameter; with slots, `repr` of an instance with `__x` raises `AttributeError`: `Repr.no_parameter`, `Repr.slots_missing`.
66. The script `<Service>-remote` (C95) takes an option in the wrong place for the name of a function, after it has connected
    to `localhost`; contacts `https` URLs in the clear at port 80 and drops `-ssl` after a URL; cuts a host at its first
    colon; evaluates the text of an argument whose type is a typedef of `string`; cannot send bytes that are not
    UTF-8; fails for a URL without path: `Remote.late_target`, `Remote.https_plain`, `Remote.no_ipv6`,
    `Remote.typedef_evaluated`, `Remote.binary_raises`, `Remote.no_path`. Its variables hide types and services:
    `Remote.names_hidden`, `Remote.service_hidden`.
67. `THttpClient` (C96) sets up a tunnel for `http` too and sends a request for a proxy through it, so the server gets the
    credentials of the proxy: `HttpUrl.leaks`. A `cafile` alone, which the documentation recommends, is a `TypeError`:
    `HttpUrl.cafile_raises`. A URL with the documented argument `port` is taken for the name of a host, and contacted in the
    clear: `HttpUrl.port_argument`. Proxies without user, password, port or scheme: `HttpUrl.proxy_none`,
    `HttpUrl.password_needed`, `HttpUrl.proxy_port`, `HttpUrl.proxy_v6`, `HttpUrl.proxy_bare`. Parts of the URL:
    `HttpUrl.params_dropped`, `HttpUrl.query_alone`, `HttpUrl.port_zero`; user and password in the URL are not sent
    (`HttpUrl.direct_partial` holds for any).
68. The compiler crashes (`strdup(nullptr)`) on a file in which a blank doc comment, like `/** */`, comes before any other and
    before the end of any header (C97): `Doc.crash`. A doc comment after a field, on its line, is the doc of the next field or of
    the next definition: `Doc.trailing`. In a comment without stars, bullets that are all stars are removed:
    `Doc.unstarred_text_fails`. A comment of a field with only a line break leaves out the line break of its entry:
    `Doc.listed_fails`.
69. Decorations do not nest (C98): `type(name, (cls, protocol.__class__), …)` is a `TypeError` if `protocol` is decorated by `cls`
    already, because a base class then comes before a class derived from it: `Decorator.decorate_iff`. So a
    `TMultiplexedProcessor` registered with another never gets to a processor: `multiplexer_nested`, `multiplexer_default`;
    and `TMultiplexedProtocol(TMultiplexedProtocol(…), …)` raises: `multiplexed_again`. (An earlier version of the model had this
    wrong.)
70. `TMultiplexedProcessor.on_message_begin` leaves out the default processor and all that are registered later (C99):
    `Callbacks.default_not_given`, `Callbacks.later_not_given`. `THttpServer` then answers a oneway message to the default only
    after the handler has returned: `Callbacks.post_default_oneway`.
71. Annotations (option `type_hints`) do not say what is read (C100). Required members and arguments that are absent are `None`:
    `Hints.required_absent`, `argument_absent`. Immutable lists and sets are annotated as `list` and `set` but are tuples and frozen
    sets: `frozen_list`, `frozen_set`. The C extension gives numbers for enums: `fast_element`, `fast_alias`, `fast_immutable`.
    Clients for Twisted and Tornado return a Deferred or a Future where the result is annotated: `twisted_hint`, `tornado_hint`. The
    help text promises type checks in `write`; there are none.
72. What arrives is not always `==` to what was sent (C101). `None` for a member with a default is not sent, and the receiver has the
    default: `Equal.default_returns`. A list where the IDL says immutable list arrives as a tuple: `list_for_tuple`. With the C
    extension an enum in an immutable class arrives as `None`: `fast_immutable_unequal`. An instance with a NaN in it equals nothing,
    as in all of Python: `nan_unequal`.
73. Not every instance can be copied or pickled (C102). Immutable classes with slots raise `TypeError`, since Python sets the slots of the
    new instance with `setattr`: `Copies.frozen_slots`; so do immutable exceptions without slots: `frozen_exception`. The copy of an
    exception with slots is made from its positional arguments, and members given by keywords, or read from a protocol, are lost without
    an error: `slots_exception`, `slots_exception_lost`.
74. The JSON protocol takes escapes that RFC 8259 does not allow, since it uses `int(text, 16)`: `\u 1_f` is U+001F. Exactly which is
    `Json.pyInt16_iff`, against a grammar in `Spec/IntText.lean`. No string of RFC 8259 is misread (C68).
    Likewise base64 with other characters in it, and without padding: `base64_ignores`, `base64_unpadded`.

## 6. How the theorems were tested

`seeded/LOG.jsonl` records wrong programs: a definition of the model is changed in a scratch copy as a
realistic bug would change it, and the project is rebuilt. A mutant that no theorem notices although
the English claim is false led to a stronger theorem (recorded in the entry). `tools/mutate.py` drives
this; it does not touch `/verif`.
