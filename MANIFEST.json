{
 "claims": [
  {
   "property": "C01",
   "status": "proved",
   "theorems": [
    "Thrift.Binary.binary_int_scalar",
    "Thrift.Binary.binary_int_out_of_range",
    "Thrift.Binary.binary_other_scalar"
   ],
   "note": ""
  },
  {
   "property": "C02",
   "status": "proved",
   "theorems": [
    "Thrift.Compact.compact_int_write",
    "Thrift.Compact.compact_int_read",
    "Thrift.Compact.compact_int_out_of_range",
    "Thrift.Compact.compact_int_length"
   ],
   "note": ""
  },
  {
   "property": "C03",
   "status": "proved",
   "theorems": [
    "Thrift.Compact.compact_varint_any"
   ],
   "note": ""
  },
  {
   "property": "C04",
   "status": "proved",
   "theorems": [
    "Thrift.Binary.binary_wire_format",
    "Thrift.Binary.binary_roundtrip"
   ],
   "note": "Both code generation modes."
  },
  {
   "property": "C05",
   "status": "proved",
   "theorems": [
    "Thrift.Compact.compact_wire_format",
    "Thrift.Compact.compact_roundtrip",
    "Thrift.Compact.compact_bool_element"
   ],
   "note": "Both code generation modes."
  },
  {
   "property": "C06",
   "status": "proved",
   "theorems": [
    "Thrift.Json.json_wire_format",
    "Thrift.Json.json_roundtrip",
    "Thrift.Json.json_nonfinite_lost"
   ],
   "note": "At the outermost level the value is not a number (a number has no end there). That formatting and parsing of finite doubles are inverse is a hypothesis (Faithful). json_nonfinite_lost: infinities and NaN inside a list are written and cannot be read back."
  },
  {
   "property": "C07",
   "status": "proved",
   "theorems": [
    "Thrift.Binary.binary_wire_format"
   ],
   "note": ""
  },
  {
   "property": "C08",
   "status": "proved",
   "theorems": [
    "Thrift.Compact.compact_wire_format"
   ],
   "note": ""
  },
  {
   "property": "C09",
   "status": "partial",
   "theorems": [
    "Thrift.Json.json_wellformed_partial",
    "Thrift.Json.json_message_wellformed_partial",
    "Thrift.Json.json_control_invalid",
    "Thrift.Json.json_nonfinite_invalid"
   ],
   "note": "False for texts with control characters other than the five with short escapes and for infinities and NaN (both proved); holds for all other values."
  },
  {
   "property": "C10",
   "status": "proved",
   "theorems": [
    "Thrift.Binary.binary_message_strict",
    "Thrift.Binary.binary_message_nonstrict",
    "Thrift.Compact.compact_message",
    "Thrift.Json.json_message_write",
    "Thrift.Json.json_message_read"
   ],
   "note": ""
  },
  {
   "property": "C11",
   "status": "proved",
   "theorems": [
    "Thrift.Binary.binary_bad_version",
    "Thrift.Binary.binary_accepts_only_own",
    "Thrift.Compact.compact_bad_version",
    "Thrift.Compact.compact_accepts_only_own",
    "Thrift.Json.json_foreign",
    "Thrift.Json.json_version"
   ],
   "note": ""
  },
  {
   "property": "C12",
   "status": "partial",
   "theorems": [
    "Thrift.binary_decoded_values",
    "Thrift.compact_decoded_values_partial",
    "Thrift.binary_bad_length",
    "Thrift.compact_bad_length",
    "Thrift.message_name_limit",
    "Thrift.binary_old_name_unlimited",
    "Thrift.Json.json_decoded_values_partial",
    "Thrift.Json.json_message_name_limit"
   ],
   "note": "JSON has only the string limit. False for the message name in the old unversioned binary encoding (proved); holds everywhere else."
  },
  {
   "property": "C13",
   "status": "partial",
   "theorems": [
    "Thrift.Binary.binary_skip_partial",
    "Thrift.Binary.binary_skip_non_text",
    "Thrift.Compact.compact_skip_partial",
    "Thrift.Compact.compact_skip_non_text",
    "Thrift.Json.json_skip"
   ],
   "note": "False for binary values that are not UTF-8 (proved); proved for all other values."
  },
  {
   "property": "C14",
   "status": "partial",
   "theorems": [
    "Thrift.Binary.binary_schema_evolution_partial",
    "Thrift.Binary.binary_unknown_binary_field",
    "Thrift.Binary.dyn_negative_id_aliases",
    "Thrift.Compact.compact_schema_evolution_partial",
    "Thrift.Compact.compact_unknown_binary_field",
    "Thrift.Json.json_schema_evolution"
   ],
   "note": "False for unknown binary fields that are not UTF-8 and for negative ids in dynamic mode (both proved)."
  },
  {
   "property": "C15",
   "status": "proved",
   "theorems": [
    "Thrift.depth_read_balanced",
    "Thrift.depth_write_balanced",
    "Thrift.depth_write_refused",
    "Thrift.depth_read_refused",
    "Thrift.depth_skip_refused",
    "Thrift.Json.json_depth_read_balanced",
    "Thrift.Json.json_depth_write_balanced",
    "Thrift.Json.json_depth_write_refused"
   ],
   "note": "Binary and compact; for JSON the balance and the refusal of writing. dynamic_depth_unbounded records that the dynamic mode does not count."
  },
  {
   "property": "C16",
   "status": "proved",
   "theorems": [
    "Thrift.binary_fragmentation",
    "Thrift.compact_fragmentation"
   ],
   "note": ""
  },
  {
   "property": "C17",
   "status": "proved",
   "theorems": [
    "Thrift.Binary.binary_truncation",
    "Thrift.Binary.binary_truncation_skip",
    "Thrift.Compact.compact_truncation",
    "Thrift.Compact.compact_truncation_skip"
   ],
   "note": ""
  },
  {
   "property": "C18",
   "status": "proved",
   "theorems": [
    "Thrift.binary_total",
    "Thrift.compact_total",
    "Thrift.skip_total",
    "Thrift.fuel_irrelevant"
   ],
   "note": ""
  },
  {
   "property": "C19",
   "status": "partial",
   "theorems": [
    "Thrift.binary_decoded_values",
    "Thrift.compact_decoded_values_partial",
    "Thrift.compact_out_of_range",
    "Thrift.Json.json_decoded_values_partial",
    "Thrift.Json.json_out_of_range"
   ],
   "note": "Proved for binary. False for compact, which does not check the range of i16/i32/i64, and for JSON, which checks none (both proved); the rest holds for compact and JSON."
  },
  {
   "property": "C20",
   "status": "proved",
   "theorems": [
    "Thrift.required_unset_refused",
    "Thrift.unset_not_written",
    "Thrift.binary_unset_reads_default",
    "Thrift.compact_unset_reads_default",
    "Thrift.read_ignores_required"
   ],
   "note": ""
  },
  {
   "property": "C21",
   "status": "proved",
   "theorems": [
    "Thrift.readAll_any_transport",
    "Thrift.readAll_exact",
    "Thrift.readAll_returns"
   ],
   "note": ""
  },
  {
   "property": "C22",
   "status": "proved",
   "theorems": [
    "Thrift.Buffered.buffered_faithful",
    "Thrift.Buffered.buffered_delivers",
    "Thrift.buffered_session",
    "Thrift.buffered_refill"
   ],
   "note": "Positive read sizes, as stated; buffered_read_zero proves that read(0) drops data."
  },
  {
   "property": "C23",
   "status": "proved",
   "theorems": [
    "Thrift.buffered_writes",
    "Thrift.buffered_write_result"
   ],
   "note": ""
  },
  {
   "property": "C24",
   "status": "proved",
   "theorems": [
    "Thrift.framed_writes",
    "Thrift.framed_too_large",
    "Thrift.framed_read",
    "Thrift.framed_session",
    "Thrift.framed_transfer",
    "Thrift.batchLog_delivered"
   ],
   "note": "Positive read sizes, as stated; framed_read_zero proves that read(0) drops data."
  },
  {
   "property": "C25",
   "status": "proved",
   "theorems": [
    "Thrift.memory_writes",
    "Thrift.memory_reads",
    "Thrift.memory_is_memStep",
    "Thrift.memory_closed"
   ],
   "note": ""
  },
  {
   "property": "C26",
   "status": "proved",
   "theorems": [
    "Thrift.Header.header_roundtrip",
    "Thrift.Header.header_flush",
    "Thrift.Header.header_receive",
    "Thrift.Header.header_read",
    "Thrift.Header.sendOps",
    "Thrift.Header.header_flush_other",
    "Thrift.Header.header_fragmentation"
   ],
   "note": "zlib is a parameter with its documented contract (ZlibOk, instance storedZlib). header_kept_framed: headers set while answering a client of another type stay for the next header frame."
  },
  {
   "property": "C27",
   "status": "proved",
   "theorems": [
    "Thrift.Header.header_unframed",
    "Thrift.Header.header_framed",
    "Thrift.Header.header_protocol",
    "Thrift.Header.header_tiny_frame"
   ],
   "note": "A frame shorter than four bytes raises struct.error (header_tiny_frame)."
  },
  {
   "property": "C28",
   "status": "proved",
   "theorems": [
    "Thrift.Header.header_limits",
    "Thrift.Header.header_frame_too_large",
    "Thrift.Header.header_send_limit",
    "Thrift.Header.header_send_too_large",
    "Thrift.Header.header_contained"
   ],
   "note": ""
  },
  {
   "property": "C29",
   "status": "proved",
   "theorems": [
    "Thrift.Header.header_contained",
    "Thrift.Header.parseHeader_any"
   ],
   "note": ""
  },
  {
   "property": "C30",
   "status": "partial",
   "theorems": [
    "Thrift.zlib_writes",
    "Thrift.zlib_reopen",
    "Thrift.zlib_transfer",
    "Thrift.zlib_transfer_progress",
    "Thrift.zlib_limit_partial",
    "Thrift.zlib_limit_bypassed",
    "Thrift.zlib_empty_flush_partial",
    "Thrift.zlib_empty_flush",
    "Thrift.zlib_empty_flush_breaks",
    "Thrift.zlib_eof_partial",
    "Thrift.zlib_eof_hangs"
   ],
   "note": "The transfer in order is proved in full (zlib is a parameter with contract ZlibContract, instance toy). The other three parts are false of the code, with proofs: the limit is lifted when exactly max_decompressed_size bytes were decompressed, an empty first flush raises TypeError and breaks the stream, a read at the end of a stream that answers b'' loops forever."
  },
  {
   "property": "C31",
   "status": "proved",
   "theorems": [
    "Thrift.Sasl.sasl_open_ok",
    "Thrift.Sasl.sasl_open_accepts",
    "Thrift.Sasl.sasl_open_rejected",
    "Thrift.Sasl.sasl_open_incomplete",
    "Thrift.Sasl.sasl_open_returns",
    "Thrift.Sasl.sasl_flush",
    "Thrift.Sasl.sasl_flush_failed",
    "Thrift.Sasl.sasl_transfer"
   ],
   "note": "The mechanism (puresasl) is a parameter; for the data phase the peers' mechanisms satisfy the contract Peers (instance sample_peers)."
  },
  {
   "property": "C32",
   "status": "proved",
   "theorems": [
    "Thrift.Socket.socket_write",
    "Thrift.Socket.socket_write_ok",
    "Thrift.Socket.socket_write_closed"
   ],
   "note": ""
  },
  {
   "property": "C33",
   "status": "proved",
   "theorems": [
    "Thrift.Socket.socket_open",
    "Thrift.Socket.socket_open_first",
    "Thrift.Socket.socket_open_none",
    "Thrift.Socket.socket_open_again",
    "Thrift.Socket.socket_open_unresolved",
    "Thrift.Socket.socket_open_leaks",
    "Thrift.Socket.socket_close"
   ],
   "note": "As stated for addresses whose connect fails with OSError; socket_open_leaks proves that a socket is left open when setting its timeout fails or connect raises another exception."
  },
  {
   "property": "C34",
   "status": "proved",
   "theorems": [
    "Thrift.multiplexed_ok",
    "Thrift.multiplexed_writes",
    "Thrift.multiplexed_reads",
    "Thrift.multiplexed_send",
    "Thrift.multiplexed_call",
    "Thrift.multiplexed_any",
    "Thrift.multiplexed_unregistered",
    "Thrift.multiplexed_not_call",
    "Thrift.multiplexed_default",
    "Thrift.multiplexed_no_default",
    "Thrift.multiplexed_misrouted",
    "Thrift.routed_or_not",
    "Thrift.multiplexed_hears",
    "Thrift.any_multiplexed_reply",
    "Thrift.any_multiplexed_silent",
    "Thrift.any_multiplexed_unknown",
    "Thrift.any_multiplexed_refused",
    "Thrift.any_multiplexed_call",
    "Thrift.any_multiplexed_oneway"
   ],
   "note": "multiplexed_misrouted proves that service names with a separator are misrouted. The any_multiplexed theorems hold for every protocol that satisfies Hears (binary, compact, JSON) and every transport that delivers, in pieces of any size."
  },
  {
   "property": "C35",
   "status": "proved",
   "theorems": [
    "Thrift.process_reply",
    "Thrift.answers_total",
    "Thrift.process_oneway",
    "Thrift.process_passes",
    "Thrift.process_unknown",
    "Thrift.process_bad_header",
    "Thrift.process_callback_raises",
    "Thrift.process_bad_arguments",
    "Thrift.process_unserializable"
   ],
   "note": "process_unserializable proves that a result that cannot be serialized gets no reply."
  },
  {
   "property": "C36",
   "status": "proved",
   "theorems": [
    "Thrift.recv_reply",
    "Thrift.means_unique",
    "Thrift.recv_exception",
    "Thrift.recv_fails"
   ],
   "note": "The client checks neither name nor sequence id of the reply."
  },
  {
   "property": "C37",
   "status": "proved",
   "theorems": [
    "Thrift.call_end_to_end",
    "Thrift.call_oneway",
    "Thrift.carried_frame",
    "Thrift.Binary.reads",
    "Thrift.Binary.writes",
    "Thrift.Compact.reads",
    "Thrift.Compact.writes"
   ],
   "note": ""
  },
  {
   "property": "C38",
   "status": "proved",
   "theorems": [
    "Thrift.app_write",
    "Thrift.app_read_any",
    "Thrift.app_roundtrip"
   ],
   "note": ""
  },
  {
   "property": "C39",
   "status": "partial",
   "theorems": [
    "Thrift.Nonblocking.nonblocking_frames_partial",
    "Thrift.Nonblocking.nonblocking_close_reason",
    "Thrift.Nonblocking.nonblocking_trailing",
    "Thrift.Nonblocking.nonblocking_drops"
   ],
   "note": "In order, none lost or changed while the connection is open: proved for every schedule. False: the transport of a request also holds the bytes that follow the frame; a recv of exactly 8192 bytes inside a frame closes the connection."
  },
  {
   "property": "C40",
   "status": "proved",
   "theorems": [
    "Thrift.Nonblocking.nonblocking_protocol",
    "Thrift.Nonblocking.nonblocking_one_request",
    "Thrift.Nonblocking.nonblocking_all_sent",
    "Thrift.Nonblocking.nonblocking_workers"
   ],
   "note": ""
  },
  {
   "property": "C41",
   "status": "partial",
   "theorems": [
    "Thrift.Nonblocking.nonblocking_waits_partial",
    "Thrift.Nonblocking.nonblocking_crash_reason_partial",
    "Thrift.Nonblocking.nonblocking_serves_ready",
    "Thrift.Nonblocking.nonblocking_livelock",
    "Thrift.Nonblocking.nonblocking_crash"
   ],
   "note": "False: a request frame of 8192 bytes makes the loop spin forever, a negative length after a request ends it with an exception. Proved for pieces shorter than 8192 bytes and without negative lengths."
  },
  {
   "property": "C42",
   "status": "partial",
   "theorems": [
    "Thrift.Servers.servers_protocol",
    "Thrift.Servers.servers_one_worker",
    "Thrift.Servers.servers_closes",
    "Thrift.Servers.servers_closes_out",
    "Thrift.Servers.servers_isolation_partial",
    "Thrift.Servers.servers_survive_partial",
    "Thrift.Servers.servers_next_partial",
    "Thrift.Servers.servers_factory_leak",
    "Thrift.Servers.servers_exit_leak",
    "Thrift.Servers.servers_close_fatal",
    "Thrift.Servers.servers_accept_fatal",
    "Thrift.Servers.servers_start_leak",
    "Thrift.Servers.servers_fork_returns",
    "Thrift.Servers.servers_foreign_child"
   ],
   "note": "One worker per connection and closing after the processor raised: every execution. Isolation: when only processors fail. False when a factory, close, accept, fork or Thread.start raises, or the processor raises SystemExit or KeyboardInterrupt."
  },
  {
   "property": "C43",
   "status": "proved",
   "theorems": [
    "Thrift.Tornado.lock_exclusive_fifo",
    "Thrift.Tornado.lock_inside",
    "Thrift.Tornado.lock_no_lost_wakeup",
    "Thrift.Tornado.lock_leave_and_free"
   ],
   "note": ""
  },
  {
   "property": "C44",
   "status": "partial",
   "theorems": [
    "Thrift.Twisted.twisted_once",
    "Thrift.Twisted.twisted_seqids",
    "Thrift.Twisted.twisted_own",
    "Thrift.Twisted.twisted_reply",
    "Thrift.Twisted.twisted_exception",
    "Thrift.Twisted.twisted_unknown",
    "Thrift.Twisted.twisted_lost_partial",
    "Thrift.Twisted.twisted_all_fired_partial",
    "Thrift.Twisted.twisted_lost_ends",
    "Thrift.Twisted.twisted_refused",
    "Thrift.Twisted.twisted_request",
    "Thrift.Twisted.twisted_unsent",
    "Thrift.Twisted.twisted_never",
    "Thrift.Twisted.twisted_lost_retried"
   ],
   "note": "Every reply goes to its own deferred, none is fired twice, unanswered calls fail when the connection is lost. False for a call whose reply cannot be read: its deferred is never fired (twisted_never)."
  },
  {
   "property": "C45",
   "status": "proved",
   "theorems": [
    "Thrift.Http.http_bodies",
    "Thrift.Http.http_length",
    "Thrift.Http.http_outcome",
    "Thrift.Http.http_connections",
    "Thrift.Http.http_reply",
    "Thrift.Http.http_faithful",
    "Thrift.Http.http_no_stale",
    "Thrift.Http.http_cookie",
    "Thrift.Http.http_status",
    "Thrift.Http.http_close",
    "Thrift.Http.http_length_twice",
    "Thrift.Http.http_open_leaks"
   ],
   "note": "For every history of write, flush, read, close, open and setCustomHeaders and every fate of the requests: the bodies sent are what was written between the flushes, each request names its length once, uses a connection of its own and carries the cookie of the last answer; reads deliver the last answer and never an earlier one. The length statement assumes that the user adds no Content-Length field (http_length_twice shows that two are sent otherwise); http_status shows that error statuses are not noticed. URL parsing, proxies' tunnels and http.client itself are not modelled."
  },
  {
   "property": "C46",
   "status": "partial",
   "theorems": [
    "Thrift.FrozenDict.frozendict_equal",
    "Thrift.FrozenDict.frozendict_hash_partial",
    "Thrift.FrozenDict.frozendict_builds",
    "Thrift.FrozenDict.frozendict_hash_differs",
    "Thrift.FrozenDict.frozendict_unordered",
    "Thrift.FrozenDict.frozendict_items"
   ],
   "note": "Equality always; equal hashes when the keys are linearly ordered. False for keys with another <, such as frozensets."
  },
  {
   "property": "C47",
   "status": "proved",
   "theorems": [
    "Thrift.Recursive.fix_spec_exact",
    "Thrift.Recursive.generated_spec"
   ],
   "note": ""
  },
  {
   "property": "C48",
   "status": "partial",
   "theorems": [
    "Thrift.Fast.fast_wire_format",
    "Thrift.Fast.fast_encoder_partial",
    "Thrift.Fast.fast_drops_implicit_ids",
    "Thrift.Fast.fast_nested_required"
   ],
   "note": "Proved for every schema without negative field ids: same bytes or same exception. With a negative field id the extension silently writes an empty struct (fast_drops_implicit_ids)."
  },
  {
   "property": "C49",
   "status": "partial",
   "theorems": [
    "Thrift.Fast.fast_decodes",
    "Thrift.Fast.fast_decoder_encoded",
    "Thrift.Fast.fast_decoder_agrees_partial",
    "Thrift.Fast.fast_decoder_differs",
    "Thrift.Fast.fast_decoder_differs_depth",
    "Thrift.Fast.fast_compact_agrees_partial",
    "Thrift.Fast.fast_compact_differs",
    "Thrift.Fast.fast_compact_fails_alone"
   ],
   "note": "Both protocols: equal results on everything a writer with a compatible schema produces. Binary protocol, every byte stream: values equal up to bool bytes other than 0 and 1, and a list of the exceptions that only one side raises; runs that do not end are not compared. Compact protocol, every byte stream (fast_compact_agrees_partial): either a number on the wire does not fit its type, or the values are equal, and the exceptions that only one side raises are listed. The full claim is false (fast_decoder_differs, fast_decoder_differs_depth, fast_compact_differs, fast_compact_fails_alone)."
  },
  {
   "property": "C50",
   "status": "partial",
   "theorems": [
    "Thrift.Ssl.ssl_open",
    "Thrift.Ssl.ssl_open_configured",
    "Thrift.Ssl.ssl_legacy",
    "Thrift.Ssl.ssl_legacy_first_partial",
    "Thrift.Ssl.ssl_accept",
    "Thrift.Ssl.ssl_legacy_multivalued",
    "Thrift.Ssl.ssl_accept_unix"
   ],
   "note": "The statement about open is proved for every configuration and history, with the handshake rules of OpenSSL as the environment, and its counterpart for TSSLServerSocket.accept. The statement about the legacy callback is proved for subjects whose elements hold one pair each; it is false for elements with several pairs (ssl_legacy_multivalued)."
  },
  {
   "property": "C51",
   "status": "partial",
   "theorems": [
    "Thrift.failed_call_partial",
    "Thrift.failed_flush_clean",
    "Thrift.binary_failed_call_prefixes",
    "Thrift.binary_failed_call_leaks",
    "Thrift.compact_stuck",
    "Thrift.compact_failed_call_sticks",
    "Thrift.Twisted.twisted_polluted",
    "Thrift.TornadoClient.tornado_client_polluted"
   ],
   "note": "False: proved for both protocols. What holds: the failed call transmits nothing; failures of the transport do not affect the next call."
  },
  {
   "property": "C52",
   "status": "proved",
   "theorems": [
    "Thrift.serialization_binary",
    "Thrift.serialization_compact"
   ],
   "note": ""
  },
  {
   "property": "C53",
   "status": "proved",
   "theorems": [
    "Thrift.Binary.binary_set_duplicates",
    "Thrift.Binary.binary_map_duplicates",
    "Thrift.Compact.compact_set_duplicates",
    "Thrift.Compact.compact_map_duplicates"
   ],
   "note": ""
  },
  {
   "property": "C54",
   "status": "proved",
   "theorems": [
    "Thrift.Socket.socket_read",
    "Thrift.Socket.socket_isOpen"
   ],
   "note": ""
  },
  {
   "property": "C55",
   "status": "partial",
   "theorems": [
    "Thrift.zlib_stats_partial",
    "Thrift.zlib_stats_inbound",
    "Thrift.zlib_reopen"
   ],
   "note": "Outbound proved; inbound false: the two counters are exchanged."
  },
  {
   "property": "C56",
   "status": "proved",
   "theorems": [
    "Thrift.Tornado.tornado_calls_in_order",
    "Thrift.Tornado.tornado_frames",
    "Thrift.Tornado.tornado_no_stuck",
    "Thrift.Tornado.tornado_flushes",
    "Thrift.Tornado.tornado_flush_fails",
    "Thrift.Tornado.tornado_read_fails"
   ],
   "note": ""
  },
  {
   "property": "C57",
   "status": "partial",
   "theorems": [
    "Thrift.FrozenDict.frozendict_frozen_partial",
    "Thrift.FrozenDict.frozendict_hash_stays_partial",
    "Thrift.FrozenDict.frozendict_not_frozen"
   ],
   "note": "False: update, pop, clear and other methods inherited from dict change it."
  },
  {
   "property": "C58",
   "status": "partial",
   "theorems": [
    "Thrift.Recursive.thrift_spec_partial",
    "Thrift.Recursive.generated_spec",
    "Thrift.Recursive.generated_spec_negative",
    "Thrift.Recursive.spec_codes"
   ],
   "note": "False for structs with negative field ids, whose thrift_spec is empty."
  },
  {
   "property": "C59",
   "status": "partial",
   "theorems": [
    "Thrift.TornadoClient.tornado_client_once",
    "Thrift.TornadoClient.tornado_client_seqids",
    "Thrift.TornadoClient.tornado_client_own",
    "Thrift.TornadoClient.tornado_client_reply",
    "Thrift.TornadoClient.tornado_client_exception",
    "Thrift.TornadoClient.tornado_client_unreadable",
    "Thrift.TornadoClient.tornado_client_unknown",
    "Thrift.TornadoClient.tornado_client_lost_partial",
    "Thrift.TornadoClient.tornado_client_request",
    "Thrift.TornadoClient.tornado_client_deaf",
    "Thrift.TornadoClient.tornado_client_deaf_name",
    "Thrift.TornadoClient.tornado_client_cancelled",
    "Thrift.TornadoClient.tornado_client_cancelled_lost"
   ],
   "note": "The receiving coroutine ends with a frame that is no message, a reply with an unknown name, or the reply to a cancelled call; all other calls are then never resolved (negations proved)."
  },
  {
   "property": "C60",
   "status": "partial",
   "theorems": [
    "Thrift.Names.names_client_partial",
    "Thrift.Names.names_keyword",
    "Thrift.Names.names_processor",
    "Thrift.Names.names_reserved_partial",
    "Thrift.Names.names_await",
    "Thrift.Names.names_clash",
    "Thrift.Names.names_underscore"
   ],
   "note": "False for functions named as keywords of Python (no client can call them), for functions named as helpers of others, and for the name await."
  },
  {
   "property": "C61",
   "status": "partial",
   "theorems": [
    "Thrift.Ssl.ssl_open_configured",
    "Thrift.Ssl.ssl_hostname_callback",
    "Thrift.Ssl.ssl_cert_none",
    "Thrift.Ssl.ssl_ca_certs",
    "Thrift.Ssl.ssl_hostname_unchecked",
    "Thrift.Ssl.ssl_server_default"
   ],
   "note": "What verification guarantees is proved per configuration. The rest is false of the code: with the default ssl_version CERT_NONE never connects (ssl_cert_none), ca_certs is needed or not regardless of cert_reqs (ssl_ca_certs), a server accepts nobody (ssl_server_default), and with other versions host names are not checked on Python 3.12 (ssl_hostname_unchecked)."
  },
  {
   "property": "C62",
   "status": "partial",
   "theorems": [
    "Thrift.Ssl.ssl_failed_open_partial",
    "Thrift.Ssl.ssl_rejected_open",
    "Thrift.Ssl.ssl_rejected_open_case",
    "Thrift.Ssl.ssl_stale_valid",
    "Thrift.Ssl.ssl_close"
   ],
   "note": "Holds for failures before the validate callback; false when the callback rejects the certificate: the connection stays open and usable (ssl_rejected_open), and is_valid may still be true (ssl_stale_valid)."
  },
  {
   "property": "C63",
   "status": "partial",
   "theorems": [
    "Thrift.Json.json_truncated_partial",
    "Thrift.Json.json_message_truncated_partial",
    "Thrift.Json.json_trailing",
    "Thrift.Json.json_truncated_raises",
    "Thrift.Json.json_truncated_hangs"
   ],
   "note": "No prefix is accepted; with a string length limit every prefix raises. Without a length limit a document that ends within a number makes the reader loop forever (proved), so the part about always ending is false."
  },
  {
   "property": "C64",
   "status": "partial",
   "theorems": [
    "Thrift.Json.json_roundtrip",
    "Thrift.Json.json_message_read",
    "Thrift.Json.json_fragmentation_differs"
   ],
   "note": "False for documents with \\u escapes (proved); holds for every document that TJSONProtocol itself writes."
  },
  {
   "property": "C65",
   "status": "proved",
   "theorems": [
    "Thrift.Json.json_total",
    "Thrift.Json.json_skip_total",
    "Thrift.Json.json_message_total"
   ],
   "note": "json_truncated_hangs (C63) shows that the limit is needed."
  },
  {
   "property": "C67",
   "status": "proved",
   "theorems": [
    "Thrift.Json.json_string_limit",
    "Thrift.Json.json_binary_limit",
    "Thrift.Json.json_number_limit",
    "Thrift.Json.json_roundtrip"
   ],
   "note": ""
  },
  {
   "property": "C68",
   "status": "proved",
   "theorems": [
    "Thrift.Json.json_reads_any_spelling",
    "Thrift.Json.json_reads_any_list",
    "Thrift.Json.json_uuid_digits",
    "Thrift.Json.pyInt16_iff",
    "Thrift.Json.base64_accepts",
    "Thrift.Json.base64_unpadded",
    "Thrift.Json.base64_ignores"
   ],
   "note": "What is no string of RFC 8259 may be read too: the four characters after \\u are taken exactly if they are a numeral of Python's int(text, 16) (pyInt16_iff). Base64 is read without padding and with other characters in it, and refused exactly if the padding is too short or a single character is left over."
  },
  {
   "property": "C66",
   "status": "partial",
   "theorems": [
    "Thrift.SimpleJson.simple_wire_format",
    "Thrift.SimpleJson.simple_message",
    "Thrift.SimpleJson.simple_wellformed_partial",
    "Thrift.SimpleJson.simple_names_unique",
    "Thrift.SimpleJson.simple_compound_key_invalid",
    "Thrift.SimpleJson.simple_control_invalid",
    "Thrift.SimpleJson.simple_nonfinite_invalid"
   ],
   "note": "False for maps whose keys are structs or containers, for texts with control characters other than the five with short escapes, and for infinities and NaN (all proved); holds for all other values."
  },
  {
   "property": "C69",
   "status": "partial",
   "theorems": [
    "Thrift.Defaults.default_frozen_partial",
    "Thrift.Defaults.default_given",
    "Thrift.Defaults.default_shared",
    "Thrift.Defaults.default_leaks",
    "Thrift.Defaults.read_fresh"
   ],
   "note": "False: the default arguments of __init__ are evaluated once and never are the objects in thrift_spec that __init__ compares them with, so all instances share one default object (default_shared, default_leaks, for every program). Holds for defaults that are immutable at every depth (default_frozen_partial). Elements of sets and keys of maps are base values in the model."
  },
  {
   "property": "C70",
   "status": "partial",
   "theorems": [
    "Thrift.Defaults.import_iff_partial",
    "Thrift.Defaults.import_fails",
    "Thrift.Defaults.default_value_partial",
    "Thrift.Defaults.default_negative"
   ],
   "note": "Importing: exact condition proved (import_iff_partial); false if a default is a struct of the same module with a container or struct default of its own (import_fails). Instances: declared defaults as long as the shared default objects are not changed (default_value_partial); false for structs with implicit (negative) keys, whose constructor raises IndexError (default_negative)."
  },
  {
   "property": "C71",
   "status": "partial",
   "theorems": [
    "Thrift.binary_refuses",
    "Thrift.json_refuses",
    "Thrift.compact_refuses_partial",
    "Thrift.compact_length_unchecked",
    "Thrift.fast_refuses_partial"
   ],
   "note": "Binary and JSON (which has no bound for lengths): full statement. Compact: lengths are not checked, a binary value of any length is written (compact_length_unchecked). C extension: required fields only of the outermost struct (see Fast.fast_nested_required)."
  },
  {
   "property": "C72",
   "status": "partial",
   "theorems": [
    "Thrift.Locals.read_immutable_partial",
    "Thrift.Locals.read_immutable_iff",
    "Thrift.Locals.read_immutable_wrong",
    "Thrift.Locals.call_iff",
    "Thrift.Locals.call_wrong",
    "Thrift.Locals.call_hidden",
    "Thrift.Locals.process_raises_iff",
    "Thrift.Locals.process_success",
    "Thrift.Locals.process_no_reply",
    "Thrift.Locals.module_unusable"
   ],
   "note": "False for some names, the exact set of names is proved for each function (the *_iff theorems) and what happens for the others. Members of immutable structs (all exceptions): iprot, cls, fname, ftype, fid. Parameters: args, write, validate, read, and with Twisted oprot, seqid, with Tornado oprot, future. Exceptions: result, oprot, seqid, msg_type, write, validate, and success if the function returns something. self, async and await give a module that Python does not compile. Names of module-level objects and of temporaries are excluded from the model."
  },
  {
   "property": "C73",
   "status": "partial",
   "theorems": [
    "Thrift.Attrs.construct_partial",
    "Thrift.Attrs.construct_write_partial",
    "Thrift.Attrs.assign_partial",
    "Thrift.Attrs.read_partial",
    "Thrift.Attrs.immutable_keyword",
    "Thrift.Attrs.slots_keyword",
    "Thrift.Attrs.fast_write_keyword",
    "Thrift.Attrs.fast_read_keyword",
    "Thrift.Attrs.fast_read_immutable_keyword",
    "Thrift.Attrs.method_hidden",
    "Thrift.Attrs.method_hidden_read",
    "Thrift.Attrs.slots_method",
    "Thrift.Attrs.construct_mangled"
   ],
   "note": "False for some names. Proved for names that are not Python keywords, not read/write/validate/thrift_spec and do not begin with two underscores (keywords are fine without slots, without immutable and without the C extension). Negations: keywords in immutable classes (every exception) give instances without the attribute, so write raises AttributeError; with slots they cannot be built; the C extension raises AttributeError when writing and loses the value when reading; read/write/validate hide the methods, with slots the class statement fails; names beginning with two underscores cannot be given to the constructor."
  },
  {
   "property": "C74",
   "status": "partial",
   "theorems": [
    "Thrift.Attrs.immutable_frozen",
    "Thrift.Attrs.immutable_raises",
    "Thrift.Attrs.immutable_other_raises",
    "Thrift.Attrs.immutable_other_slots",
    "Thrift.Attrs.eq_partial",
    "Thrift.Attrs.eq_other",
    "Thrift.Attrs.eq_hash_partial",
    "Thrift.Attrs.mutable_unhashable",
    "Thrift.Attrs.eq_keyword"
   ],
   "note": "Frozenness, equality and hash are proved for member names that are not Python keywords. Negations: without slots, assigning any attribute of an immutable instance raises TypeError, also those that are not members (__traceback__ among them); with slots, comparing mutable exceptions that have a member named as a keyword raises AttributeError. Equality and hash of the values themselves are parameters."
  },
  {
   "property": "C75",
   "status": "partial",
   "theorems": [
    "Thrift.TwistedServer.answered_once",
    "Thrift.TwistedServer.independent",
    "Thrift.TwistedServer.served_partial",
    "Thrift.TwistedServer.bad_frame",
    "Thrift.TwistedServer.compact_whole_or_closed",
    "Thrift.TwistedServer.resource_hangs",
    "Thrift.TwistedServer.wrong_result"
   ],
   "note": "At most one answer per request and independence are proved for all histories of frames with any bytes; exactly one answer with the right contents for all histories of readable requests with results that can be written. False: with TBinaryProtocol an i32 result out of range reaches the client as another number (wrong_result; with TCompactProtocol the connection is closed instead, compact_whole_or_closed); ThriftResource never responds if the handler raises TTransportException (resource_hangs)."
  },
  {
   "property": "C76",
   "status": "partial",
   "theorems": [
    "Thrift.TornadoServer.one_at_a_time",
    "Thrift.TornadoServer.served",
    "Thrift.TornadoServer.breaks",
    "Thrift.TornadoServer.write_fails",
    "Thrift.TornadoServer.bad_frame",
    "Thrift.TornadoServer.stream_closed",
    "Thrift.TornadoServer.end_of_stream",
    "Thrift.TornadoServer.cancelled_hangs"
   ],
   "note": "All but the last sentence is proved, for all histories. False: a handler that ends with an exception that is not an Exception (asyncio.CancelledError) leaves the connection open and the call without an answer (cancelled_hangs)."
  },
  {
   "property": "C77",
   "status": "partial",
   "theorems": [
    "Thrift.Source.spelled",
    "Thrift.Source.literal_iff",
    "Thrift.Source.string_const",
    "Thrift.Source.string_end_to_end",
    "Thrift.Source.not_utf8",
    "Thrift.Source.binary_const_partial",
    "Thrift.Source.binary_const_fails"
   ],
   "note": "Proved for all string constants in UTF-8 and for binary constants in ASCII. False for other binary constants: bytes above 127 are written as they are in a bytes literal, a SyntaxError (binary_const_fails); not_utf8 says what an IDL file in another encoding does."
  },
  {
   "property": "C78",
   "status": "partial",
   "theorems": [
    "Thrift.Source.docstring_partial",
    "Thrift.Source.docstring_injection",
    "Thrift.Source.docstring_joined",
    "Thrift.Source.docstring_backslash",
    "Thrift.Source.docstring_cut",
    "Thrift.Source.docstring_cut_inside"
   ],
   "note": "Proved for all comments without backslashes, three quotes in a row and lines of more than 1023 bytes. False otherwise: the text after three quotes is executed (docstring_injection), \\x is a SyntaxError (docstring_backslash), a backslash at the end of a line joins it with the next (docstring_joined), longer lines end the comment (docstring_cut) and may make the module invalid UTF-8 (docstring_cut_inside)."
  },
  {
   "property": "C79",
   "status": "partial",
   "theorems": [
    "Thrift.Numbers.int_const",
    "Thrift.Numbers.idl_int",
    "Thrift.Numbers.idl_hex",
    "Thrift.Numbers.bool_const",
    "Thrift.Numbers.bool_numbers",
    "Thrift.Numbers.bool_negative",
    "Thrift.Numbers.double_error",
    "Thrift.Numbers.double_large",
    "Thrift.Numbers.double_decimal",
    "Thrift.Numbers.double_tiny",
    "Thrift.Numbers.double_inf",
    "Thrift.Numbers.rounds_exists"
   ],
   "note": "Proved for integers, true and false, doubles of absolute value at least 1/2 and doubles written with at most 16 decimals. False: other numbers are accepted for bool and negative ones are False (bool_negative); doubles are written with 16 decimals, so that smaller ones lose digits (error bound double_error) or become 0 (double_tiny); too large ones become the name inf (double_inf)."
  },
  {
   "property": "C80",
   "status": "partial",
   "theorems": [
    "Thrift.Consts.program_partial",
    "Thrift.Consts.accepted_iff",
    "Thrift.Consts.program_accepted_iff",
    "Thrift.Consts.references_fail",
    "Thrift.Consts.container_ref",
    "Thrift.Consts.container_kind",
    "Thrift.Consts.struct_ref",
    "Thrift.Consts.double_ref",
    "Thrift.Consts.int_unchecked",
    "Thrift.Consts.enum_prefix",
    "Thrift.Consts.enum_string"
   ],
   "note": "Proved for all programs in which references are to constants of base types, doubles written as doubles. Exactly which declarations are accepted is proved too (accepted_iff, program_accepted_iff). False: a container constant that refers to another is silently empty (container_ref, references_fail), as is a literal of the wrong kind (container_kind); references to structs are refused (struct_ref); a double that refers to a double written as an integer is 0.0 (double_ref). Not refused: integers out of range (int_unchecked), values of other enums and strings for enums (enum_prefix, enum_string)."
  },
  {
   "property": "C81",
   "status": "partial",
   "theorems": [
    "Thrift.Enums.values_iff",
    "Thrift.Enums.class_partial",
    "Thrift.Enums.dicts_inverse",
    "Thrift.Enums.async_name",
    "Thrift.Enums.reserved_collision",
    "Thrift.Enums.private_name",
    "Thrift.Enums.dotted_name"
   ],
   "note": "The values are proved for all enums (values_iff). The class is proved for all names but these, for which it is false: async and await (async_name), a reserved word next to itself with an underscore (reserved_collision), names that begin with two underscores (private_name), names with dots (dotted_name), and the names of the two dictionaries."
  },
  {
   "property": "C82",
   "status": "partial",
   "theorems": [
    "Thrift.IntEnum.python_roundtrip",
    "Thrift.IntEnum.fast_writes_same",
    "Thrift.IntEnum.fast_roundtrip_partial",
    "Thrift.IntEnum.unknown_value",
    "Thrift.IntEnum.fast_immutable",
    "Thrift.IntEnum.fast_list",
    "Thrift.IntEnum.number_mutable",
    "Thrift.IntEnum.number_immutable",
    "Thrift.IntEnum.number_typedef"
   ],
   "note": "Proved for all values with the Python protocols, and for numbers assigned to members of mutable structs. The accelerated protocols give back a value exactly if its enums are members of mutable structs and not typedefs (fast_roundtrip_partial): in immutable structs they become None (fast_immutable), in containers numbers that cannot be written again (fast_list). False: unknown numbers make the whole unreadable (unknown_value); numbers passed to immutable structs become None (number_immutable), to members with a typedef or a forward declaration stay numbers that cannot be written (number_typedef)."
  },
  {
   "property": "C83",
   "status": "partial",
   "theorems": [
    "Thrift.HttpServer.post_responses",
    "Thrift.HttpServer.post_call",
    "Thrift.HttpServer.post_oneway",
    "Thrift.HttpServer.post_unknown",
    "Thrift.HttpServer.http_call",
    "Thrift.HttpServer.http_oneway",
    "Thrift.HttpServer.serial_answered",
    "Thrift.HttpServer.twoway_answered",
    "Thrift.HttpServer.response_exception_ignored",
    "Thrift.HttpServer.post_truncated_waits",
    "Thrift.HttpServer.threads_no_answer",
    "Thrift.HttpServer.threads_two_answers",
    "Thrift.HttpServer.threads_wrong_answer"
   ],
   "note": "Proved for requests that are handled one after the other (the default server_class), or at the same time if none is oneway: one response each, with the answer to what the handler did. False: ResponseException does not override the response (response_exception_ignored); a body that is shorter than a message makes the server wait for ever, although Content-Length tells where it ends (post_truncated_waits); with a threaded server_class oneway requests make other requests lose their response, get two or get a response of another (threads_no_answer, threads_two_answers, threads_wrong_answer)."
  },
  {
   "property": "C84",
   "status": "partial",
   "theorems": [
    "Thrift.HeaderProtocol.serve_call",
    "Thrift.HeaderProtocol.serve_oneway",
    "Thrift.HeaderProtocol.serve_unknown",
    "Thrift.HeaderProtocol.serve_session",
    "Thrift.HeaderProtocol.client_send",
    "Thrift.HeaderProtocol.client_recv",
    "Thrift.HeaderProtocol.header_call",
    "Thrift.HeaderProtocol.bad_protocol_silent",
    "Thrift.HeaderProtocol.bad_transform_silent"
   ],
   "note": "Proved for messages in a dialect that the server allows, within the limits of both sides, with both protocols, over any transport that delivers: one answer in the dialect, protocol and sequence id of the request, headers delivered once in each direction, nothing behind the message touched; for any number of messages on one connection, each in its own dialect (serve_session). False: a message with an unknown protocol id or transform is not answered with an exception, although readMessageBegin is written to do so; the server raises TypeError and sends nothing (bad_protocol_silent, bad_transform_silent)."
  },
  {
   "property": "C85",
   "status": "partial",
   "theorems": [
    "Thrift.Structs.struct_accepted",
    "Thrift.Structs.function_accepted",
    "Thrift.Structs.program_accepted",
    "Thrift.Structs.struct_made",
    "Thrift.Structs.written_number",
    "Thrift.Structs.counted_number",
    "Thrift.Structs.allowed_number",
    "Thrift.Structs.struct_fieldsOK",
    "Thrift.Structs.order_free",
    "Thrift.Structs.insert_free",
    "Thrift.Structs.compile_structs",
    "Thrift.Structs.compile_fns",
    "Thrift.Structs.compile_ok",
    "Thrift.Structs.idl_call",
    "Thrift.Structs.number_too_big",
    "Thrift.Structs.number_cut",
    "Thrift.Structs.number_replaced",
    "Thrift.Structs.insert_shifts",
    "Thrift.Structs.success_dropped",
    "Thrift.Structs.throws_default"
   ],
   "note": "Proved: exactly which structs, functions and programs are accepted; a written positive 32-bit number is the number of the field; fields without one are numbered -1, -2, ...; order of declaration and added fields with numbers do not matter; what is generated from programs whose numbers are written and valid (and whose throws clauses have no defaults and no exception called success) satisfies the assumptions of the theorems about protocols and calls (compile_ok, idl_call). False: numbers that no protocol can carry are accepted (number_too_big), numbers beyond 32 bits become others (number_cut), numbers that are not positive are replaced (number_replaced), an exception called success is dropped (success_dropped), a default in a throws clause makes successful calls raise (throws_default)."
  },
  {
   "property": "C86",
   "status": "partial",
   "theorems": [
    "Thrift.reads_one",
    "Thrift.recv_across",
    "Thrift.call_across",
    "Thrift.oneway_across",
    "Thrift.added_exception_lost"
   ],
   "note": "Proved: a handler gets exactly the arguments that were sent, as its own version reads them (fields of the same id and type have the values that were sent, other fields their defaults), and the client is told what the handler did, as its version reads it; messages are the same as within one version. False for one case: an exception that only the server's version declares, raised by a function without a result, is a success for the client (added_exception_lost); with a result, the client raises MISSING_RESULT."
  },
  {
   "property": "C87",
   "status": "partial",
   "theorems": [
    "Thrift.Audit.audit_iff",
    "Thrift.Audit.parse_structs",
    "Thrift.Audit.parse_services",
    "Thrift.Audit.resolve_iff",
    "Thrift.Audit.resolve_one",
    "Thrift.Audit.audit_sound",
    "Thrift.Audit.audited_call",
    "Thrift.Audit.unchecked_plain",
    "Thrift.Audit.uuid_unseen",
    "Thrift.Audit.typedef_unseen",
    "Thrift.Audit.enum_unseen",
    "Thrift.Audit.exception_unseen",
    "Thrift.Audit.typedef_alarm"
   ],
   "note": "Proved: exactly which changes pass the audit (audit_iff); if a change passes, and typedefs, enums and the choice between string, binary and uuid did not change, clients of the old program can call all functions of servers of the new one (audit_sound, audited_call; the other direction by the second Versions of audit_sound and C86). False in full, with witnesses: the audit passes string -> uuid, another type for a typedef, a struct in the place of an enum (what is sent is dropped), and an exception that is added to a void function (taken for success); it also complains about a change that changes nothing (typedef_alarm). Files that include others, and warnings of the audit, are not modelled."
  },
  {
   "property": "C88",
   "status": "partial",
   "theorems": [
    "Thrift.Audit.processor_iff",
    "Thrift.Audit.processor_runs",
    "Thrift.Audit.extends_serves",
    "Thrift.Includes.processor_iff",
    "Thrift.Includes.processor_runs",
    "Thrift.Includes.extends_serves",
    "Thrift.Includes.extends_named",
    "Thrift.Includes.extends_reaches",
    "Thrift.Includes.base_hidden"
   ],
   "note": "Proved for services of one file (Audit) and of several (Includes; no file includes two of the same base name): the processor has exactly the functions that the service declares or inherits, each is the one that runs for its name, and a server of a service answers what the extended service does. The Python code finds the module of the extended service unless something else is called like its package (extends_reaches); false otherwise: a struct that is called like the package hides it, and the module of the service cannot be loaded (base_hidden)."
  },
  {
   "property": "C89",
   "status": "partial",
   "theorems": [
    "Thrift.ServerSocket.listen_takes",
    "Thrift.ServerSocket.listen_busy",
    "Thrift.ServerSocket.listen_directory",
    "Thrift.ServerSocket.listen_returned",
    "Thrift.ServerSocket.whole_reaches",
    "Thrift.ServerSocket.whole_one",
    "Thrift.ServerSocket.keeps_listening",
    "Thrift.ServerSocket.others_fail",
    "Thrift.ServerSocket.choose_spec",
    "Thrift.ServerSocket.listens_where",
    "Thrift.ServerSocket.dual_stack",
    "Thrift.ServerSocket.client_reaches",
    "Thrift.ServerSocket.file_deleted",
    "Thrift.ServerSocket.two_servers",
    "Thrift.ServerSocket.listen_twice",
    "Thrift.ServerSocket.path_too_long"
   ],
   "note": "Proved: a path is taken over if nothing is there or nobody listens on the socket, never from a server that listens; if calls of listen do not overlap, clients get to every server whose listen returned, so that at most one listens on a path; and once a server listens, it keeps the path in all interleavings unless another one was about to remove the file already. False: any other file at the path is deleted (file_deleted); a server that looks between bind and listen of another one takes its path, and both listen (two_servers); a second listen of the same object raises and ends the first one (listen_twice); a path that is too long raises ValueError (path_too_long). For Linux; what the operating system does is written down in the model and trusted."
  },
  {
   "property": "C90",
   "status": "proved",
   "theorems": [
    "Thrift.any_call",
    "Thrift.any_call_across",
    "Thrift.any_oneway_across",
    "Thrift.any_reply",
    "Thrift.any_silent",
    "Thrift.any_unknown",
    "Thrift.any_recv",
    "Thrift.any_exception",
    "Thrift.hears_of",
    "Thrift.Json.writes",
    "Thrift.Json.reads"
   ],
   "note": "Proved for every pair of protocols that write and read messages (Sends, Hears) and shown for the JSON protocol (Json.writes, Json.reads, doubles finite and Faithful as in C06) and, via hears_of, for the binary and compact protocols. Any transport that delivers what was sent, in pieces of any size; nothing after the message is consumed."
  },
  {
   "property": "C91",
   "status": "partial",
   "theorems": [
    "Thrift.CReadable.memory_any",
    "Thrift.CReadable.buffered_any",
    "Thrift.CReadable.framed_any",
    "Thrift.CReadable.sasl_any",
    "Thrift.CReadable.memory_value",
    "Thrift.CReadable.buffered_value",
    "Thrift.CReadable.framed_value",
    "Thrift.CReadable.sasl_value",
    "Thrift.CReadable.header_frame_value_partial",
    "Thrift.CReadable.header_unframed_value",
    "Thrift.CReadable.zlib_value_partial",
    "Thrift.CReadable.zlib_loses",
    "Thrift.CReadable.zlib_wrong_value",
    "Thrift.CReadable.header_loses",
    "Thrift.CReadable.header_wrong_value",
    "Thrift.CReadable.header_unframed_hangs"
   ],
   "note": "Proved for any bytes over TMemoryBuffer, TBufferedTransport, TFramedTransport and TSaslClientTransport, and for encoded values also over THeaderTransport without frames. False of TZlibTransport and of THeaderTransport when a refill reads a frame: the refill keeps only part of what it has taken from below (zlib_loses, header_loses, with wrong results in zlib_wrong_value, header_wrong_value); proved there while the value is in the buffer or, for TZlibTransport, in one piece of less than 4096 bytes. At the end of the data the refill of an unframed THeaderTransport does not return (header_unframed_hangs)."
  },
  {
   "property": "C92",
   "status": "partial",
   "theorems": [
    "Thrift.Includes.compile_acyclic",
    "Thrift.Includes.recursion_circular",
    "Thrift.Includes.compile_files",
    "Thrift.Includes.names_apart",
    "Thrift.Includes.defined_clash",
    "Thrift.Includes.package_of",
    "Thrift.Includes.struct_types",
    "Thrift.Includes.function_types",
    "Thrift.Includes.denotes_one",
    "Thrift.Includes.ttypes_reaches",
    "Thrift.Includes.service_reaches",
    "Thrift.Includes.extends_reaches",
    "Thrift.Includes.typedef_unreached",
    "Thrift.Includes.same_base_name",
    "Thrift.Includes.same_namespace",
    "Thrift.Includes.package_hidden",
    "Thrift.Includes.base_hidden",
    "Thrift.Includes.service_hides"
   ],
   "note": "Proved: circular includes are rejected and nothing else is called circular, exactly the reachable files are compiled, exactly which declarations clash (names_apart, defined_clash), the package of a file (package_of), types are what their names denote if no file includes two of the same base name, and exactly when generated code finds the classes of these types (ttypes_reaches, service_reaches). False in full, with witnesses: the later of two included files with the same base name silently wins (same_base_name); files with the same namespace overwrite each other (same_namespace); a type that is named through a typedef of an included file is not imported (typedef_unreached); a type that is called like a package hides it (package_hidden, base_hidden); types called like classes of a service module, or with an underscore, are not found there (service_hides). The options of the generator are the default ones."
  },
  {
   "property": "C93",
   "status": "partial",
   "theorems": [
    "Thrift.TwistedSasl.init_raises",
    "Thrift.TwistedSasl.never_started",
    "Thrift.TwistedSasl.wire",
    "Thrift.TwistedSasl.silent",
    "Thrift.TwistedSasl.answer_raises",
    "Thrift.TwistedSasl.dispatch_raises"
   ],
   "note": "False of the code in every case, proved for every SASL object, server and order of events: with a host the constructor raises AttributeError (init_raises); without one, started never fires and no client is made (never_started), a server sees at most a START and an OK message (wire) and nothing if the mechanism is a text (silent), every answer of the server raises TypeError (answer_raises), and so does every call (dispatch_raises)."
  },
  {
   "property": "C94",
   "status": "partial",
   "theorems": [
    "Thrift.Repr.repr_total",
    "Thrift.Repr.eval_repr_partial",
    "Thrift.Repr.eval_repr_same_partial",
    "Thrift.Repr.repr_injective",
    "Thrift.Repr.no_expression",
    "Thrift.Repr.part_unreadable",
    "Thrift.Repr.not_finite",
    "Thrift.Repr.frozen_inside",
    "Thrift.Repr.class_unknown",
    "Thrift.Repr.other_class",
    "Thrift.Repr.complete",
    "Thrift.Repr.no_parameter",
    "Thrift.Repr.slots_missing"
   ],
   "note": "Proved for values of any size and depth, with the tokenizer, parser and evaluation of such texts modelled: eval(repr(x)) is x (TFrozenDict becomes dict) under conditions that are stated. False without them, proved in general: infinities and NaN are unknown names, members of enums and reserved words are no expressions, more than 200 open brackets are a SyntaxError, a TFrozenDict inside of a key or set has no hash when read, classes of other files are unknown or are other classes, deleted or added attributes are not kept, immutable classes whose parameters are called otherwise than the attributes cannot be read, with slots repr itself fails for names like __x."
  },
  {
   "property": "C95",
   "status": "partial",
   "theorems": [
    "Thrift.Remote.calls_partial",
    "Thrift.Remote.calls_raises",
    "Thrift.Remote.only_asked",
    "Thrift.Remote.unknown_function",
    "Thrift.Remote.wrong_number",
    "Thrift.Remote.help",
    "Thrift.Remote.late_target",
    "Thrift.Remote.no_function",
    "Thrift.Remote.no_ipv6",
    "Thrift.Remote.https_plain",
    "Thrift.Remote.no_path",
    "Thrift.Remote.params_dropped",
    "Thrift.Remote.ssl_needs_certs",
    "Thrift.Remote.ssl_unreadable",
    "Thrift.Remote.binary_raises",
    "Thrift.Remote.typedef_evaluated",
    "Thrift.Remote.names_hidden",
    "Thrift.Remote.service_hidden"
   ],
   "note": "Proved for all services, targets, functions and arguments: the script connects, calls, prints and closes, under conditions that are stated; and whatever the command line, it calls at most the function that the words name, with the texts and bytes given (only_asked). False without the conditions, proved in general: the options count only in one order and are taken as functions otherwise, hosts with colons are cut, https URLs are contacted without TLS at port 80, a URL without a path is an AssertionError, parameters of the path are dropped, -ssl alone fails, bytes that are not UTF-8 cannot be given, arguments whose type is a typedef of string are evaluated as expressions, variables of the script hide types, and services with the name of a type or of a variable cannot be called."
  },
  {
   "property": "C96",
   "status": "partial",
   "theorems": [
    "Thrift.HttpUrl.direct_partial",
    "Thrift.HttpUrl.tunnel_partial",
    "Thrift.HttpUrl.https_private",
    "Thrift.HttpUrl.plain_proxy",
    "Thrift.HttpUrl.leaks",
    "Thrift.HttpUrl.proxy_none",
    "Thrift.HttpUrl.password_needed",
    "Thrift.HttpUrl.params_dropped",
    "Thrift.HttpUrl.query_alone",
    "Thrift.HttpUrl.port_zero",
    "Thrift.HttpUrl.cafile_raises",
    "Thrift.HttpUrl.port_argument",
    "Thrift.HttpUrl.proxy_port",
    "Thrift.HttpUrl.proxy_bare",
    "Thrift.HttpUrl.proxy_v6",
    "Thrift.HttpUrl.no_injection",
    "Thrift.HttpUrl.zone_dropped",
    "Thrift.HttpUrl.empty_user"
   ],
   "note": "Proved for all URLs of RFC 3986 form with names, IPv4 and IPv6 hosts: peer, TLS name, request target and Host are those of the URL, directly and through a proxy for https; and no request in TLS has credentials of the proxy, whatever the arguments (https_private). False in general, proved: plain requests through a proxy send its credentials to the server in the tunnel (leaks); parameters of the path are dropped, a query without path makes a wrong request line, port 0 is replaced; a cafile without a client certificate raises; a URL with the argument port is taken for a host name without TLS; proxies without user get the header None, without password raise, without port are contacted at the port of the scheme of the server, without scheme cannot be used, and IPv6 proxies without port are cut."
  },
  {
   "property": "C97",
   "status": "partial",
   "theorems": [
    "Thrift.Doc.starred_text",
    "Thrift.Doc.unstarred_text_partial",
    "Thrift.Doc.unstarred_text_fails",
    "Thrift.Doc.short_text",
    "Thrift.Doc.words_kept",
    "Thrift.Doc.no_text",
    "Thrift.Doc.empty_text",
    "Thrift.Doc.attached",
    "Thrift.Doc.trailing",
    "Thrift.Doc.crash",
    "Thrift.Doc.listed_partial",
    "Thrift.Doc.listed_fails",
    "Thrift.Doc.python_partial"
   ],
   "note": "Proved: the text of comments with stars, without stars (unless all lines begin with a star) and on one line is kept line by line, and the words of any comment are; when there is no text and when the text is empty (iff); a declaration gets the last comment since the one before it began (attached); the docstring has the doc and an entry for each member; from the IDL file to the value of __doc__ (python_partial). False in general, proved: a blank doc comment before any other crashes the compiler (crash, iff); comments after what they describe go to the next declaration (trailing); bullets are taken for the stars of the comment (unstarred_text_fails); an empty comment of a field puts the entry of the next one on its line (listed_fails)."
  },
  {
   "property": "C98",
   "status": "partial",
   "theorems": [
    "Thrift.Decorator.decorate_some",
    "Thrift.Decorator.decorate_none",
    "Thrift.Decorator.decorate_iff",
    "Thrift.Decorator.linear_decorate",
    "Thrift.Decorator.methods",
    "Thrift.multiplexed_ok",
    "Thrift.multiplexed_twice",
    "Thrift.multiplexed_again",
    "Thrift.multiplexer_nested",
    "Thrift.multiplexer_default"
   ],
   "note": "Proved, with the C3 linearization of Python, for any class hierarchy of the protocol: which decorations there are and where each method of a decorated object is found. False, proved: Python cannot make the class if the object is decorated by the same class already (iff), so a TMultiplexedProtocol on a TMultiplexedProtocol, and each call to a TMultiplexedProcessor registered with another, is a TypeError."
  },
  {
   "property": "C99",
   "status": "partial",
   "theorems": [
    "Thrift.Callbacks.callback_iff",
    "Thrift.Callbacks.services_given",
    "Thrift.Callbacks.default_not_given",
    "Thrift.Callbacks.later_not_given",
    "Thrift.Callbacks.routes",
    "Thrift.Callbacks.post_call",
    "Thrift.Callbacks.post_oneway_partial",
    "Thrift.Callbacks.post_default_oneway",
    "Thrift.Callbacks.post_unregistered",
    "Thrift.Callbacks.post_responses"
   ],
   "note": "Proved for every history of registrations and callbacks: whose callback is which, and what THttpServer sends for messages to the services of a multiplexer, and that it sends one response whatever it receives. False, proved: the default processor and processors registered later do not get the callback, so a oneway message to the default is answered only after the handler has returned."
  },
  {
   "property": "C100",
   "status": "partial",
   "theorems": [
    "Thrift.Hints.read_hints_partial",
    "Thrift.Hints.fast_hints_partial",
    "Thrift.Hints.call_hints_partial",
    "Thrift.Hints.foreign_skipped",
    "Thrift.Hints.required_absent",
    "Thrift.Hints.argument_absent",
    "Thrift.Hints.frozen_list",
    "Thrift.Hints.frozen_set",
    "Thrift.Hints.fast_element",
    "Thrift.Hints.fast_alias",
    "Thrift.Hints.fast_immutable",
    "Thrift.Hints.twisted_hint",
    "Thrift.Hints.tornado_hint"
   ],
   "note": "Proved for every schema and every message: what is read is as annotated exactly if validate() would accept all instances in it and it has no tuples and frozen sets; with the C extension the same if there are no enums; likewise what plain clients return. False, proved: required members and arguments that are absent are None; immutable lists and sets are annotated as list and set; the extension leaves numbers in place of enums in containers and typedefs; clients of Twisted and Tornado return Deferreds and Futures."
  },
  {
   "property": "C101",
   "status": "partial",
   "theorems": [
    "Thrift.Equal.sent_equal_partial",
    "Thrift.Equal.write_iff",
    "Thrift.Equal.nan_unequal",
    "Thrift.Equal.default_returns",
    "Thrift.Equal.list_for_tuple",
    "Thrift.Equal.fast_immutable_unequal"
   ],
   "note": "Proved for every schema and every object of the classes that programs use: it is written exactly if no required member is None, and what arrives, with or without the C extension, is == to it (asked from either side) if there is no NaN in it and no member with a default is None; a frozen set may arrive as a set and a TFrozenDict as a dict. False, proved: an object with a NaN anywhere in it equals nothing; a member that is None though it has a default arrives as the default; a list in place of an immutable list arrives as a tuple; with the extension an enum in an immutable class arrives as None."
  },
  {
   "property": "C102",
   "status": "partial",
   "theorems": [
    "Thrift.Copies.copy_equal_partial",
    "Thrift.Copies.frozen_slots",
    "Thrift.Copies.frozen_exception",
    "Thrift.Copies.slots_exception",
    "Thrift.Copies.slots_exception_lost",
    "Thrift.Copies.make_has",
    "Thrift.Copies.make_raises"
   ],
   "note": "Proved for every class whose members have plain names, and every instance a program can come by: the copy of a struct (immutable or with slots, not both) and of an exception (neither) is of the same class, has the copies of the values of the members and is == to the original. False, proved: an instance of an immutable class with slots, and an immutable exception without slots, cannot be copied (TypeError); the copy of an exception with slots has the positional arguments it was made with in place of its members, so what was given by keywords, assigned or received is None in it."
  }
 ]
}
