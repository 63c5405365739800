#!/usr/bin/env python3
"""Write MANIFEST.json from the table below. Usage: python3 tools/gen_manifest.py"""
import json, os, re

B = "Thrift.Binary."
C = "Thrift.Compact."
T = "Thrift."
H = "Thrift.Header."
S = "Thrift.Socket."
N = "Thrift.Nonblocking."
A = "Thrift.Sasl."
V = "Thrift.Servers."
O = "Thrift.Tornado."
D = "Thrift.FrozenDict."
R = "Thrift.Recursive."
W = "Thrift.Twisted."
Q = "Thrift.TornadoClient."
M = "Thrift.Names."
Y = "Thrift.Http."
L = "Thrift.Ssl."
J = "Thrift.Json."
F = "Thrift.Fast."
E = "Thrift.SimpleJson."
U = "Thrift.Defaults."
K = "Thrift.Locals."
X = "Thrift.Attrs."
G = "Thrift.TwistedServer."
P = "Thrift.TornadoServer."
I = "Thrift.Source."
Z = "Thrift.Numbers."
CO = "Thrift.Consts."
EN = "Thrift.Enums."
IE = "Thrift.IntEnum."
HS = "Thrift.HttpServer."
HP = "Thrift.HeaderProtocol."
ST = "Thrift.Structs."
VS = "Thrift."
AU = "Thrift.Audit."
SK = "Thrift.ServerSocket."
CR = "Thrift.CReadable."
IN = "Thrift.Includes."
TA = "Thrift.TwistedSasl."
RP = "Thrift.Repr."
RM = "Thrift.Remote."
HU = "Thrift.HttpUrl."
DC = "Thrift.Doc."
DE = "Thrift.Decorator."
CB = "Thrift.Callbacks."
TH = "Thrift.Hints."
EQ = "Thrift.Equal."
CP = "Thrift.Copies."
CLAIMS = {
    "C01": ("proved", [B + "binary_int_scalar", B + "binary_int_out_of_range", B + "binary_other_scalar"], ""),
    "C02": ("proved", [C + "compact_int_write", C + "compact_int_read", C + "compact_int_out_of_range", C + "compact_int_length"], ""),
    "C03": ("proved", [C + "compact_varint_any"], ""),
    "C04": ("proved", [B + "binary_wire_format", B + "binary_roundtrip"], "Both code generation modes."),
    "C05": ("proved", [C + "compact_wire_format", C + "compact_roundtrip", C + "compact_bool_element"], "Both code generation modes."),
    "C07": ("proved", [B + "binary_wire_format"], ""),
    "C08": ("proved", [C + "compact_wire_format"], ""),
    "C06": ("proved", [J + "json_wire_format", J + "json_roundtrip", J + "json_nonfinite_lost"],
            "At the outermost level the value is not a number (a number has no end there). That formatting and parsing of finite doubles are inverse is a hypothesis (Faithful). json_nonfinite_lost: infinities and NaN inside a list are written and cannot be read back."),
    "C09": ("partial", [J + "json_wellformed_partial", J + "json_message_wellformed_partial", J + "json_control_invalid", J + "json_nonfinite_invalid"],
            "False for texts with control characters other than the five with short escapes and for infinities and NaN (both proved); holds for all other values."),
    "C63": ("partial", [J + "json_truncated_partial", J + "json_message_truncated_partial", J + "json_trailing", J + "json_truncated_raises", J + "json_truncated_hangs"],
            "No prefix is accepted; with a string length limit every prefix raises. Without a length limit a document that ends within a number makes the reader loop forever (proved), so the part about always ending is false."),
    "C64": ("partial", [J + "json_roundtrip", J + "json_message_read", J + "json_fragmentation_differs"],
            "False for documents with \\u escapes (proved); holds for every document that TJSONProtocol itself writes."),
    "C65": ("proved", [J + "json_total", J + "json_skip_total", J + "json_message_total"], "json_truncated_hangs (C63) shows that the limit is needed."),
    "C67": ("proved", [J + "json_string_limit", J + "json_binary_limit", J + "json_number_limit", J + "json_roundtrip"], ""),
    "C10": ("proved", [B + "binary_message_strict", B + "binary_message_nonstrict", C + "compact_message", J + "json_message_write", J + "json_message_read"], ""),
    "C11": ("proved", [B + "binary_bad_version", B + "binary_accepts_only_own", C + "compact_bad_version", C + "compact_accepts_only_own",
                       J + "json_foreign", J + "json_version"], ""),
    "C13": ("partial", [B + "binary_skip_partial", B + "binary_skip_non_text", C + "compact_skip_partial", C + "compact_skip_non_text", J + "json_skip"],
            "False for binary values that are not UTF-8 (proved); proved for all other values."),
    "C14": ("partial", [B + "binary_schema_evolution_partial", B + "binary_unknown_binary_field", B + "dyn_negative_id_aliases",
                        C + "compact_schema_evolution_partial", C + "compact_unknown_binary_field", J + "json_schema_evolution"],
            "False for unknown binary fields that are not UTF-8 and for negative ids in dynamic mode (both proved)."),
    "C15": ("proved", [T + "depth_read_balanced", T + "depth_write_balanced", T + "depth_write_refused", T + "depth_read_refused",
                       T + "depth_skip_refused", J + "json_depth_read_balanced",
                       J + "json_depth_write_balanced", J + "json_depth_write_refused"],
            "Binary and compact; for JSON the balance and the refusal of writing. dynamic_depth_unbounded records that the dynamic mode does not count."),
    "C17": ("proved", [B + "binary_truncation", B + "binary_truncation_skip", C + "compact_truncation", C + "compact_truncation_skip"], ""),
    "C16": ("proved", [T + "binary_fragmentation", T + "compact_fragmentation"], ""),
    "C12": ("partial", [T + "binary_decoded_values", T + "compact_decoded_values_partial", T + "binary_bad_length", T + "compact_bad_length",
                        T + "message_name_limit", T + "binary_old_name_unlimited", J + "json_decoded_values_partial", J + "json_message_name_limit"],
            "JSON has only the string limit. False for the message name in the old unversioned binary encoding (proved); holds everywhere else."),
    "C18": ("proved", [T + "binary_total", T + "compact_total", T + "skip_total", T + "fuel_irrelevant"], ""),
    "C19": ("partial", [T + "binary_decoded_values", T + "compact_decoded_values_partial", T + "compact_out_of_range",
                        J + "json_decoded_values_partial", J + "json_out_of_range"],
            "Proved for binary. False for compact, which does not check the range of i16/i32/i64, and for JSON, which checks none (both proved); the rest holds for compact and JSON."),
    "C20": ("proved", [T + "required_unset_refused", T + "unset_not_written", T + "binary_unset_reads_default",
                       T + "compact_unset_reads_default", T + "read_ignores_required"], ""),
    "C21": ("proved", [T + "readAll_any_transport", T + "readAll_exact", T + "readAll_returns"], ""),
    "C22": ("proved", [T + "Buffered.buffered_faithful", T + "Buffered.buffered_delivers", T + "buffered_session", T + "buffered_refill"],
            "Positive read sizes, as stated; buffered_read_zero proves that read(0) drops data."),
    "C23": ("proved", [T + "buffered_writes", T + "buffered_write_result"], ""),
    "C24": ("proved", [T + "framed_writes", T + "framed_too_large", T + "framed_read", T + "framed_session", T + "framed_transfer", T + "batchLog_delivered"],
            "Positive read sizes, as stated; framed_read_zero proves that read(0) drops data."),
    "C25": ("proved", [T + "memory_writes", T + "memory_reads", T + "memory_is_memStep", T + "memory_closed"], ""),
    "C26": ("proved", [H + "header_roundtrip", H + "header_flush", H + "header_receive", H + "header_read", H + "sendOps", H + "header_flush_other", H + "header_fragmentation"],
            "zlib is a parameter with its documented contract (ZlibOk, instance storedZlib). header_kept_framed: headers set while answering a client of another type stay for the next header frame."),
    "C27": ("proved", [H + "header_unframed", H + "header_framed", H + "header_protocol", H + "header_tiny_frame"],
            "A frame shorter than four bytes raises struct.error (header_tiny_frame)."),
    "C28": ("proved", [H + "header_limits", H + "header_frame_too_large", H + "header_send_limit", H + "header_send_too_large", H + "header_contained"], ""),
    "C30": ("partial", [T + x for x in ("zlib_writes", "zlib_reopen", "zlib_transfer", "zlib_transfer_progress", "zlib_limit_partial", "zlib_limit_bypassed",
                        "zlib_empty_flush_partial", "zlib_empty_flush", "zlib_empty_flush_breaks", "zlib_eof_partial", "zlib_eof_hangs")],
            "The transfer in order is proved in full (zlib is a parameter with contract ZlibContract, instance toy). The other three parts are false of the code, with proofs: the limit is lifted when exactly max_decompressed_size bytes were decompressed, an empty first flush raises TypeError and breaks the stream, a read at the end of a stream that answers b'' loops forever."),
    "C31": ("proved", [A + "sasl_open_ok", A + "sasl_open_accepts", A + "sasl_open_rejected", A + "sasl_open_incomplete", A + "sasl_open_returns",
                       A + "sasl_flush", A + "sasl_flush_failed", A + "sasl_transfer"],
            "The mechanism (puresasl) is a parameter; for the data phase the peers' mechanisms satisfy the contract Peers (instance sample_peers)."),
    "C32": ("proved", [S + "socket_write", S + "socket_write_ok", S + "socket_write_closed"], ""),
    "C33": ("proved", [S + "socket_open", S + "socket_open_first", S + "socket_open_none", S + "socket_open_again", S + "socket_open_unresolved", S + "socket_open_leaks", S + "socket_close"],
            "As stated for addresses whose connect fails with OSError; socket_open_leaks proves that a socket is left open when setting its timeout fails or connect raises another exception."),
    "C34": ("proved", [T + x for x in ("multiplexed_ok", "multiplexed_writes", "multiplexed_reads", "multiplexed_send", "multiplexed_call", "multiplexed_any", "multiplexed_unregistered",
                       "multiplexed_not_call", "multiplexed_default", "multiplexed_no_default", "multiplexed_misrouted", "routed_or_not",
                       "multiplexed_hears", "any_multiplexed_reply", "any_multiplexed_silent", "any_multiplexed_unknown", "any_multiplexed_refused", "any_multiplexed_call",
                       "any_multiplexed_oneway")],
            "multiplexed_misrouted proves that service names with a separator are misrouted. The any_multiplexed theorems hold for every protocol that satisfies Hears "
            "(binary, compact, JSON) and every transport that delivers, in pieces of any size."),
    "C35": ("proved", [T + x for x in ("process_reply", "answers_total", "process_oneway", "process_passes", "process_unknown", "process_bad_header", "process_callback_raises",
                       "process_bad_arguments", "process_unserializable")],
            "process_unserializable proves that a result that cannot be serialized gets no reply."),
    "C36": ("proved", [T + x for x in ("recv_reply", "means_unique", "recv_exception", "recv_fails")], "The client checks neither name nor sequence id of the reply."),
    "C37": ("proved", [T + x for x in ("call_end_to_end", "call_oneway", "carried_frame", "Binary.reads", "Binary.writes", "Compact.reads", "Compact.writes")], ""),
    "C38": ("proved", [T + x for x in ("app_write", "app_read_any", "app_roundtrip")], ""),
    "C51": ("partial", [T + x for x in ("failed_call_partial", "failed_flush_clean", "binary_failed_call_prefixes", "binary_failed_call_leaks",
                        "compact_stuck", "compact_failed_call_sticks")] + [W + "twisted_polluted", Q + "tornado_client_polluted"],
            "False: proved for both protocols. What holds: the failed call transmits nothing; failures of the transport do not affect the next call."),
    "C52": ("proved", [T + "serialization_binary", T + "serialization_compact"], ""),
    "C53": ("proved", [B + "binary_set_duplicates", B + "binary_map_duplicates", C + "compact_set_duplicates", C + "compact_map_duplicates"], ""),
    "C54": ("proved", [S + "socket_read", S + "socket_isOpen"], ""),
    "C55": ("partial", [T + "zlib_stats_partial", T + "zlib_stats_inbound", T + "zlib_reopen"],
            "Outbound proved; inbound false: the two counters are exchanged."),
    "C39": ("partial", [N + "nonblocking_frames_partial", N + "nonblocking_close_reason", N + "nonblocking_trailing", N + "nonblocking_drops"],
            "In order, none lost or changed while the connection is open: proved for every schedule. False: the transport of a request "
            "also holds the bytes that follow the frame; a recv of exactly 8192 bytes inside a frame closes the connection."),
    "C40": ("proved", [N + "nonblocking_protocol", N + "nonblocking_one_request", N + "nonblocking_all_sent", N + "nonblocking_workers"], ""),
    "C41": ("partial", [N + "nonblocking_waits_partial", N + "nonblocking_crash_reason_partial", N + "nonblocking_serves_ready",
                        N + "nonblocking_livelock", N + "nonblocking_crash"],
            "False: a request frame of 8192 bytes makes the loop spin forever, a negative length after a request ends it with an "
            "exception. Proved for pieces shorter than 8192 bytes and without negative lengths."),
    "C42": ("partial", [V + x for x in ("servers_protocol", "servers_one_worker", "servers_closes", "servers_closes_out", "servers_isolation_partial",
                        "servers_survive_partial", "servers_next_partial", "servers_factory_leak", "servers_exit_leak", "servers_close_fatal", "servers_accept_fatal",
                        "servers_start_leak", "servers_fork_returns", "servers_foreign_child")],
            "One worker per connection and closing after the processor raised: every execution. Isolation: when only processors fail. False "
            "when a factory, close, accept, fork or Thread.start raises, or the processor raises SystemExit or KeyboardInterrupt."),
    "C43": ("proved", [O + x for x in ("lock_exclusive_fifo", "lock_inside", "lock_no_lost_wakeup", "lock_leave_and_free")], ""),
    "C56": ("proved", [O + x for x in ("tornado_calls_in_order", "tornado_frames", "tornado_no_stuck", "tornado_flushes", "tornado_flush_fails",
                                       "tornado_read_fails")], ""),
    "C46": ("partial", [D + x for x in ("frozendict_equal", "frozendict_hash_partial", "frozendict_builds", "frozendict_hash_differs",
                                        "frozendict_unordered", "frozendict_items")],
            "Equality always; equal hashes when the keys are linearly ordered. False for keys with another <, such as frozensets."),
    "C57": ("partial", [D + x for x in ("frozendict_frozen_partial", "frozendict_hash_stays_partial", "frozendict_not_frozen")],
            "False: update, pop, clear and other methods inherited from dict change it."),
    "C47": ("proved", [R + x for x in ("fix_spec_exact", "generated_spec")], ""),
    "C58": ("partial", [R + x for x in ("thrift_spec_partial", "generated_spec", "generated_spec_negative", "spec_codes")],
            "False for structs with negative field ids, whose thrift_spec is empty."),
    "C44": ("partial", [W + x for x in ("twisted_once", "twisted_seqids", "twisted_own", "twisted_reply", "twisted_exception", "twisted_unknown",
                        "twisted_lost_partial", "twisted_all_fired_partial", "twisted_lost_ends", "twisted_refused", "twisted_request",
                        "twisted_unsent", "twisted_never", "twisted_lost_retried")],
            "Every reply goes to its own deferred, none is fired twice, unanswered calls fail when the connection is lost. False for a call whose reply cannot be read: its deferred is never fired (twisted_never)."),
    "C59": ("partial", [Q + x for x in ("tornado_client_once", "tornado_client_seqids", "tornado_client_own", "tornado_client_reply",
                        "tornado_client_exception", "tornado_client_unreadable", "tornado_client_unknown", "tornado_client_lost_partial",
                        "tornado_client_request", "tornado_client_deaf", "tornado_client_deaf_name", "tornado_client_cancelled",
                        "tornado_client_cancelled_lost")],
            "The receiving coroutine ends with a frame that is no message, a reply with an unknown name, or the reply to a cancelled call; all other calls are then never resolved (negations proved)."),
    "C60": ("partial", [M + x for x in ("names_client_partial", "names_keyword", "names_processor", "names_reserved_partial", "names_await",
                        "names_clash", "names_underscore")],
            "False for functions named as keywords of Python (no client can call them), for functions named as helpers of others, and for the name await."),
    "C45": ("proved", [Y + "http_bodies", Y + "http_length", Y + "http_outcome", Y + "http_connections", Y + "http_reply", Y + "http_faithful",
        Y + "http_no_stale", Y + "http_cookie", Y + "http_status", Y + "http_close", Y + "http_length_twice", Y + "http_open_leaks"],
        "For every history of write, flush, read, close, open and setCustomHeaders and every fate of the requests: the bodies sent are what was written between the flushes, each request names its length once, uses a connection of its own and carries the cookie of the last answer; reads deliver the last answer and never an earlier one. The length statement assumes that the user adds no Content-Length field (http_length_twice shows that two are sent otherwise); http_status shows that error statuses are not noticed. URL parsing, proxies' tunnels and http.client itself are not modelled."),
    "C50": ("partial", [L + "ssl_open", L + "ssl_open_configured", L + "ssl_legacy", L + "ssl_legacy_first_partial", L + "ssl_accept",
        L + "ssl_legacy_multivalued", L + "ssl_accept_unix"],
        "The statement about open is proved for every configuration and history, with the handshake rules of OpenSSL as the environment, and its counterpart for TSSLServerSocket.accept. The statement about the legacy callback is proved for subjects whose elements hold one pair each; it is false for elements with several pairs (ssl_legacy_multivalued)."),
    "C61": ("partial", [L + "ssl_open_configured", L + "ssl_hostname_callback", L + "ssl_cert_none", L + "ssl_ca_certs", L + "ssl_hostname_unchecked",
        L + "ssl_server_default"],
        "What verification guarantees is proved per configuration. The rest is false of the code: with the default ssl_version CERT_NONE never connects (ssl_cert_none), ca_certs is needed or not regardless of cert_reqs (ssl_ca_certs), a server accepts nobody (ssl_server_default), and with other versions host names are not checked on Python 3.12 (ssl_hostname_unchecked)."),
    "C62": ("partial", [L + "ssl_failed_open_partial", L + "ssl_rejected_open", L + "ssl_rejected_open_case", L + "ssl_stale_valid", L + "ssl_close"],
        "Holds for failures before the validate callback; false when the callback rejects the certificate: the connection stays open and usable (ssl_rejected_open), and is_valid may still be true (ssl_stale_valid)."),
    "C48": ("partial", [F + x for x in ("fast_wire_format", "fast_encoder_partial", "fast_drops_implicit_ids", "fast_nested_required")],
        "Proved for every schema without negative field ids: same bytes or same exception. With a negative field id the extension silently writes an empty struct (fast_drops_implicit_ids)."),
    "C49": ("partial", [F + x for x in ("fast_decodes", "fast_decoder_encoded", "fast_decoder_agrees_partial", "fast_decoder_differs", "fast_decoder_differs_depth", "fast_compact_agrees_partial", "fast_compact_differs", "fast_compact_fails_alone")],
        "Both protocols: equal results on everything a writer with a compatible schema produces. Binary protocol, every byte stream: values equal up to bool bytes other than 0 and 1, and a list of the exceptions that only one side raises; runs that do not end are not compared. Compact protocol, every byte stream (fast_compact_agrees_partial): either a number on the wire does not fit its type, or the values are equal, and the exceptions that only one side raises are listed. The full claim is false (fast_decoder_differs, fast_decoder_differs_depth, fast_compact_differs, fast_compact_fails_alone)."),
    "C68": ("proved", [J + x for x in ("json_reads_any_spelling", "json_reads_any_list", "json_uuid_digits", "pyInt16_iff", "base64_accepts", "base64_unpadded", "base64_ignores")], "What is no string of RFC 8259 may be read too: the four characters after \\u are taken exactly if they are a numeral of Python's int(text, 16) (pyInt16_iff). Base64 is read without padding and with other characters in it, and refused exactly if the padding is too short or a single character is left over."),
    "C66": ("partial", [E + x for x in ("simple_wire_format", "simple_message", "simple_wellformed_partial", "simple_names_unique", "simple_compound_key_invalid", "simple_control_invalid", "simple_nonfinite_invalid")],
            "False for maps whose keys are structs or containers, for texts with control characters other than the five with short escapes, and for infinities and NaN (all proved); holds for all other values."),
    "C69": ("partial", [U + x for x in ("default_frozen_partial", "default_given", "default_shared", "default_leaks", "read_fresh")],
            "False: the default arguments of __init__ are evaluated once and never are the objects in thrift_spec that __init__ compares them with, so all instances share one default object (default_shared, default_leaks, for every program). Holds for defaults that are immutable at every depth (default_frozen_partial). Elements of sets and keys of maps are base values in the model."),
    "C70": ("partial", [U + x for x in ("import_iff_partial", "import_fails", "default_value_partial", "default_negative")],
            "Importing: exact condition proved (import_iff_partial); false if a default is a struct of the same module with a container or struct default of its own (import_fails). Instances: declared defaults as long as the shared default objects are not changed (default_value_partial); false for structs with implicit (negative) keys, whose constructor raises IndexError (default_negative)."),
    "C71": ("partial", [T + x for x in ("binary_refuses", "json_refuses", "compact_refuses_partial", "compact_length_unchecked", "fast_refuses_partial")],
            "Binary and JSON (which has no bound for lengths): full statement. Compact: lengths are not checked, a binary value of any length is written (compact_length_unchecked). C extension: required fields only of the outermost struct (see Fast.fast_nested_required)."),
    "C72": ("partial", [K + x for x in ("read_immutable_partial", "read_immutable_iff", "read_immutable_wrong", "call_iff", "call_wrong", "call_hidden", "process_raises_iff", "process_success", "process_no_reply", "module_unusable")],
            "False for some names, the exact set of names is proved for each function (the *_iff theorems) and what happens for the others. Members of immutable structs (all exceptions): iprot, cls, fname, ftype, fid. Parameters: args, write, validate, read, and with Twisted oprot, seqid, with Tornado oprot, future. Exceptions: result, oprot, seqid, msg_type, write, validate, and success if the function returns something. self, async and await give a module that Python does not compile. Names of module-level objects and of temporaries are excluded from the model."),
    "C73": ("partial", [X + x for x in ("construct_partial", "construct_write_partial", "assign_partial", "read_partial", "immutable_keyword", "slots_keyword", "fast_write_keyword", "fast_read_keyword", "fast_read_immutable_keyword", "method_hidden", "method_hidden_read", "slots_method", "construct_mangled")],
            "False for some names. Proved for names that are not Python keywords, not read/write/validate/thrift_spec and do not begin with two underscores (keywords are fine without slots, without immutable and without the C extension). Negations: keywords in immutable classes (every exception) give instances without the attribute, so write raises AttributeError; with slots they cannot be built; the C extension raises AttributeError when writing and loses the value when reading; read/write/validate hide the methods, with slots the class statement fails; names beginning with two underscores cannot be given to the constructor."),
    "C74": ("partial", [X + x for x in ("immutable_frozen", "immutable_raises", "immutable_other_raises", "immutable_other_slots", "eq_partial", "eq_other", "eq_hash_partial", "mutable_unhashable", "eq_keyword")],
            "Frozenness, equality and hash are proved for member names that are not Python keywords. Negations: without slots, assigning any attribute of an immutable instance raises TypeError, also those that are not members (__traceback__ among them); with slots, comparing mutable exceptions that have a member named as a keyword raises AttributeError. Equality and hash of the values themselves are parameters."),
    "C75": ("partial", [G + x for x in ("answered_once", "independent", "served_partial", "bad_frame", "compact_whole_or_closed", "resource_hangs", "wrong_result")],
            "At most one answer per request and independence are proved for all histories of frames with any bytes; exactly one answer with the right contents for all histories of readable requests with results that can be written. False: with TBinaryProtocol an i32 result out of range reaches the client as another number (wrong_result; with TCompactProtocol the connection is closed instead, compact_whole_or_closed); ThriftResource never responds if the handler raises TTransportException (resource_hangs)."),
    "C76": ("partial", [P + x for x in ("one_at_a_time", "served", "breaks", "write_fails", "bad_frame", "stream_closed", "end_of_stream", "cancelled_hangs")],
            "All but the last sentence is proved, for all histories. False: a handler that ends with an exception that is not an Exception (asyncio.CancelledError) leaves the connection open and the call without an answer (cancelled_hangs)."),
    "C77": ("partial", [I + x for x in ("spelled", "literal_iff", "string_const", "string_end_to_end", "not_utf8", "binary_const_partial", "binary_const_fails")],
            "Proved for all string constants in UTF-8 and for binary constants in ASCII. False for other binary constants: bytes above 127 are written as they are in a bytes literal, a SyntaxError (binary_const_fails); not_utf8 says what an IDL file in another encoding does."),
    "C78": ("partial", [I + x for x in ("docstring_partial", "docstring_injection", "docstring_joined", "docstring_backslash", "docstring_cut", "docstring_cut_inside")],
            "Proved for all comments without backslashes, three quotes in a row and lines of more than 1023 bytes. False otherwise: the text after three quotes is executed (docstring_injection), \\x is a SyntaxError (docstring_backslash), a backslash at the end of a line joins it with the next (docstring_joined), longer lines end the comment (docstring_cut) and may make the module invalid UTF-8 (docstring_cut_inside)."),
    "C79": ("partial", [Z + x for x in ("int_const", "idl_int", "idl_hex", "bool_const", "bool_numbers", "bool_negative", "double_error", "double_large", "double_decimal", "double_tiny", "double_inf", "rounds_exists")],
            "Proved for integers, true and false, doubles of absolute value at least 1/2 and doubles written with at most 16 decimals. False: other numbers are accepted for bool and negative ones are False (bool_negative); doubles are written with 16 decimals, so that smaller ones lose digits (error bound double_error) or become 0 (double_tiny); too large ones become the name inf (double_inf)."),
    "C80": ("partial", [CO + x for x in ("program_partial", "accepted_iff", "program_accepted_iff", "references_fail", "container_ref", "container_kind", "struct_ref", "double_ref", "int_unchecked", "enum_prefix", "enum_string")],
            "Proved for all programs in which references are to constants of base types, doubles written as doubles. Exactly which declarations are accepted is proved too (accepted_iff, program_accepted_iff). False: a container constant that refers to another is silently empty (container_ref, references_fail), as is a literal of the wrong kind (container_kind); references to structs are refused (struct_ref); a double that refers to a double written as an integer is 0.0 (double_ref). Not refused: integers out of range (int_unchecked), values of other enums and strings for enums (enum_prefix, enum_string)."),
    "C81": ("partial", [EN + x for x in ("values_iff", "class_partial", "dicts_inverse", "async_name", "reserved_collision", "private_name", "dotted_name")],
            "The values are proved for all enums (values_iff). The class is proved for all names but these, for which it is false: async and await (async_name), a reserved word next to itself with an underscore (reserved_collision), names that begin with two underscores (private_name), names with dots (dotted_name), and the names of the two dictionaries."),
    "C82": ("partial", [IE + x for x in ("python_roundtrip", "fast_writes_same", "fast_roundtrip_partial", "unknown_value", "fast_immutable", "fast_list", "number_mutable", "number_immutable", "number_typedef")],
            "Proved for all values with the Python protocols, and for numbers assigned to members of mutable structs. The accelerated protocols give back a value exactly if its enums are members of mutable structs and not typedefs (fast_roundtrip_partial): in immutable structs they become None (fast_immutable), in containers numbers that cannot be written again (fast_list). False: unknown numbers make the whole unreadable (unknown_value); numbers passed to immutable structs become None (number_immutable), to members with a typedef or a forward declaration stay numbers that cannot be written (number_typedef)."),
    "C83": ("partial", [HS + x for x in ("post_responses", "post_call", "post_oneway", "post_unknown", "http_call", "http_oneway", "serial_answered", "twoway_answered", "response_exception_ignored", "post_truncated_waits", "threads_no_answer", "threads_two_answers", "threads_wrong_answer")],
            "Proved for requests that are handled one after the other (the default server_class), or at the same time if none is oneway: one response each, with the answer to what the handler did. False: ResponseException does not override the response (response_exception_ignored); a body that is shorter than a message makes the server wait for ever, although Content-Length tells where it ends (post_truncated_waits); with a threaded server_class oneway requests make other requests lose their response, get two or get a response of another (threads_no_answer, threads_two_answers, threads_wrong_answer)."),
    "C84": ("partial", [HP + x for x in ("serve_call", "serve_oneway", "serve_unknown", "serve_session", "client_send", "client_recv", "header_call", "bad_protocol_silent", "bad_transform_silent")],
            "Proved for messages in a dialect that the server allows, within the limits of both sides, with both protocols, over any transport that delivers: one answer in the dialect, protocol and sequence id of the request, headers delivered once in each direction, nothing behind the message touched; for any number of messages on one connection, each in its own dialect (serve_session). False: a message with an unknown protocol id or transform is not answered with an exception, although readMessageBegin is written to do so; the server raises TypeError and sends nothing (bad_protocol_silent, bad_transform_silent)."),
    "C85": ("partial", [ST + x for x in ("struct_accepted", "function_accepted", "program_accepted", "struct_made", "written_number", "counted_number", "allowed_number", "struct_fieldsOK", "order_free", "insert_free", "compile_structs", "compile_fns", "compile_ok", "idl_call", "number_too_big", "number_cut", "number_replaced", "insert_shifts", "success_dropped", "throws_default")],
            "Proved: exactly which structs, functions and programs are accepted; a written positive 32-bit number is the number of the field; fields without one are numbered -1, -2, ...; order of declaration and added fields with numbers do not matter; what is generated from programs whose numbers are written and valid (and whose throws clauses have no defaults and no exception called success) satisfies the assumptions of the theorems about protocols and calls (compile_ok, idl_call). False: numbers that no protocol can carry are accepted (number_too_big), numbers beyond 32 bits become others (number_cut), numbers that are not positive are replaced (number_replaced), an exception called success is dropped (success_dropped), a default in a throws clause makes successful calls raise (throws_default)."),
    "C86": ("partial", [VS + x for x in ("reads_one", "recv_across", "call_across", "oneway_across", "added_exception_lost")],
            "Proved: a handler gets exactly the arguments that were sent, as its own version reads them (fields of the same id and type have the values that were sent, other fields their defaults), and the client is told what the handler did, as its version reads it; messages are the same as within one version. False for one case: an exception that only the server's version declares, raised by a function without a result, is a success for the client (added_exception_lost); with a result, the client raises MISSING_RESULT."),
    "C87": ("partial", [AU + x for x in ("audit_iff", "parse_structs", "parse_services", "resolve_iff", "resolve_one", "audit_sound", "audited_call", "unchecked_plain", "uuid_unseen", "typedef_unseen", "enum_unseen", "exception_unseen", "typedef_alarm")],
            "Proved: exactly which changes pass the audit (audit_iff); if a change passes, and typedefs, enums and the choice between string, binary and uuid did not change, clients of the old program can call all functions of servers of the new one (audit_sound, audited_call; the other direction by the second Versions of audit_sound and C86). False in full, with witnesses: the audit passes string -> uuid, another type for a typedef, a struct in the place of an enum (what is sent is dropped), and an exception that is added to a void function (taken for success); it also complains about a change that changes nothing (typedef_alarm). Files that include others, and warnings of the audit, are not modelled."),
    "C88": ("partial", [AU + x for x in ("processor_iff", "processor_runs", "extends_serves")] + [IN + x for x in ("processor_iff", "processor_runs", "extends_serves", "extends_named", "extends_reaches", "base_hidden")],
            "Proved for services of one file (Audit) and of several (Includes; no file includes two of the same base name): the processor has exactly the functions that the service declares or inherits, each is the one that runs for its name, and a server of a service answers what the extended service does. The Python code finds the module of the extended service unless something else is called like its package (extends_reaches); false otherwise: a struct that is called like the package hides it, and the module of the service cannot be loaded (base_hidden)."),
    "C89": ("partial", [SK + x for x in ("listen_takes", "listen_busy", "listen_directory", "listen_returned", "whole_reaches", "whole_one", "keeps_listening", "others_fail", "choose_spec", "listens_where", "dual_stack", "client_reaches", "file_deleted", "two_servers", "listen_twice", "path_too_long")],
            "Proved: a path is taken over if nothing is there or nobody listens on the socket, never from a server that listens; if calls of listen do not overlap, clients get to every server whose listen returned, so that at most one listens on a path; and once a server listens, it keeps the path in all interleavings unless another one was about to remove the file already. False: any other file at the path is deleted (file_deleted); a server that looks between bind and listen of another one takes its path, and both listen (two_servers); a second listen of the same object raises and ends the first one (listen_twice); a path that is too long raises ValueError (path_too_long). For Linux; what the operating system does is written down in the model and trusted."),
    "C90": ("proved", ["Thrift." + x for x in ("any_call", "any_call_across", "any_oneway_across", "any_reply", "any_silent", "any_unknown", "any_recv", "any_exception", "hears_of", "Json.writes", "Json.reads")],
            "Proved for every pair of protocols that write and read messages (Sends, Hears) and shown for the JSON protocol (Json.writes, Json.reads, doubles finite and Faithful as in C06) and, via hears_of, for the binary and compact protocols. Any transport that delivers what was sent, in pieces of any size; nothing after the message is consumed."),
    "C91": ("partial", [CR + x for x in ("memory_any", "buffered_any", "framed_any", "sasl_any", "memory_value", "buffered_value", "framed_value", "sasl_value", "header_frame_value_partial", "header_unframed_value", "zlib_value_partial", "zlib_loses", "zlib_wrong_value", "header_loses", "header_wrong_value", "header_unframed_hangs")],
            "Proved for any bytes over TMemoryBuffer, TBufferedTransport, TFramedTransport and TSaslClientTransport, and for encoded values also over THeaderTransport without frames. False of TZlibTransport and of THeaderTransport when a refill reads a frame: the refill keeps only part of what it has taken from below (zlib_loses, header_loses, with wrong results in zlib_wrong_value, header_wrong_value); proved there while the value is in the buffer or, for TZlibTransport, in one piece of less than 4096 bytes. At the end of the data the refill of an unframed THeaderTransport does not return (header_unframed_hangs)."),
    "C92": ("partial", [IN + x for x in ("compile_acyclic", "recursion_circular", "compile_files", "names_apart", "defined_clash", "package_of", "struct_types", "function_types", "denotes_one", "ttypes_reaches", "service_reaches", "extends_reaches", "typedef_unreached", "same_base_name", "same_namespace", "package_hidden", "base_hidden", "service_hides")],
            "Proved: circular includes are rejected and nothing else is called circular, exactly the reachable files are compiled, exactly which declarations clash (names_apart, defined_clash), the package of a file (package_of), types are what their names denote if no file includes two of the same base name, and exactly when generated code finds the classes of these types (ttypes_reaches, service_reaches). False in full, with witnesses: the later of two included files with the same base name silently wins (same_base_name); files with the same namespace overwrite each other (same_namespace); a type that is named through a typedef of an included file is not imported (typedef_unreached); a type that is called like a package hides it (package_hidden, base_hidden); types called like classes of a service module, or with an underscore, are not found there (service_hides). The options of the generator are the default ones."),
    "C93": ("partial", [TA + x for x in ("init_raises", "never_started", "wire", "silent", "answer_raises", "dispatch_raises")],
            "False of the code in every case, proved for every SASL object, server and order of events: with a host the constructor raises AttributeError (init_raises); without one, started never fires and no client is made (never_started), a server sees at most a START and an OK message (wire) and nothing if the mechanism is a text (silent), every answer of the server raises TypeError (answer_raises), and so does every call (dispatch_raises)."),
    "C94": ("partial", [RP + x for x in ("repr_total", "eval_repr_partial", "eval_repr_same_partial", "repr_injective", "no_expression", "part_unreadable", "not_finite", "frozen_inside", "class_unknown", "other_class", "complete", "no_parameter", "slots_missing")],
            "Proved for values of any size and depth, with the tokenizer, parser and evaluation of such texts modelled: eval(repr(x)) is x (TFrozenDict becomes dict) under conditions that are stated. False without them, proved in general: infinities and NaN are unknown names, members of enums and reserved words are no expressions, more than 200 open brackets are a SyntaxError, a TFrozenDict inside of a key or set has no hash when read, classes of other files are unknown or are other classes, deleted or added attributes are not kept, immutable classes whose parameters are called otherwise than the attributes cannot be read, with slots repr itself fails for names like __x."),
    "C95": ("partial", [RM + x for x in ("calls_partial", "calls_raises", "only_asked", "unknown_function", "wrong_number", "help", "late_target", "no_function", "no_ipv6", "https_plain", "no_path", "params_dropped", "ssl_needs_certs", "ssl_unreadable", "binary_raises", "typedef_evaluated", "names_hidden", "service_hidden")],
            "Proved for all services, targets, functions and arguments: the script connects, calls, prints and closes, under conditions that are stated; and whatever the command line, it calls at most the function that the words name, with the texts and bytes given (only_asked). False without the conditions, proved in general: the options count only in one order and are taken as functions otherwise, hosts with colons are cut, https URLs are contacted without TLS at port 80, a URL without a path is an AssertionError, parameters of the path are dropped, -ssl alone fails, bytes that are not UTF-8 cannot be given, arguments whose type is a typedef of string are evaluated as expressions, variables of the script hide types, and services with the name of a type or of a variable cannot be called."),
    "C96": ("partial", [HU + x for x in ("direct_partial", "tunnel_partial", "https_private", "plain_proxy", "leaks", "proxy_none", "password_needed", "params_dropped", "query_alone", "port_zero", "cafile_raises", "port_argument", "proxy_port", "proxy_bare", "proxy_v6", "no_injection", "zone_dropped", "empty_user")],
            "Proved for all URLs of RFC 3986 form with names, IPv4 and IPv6 hosts: peer, TLS name, request target and Host are those of the URL, directly and through a proxy for https; and no request in TLS has credentials of the proxy, whatever the arguments (https_private). False in general, proved: plain requests through a proxy send its credentials to the server in the tunnel (leaks); parameters of the path are dropped, a query without path makes a wrong request line, port 0 is replaced; a cafile without a client certificate raises; a URL with the argument port is taken for a host name without TLS; proxies without user get the header None, without password raise, without port are contacted at the port of the scheme of the server, without scheme cannot be used, and IPv6 proxies without port are cut."),
    "C97": ("partial", [DC + x for x in ("starred_text", "unstarred_text_partial", "unstarred_text_fails", "short_text", "words_kept", "no_text", "empty_text", "attached", "trailing", "crash", "listed_partial", "listed_fails", "python_partial")],
            "Proved: the text of comments with stars, without stars (unless all lines begin with a star) and on one line is kept line by line, and the words of any comment are; when there is no text and when the text is empty (iff); a declaration gets the last comment since the one before it began (attached); the docstring has the doc and an entry for each member; from the IDL file to the value of __doc__ (python_partial). False in general, proved: a blank doc comment before any other crashes the compiler (crash, iff); comments after what they describe go to the next declaration (trailing); bullets are taken for the stars of the comment (unstarred_text_fails); an empty comment of a field puts the entry of the next one on its line (listed_fails)."),
    "C98": ("partial", [DE + x for x in ("decorate_some", "decorate_none", "decorate_iff", "linear_decorate", "methods")] + [T + x for x in ("multiplexed_ok", "multiplexed_twice", "multiplexed_again", "multiplexer_nested", "multiplexer_default")],
            "Proved, with the C3 linearization of Python, for any class hierarchy of the protocol: which decorations there are and where each method of a decorated object is found. False, proved: Python cannot make the class if the object is decorated by the same class already (iff), so a TMultiplexedProtocol on a TMultiplexedProtocol, and each call to a TMultiplexedProcessor registered with another, is a TypeError."),
    "C99": ("partial", [CB + x for x in ("callback_iff", "services_given", "default_not_given", "later_not_given", "routes", "post_call", "post_oneway_partial", "post_default_oneway",
                        "post_unregistered", "post_responses")],
            "Proved for every history of registrations and callbacks: whose callback is which, and what THttpServer sends for messages to the services of a multiplexer, and that it sends one response whatever it receives. False, proved: the default processor and processors registered later do not get the callback, so a oneway message to the default is answered only after the handler has returned."),
    "C100": ("partial", [TH + x for x in ("read_hints_partial", "fast_hints_partial", "call_hints_partial", "foreign_skipped", "required_absent", "argument_absent", "frozen_list", "frozen_set",
                        "fast_element", "fast_alias", "fast_immutable", "twisted_hint", "tornado_hint")],
            "Proved for every schema and every message: what is read is as annotated exactly if validate() would accept all instances in it and it has no tuples and frozen sets; with the C extension the same if there are no enums; likewise what plain clients return. False, proved: required members and arguments that are absent are None; immutable lists and sets are annotated as list and set; the extension leaves numbers in place of enums in containers and typedefs; clients of Twisted and Tornado return Deferreds and Futures."),
    "C101": ("partial", [EQ + x for x in ("sent_equal_partial", "write_iff", "nan_unequal", "default_returns", "list_for_tuple", "fast_immutable_unequal")],
            "Proved for every schema and every object of the classes that programs use: it is written exactly if no required member is None, and what arrives, with or without the C extension, is == to it (asked from either side) if there is no NaN in it and no member with a default is None; a frozen set may arrive as a set and a TFrozenDict as a dict. False, proved: an object with a NaN anywhere in it equals nothing; a member that is None though it has a default arrives as the default; a list in place of an immutable list arrives as a tuple; with the extension an enum in an immutable class arrives as None."),
    "C102": ("partial", [CP + x for x in ("copy_equal_partial", "frozen_slots", "frozen_exception", "slots_exception", "slots_exception_lost", "make_has", "make_raises")],
            "Proved for every class whose members have plain names, and every instance a program can come by: the copy of a struct (immutable or with slots, not both) and of an exception (neither) is of the same class, has the copies of the values of the members and is == to the original. False, proved: an instance of an immutable class with slots, and an immutable exception without slots, cannot be copied (TypeError); the copy of an exception with slots has the positional arguments it was made with in place of its members, so what was given by keywords, assigned or received is None in it."),
    "C29": ("proved", [H + "header_contained", H + "parseHeader_any"], ""),
}

root = os.path.join(os.path.dirname(os.path.abspath(__file__)), "..")
ids = [json.loads(l)["id"] for l in open(os.path.join(root, "properties.jsonl"))]
claims = []
for i in ids:
    if i in CLAIMS:
        st, th, note = CLAIMS[i]
        claims.append({"property": i, "status": st, "theorems": th, "note": note})
extra = set(CLAIMS) - set(ids)
assert not extra, extra
json.dump({"claims": claims}, open(os.path.join(root, "MANIFEST.json"), "w"), indent=1, ensure_ascii=False)
open(os.path.join(root, "MANIFEST.json"), "a").write("\n")
print(len(claims), "claims")
