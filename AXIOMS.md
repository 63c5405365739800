# Axioms of the theorems in MANIFEST.json

Written by `tools/axioms.py` from `#print axioms`.

## none (10)

* `Thrift.Binary.binary_int_out_of_range`
* `Thrift.Hints.twisted_hint`
* `Thrift.Numbers.bool_const`
* `Thrift.Numbers.bool_negative`
* `Thrift.Socket.socket_open_again`
* `Thrift.Socket.socket_open_unresolved`
* `Thrift.buffered_write_result`
* `Thrift.memory_closed`
* `Thrift.zlib_reopen`
* `Thrift.zlib_stats_inbound`

## `propext` (57)

* `Thrift.Attrs.eq_other`
* `Thrift.Callbacks.default_not_given`
* `Thrift.Callbacks.services_given`
* `Thrift.Compact.compact_bool_element`
* `Thrift.Doc.listed_fails`
* `Thrift.Doc.listed_partial`
* `Thrift.Fast.fast_compact_differs`
* `Thrift.Fast.fast_compact_fails_alone`
* `Thrift.Fast.fast_decoder_differs`
* `Thrift.Fast.fast_decoder_differs_depth`
* `Thrift.Fast.fast_drops_implicit_ids`
* `Thrift.Fast.fast_nested_required`
* `Thrift.FrozenDict.frozendict_frozen_partial`
* `Thrift.FrozenDict.frozendict_hash_stays_partial`
* `Thrift.Header.header_protocol`
* `Thrift.Hints.tornado_hint`
* `Thrift.Http.http_close`
* `Thrift.Http.http_faithful`
* `Thrift.HttpServer.threads_no_answer`
* `Thrift.HttpServer.threads_two_answers`
* `Thrift.HttpServer.threads_wrong_answer`
* `Thrift.Json.json_foreign`
* `Thrift.Nonblocking.nonblocking_trailing`
* `Thrift.Numbers.bool_numbers`
* `Thrift.Numbers.idl_hex`
* `Thrift.ServerSocket.file_deleted`
* `Thrift.ServerSocket.listen_busy`
* `Thrift.ServerSocket.listen_directory`
* `Thrift.ServerSocket.listen_takes`
* `Thrift.ServerSocket.listen_twice`
* `Thrift.ServerSocket.path_too_long`
* `Thrift.Socket.socket_close`
* `Thrift.Socket.socket_open_first`
* `Thrift.Socket.socket_open_leaks`
* `Thrift.Socket.socket_open_none`
* `Thrift.Socket.socket_read`
* `Thrift.Socket.socket_write_closed`
* `Thrift.Source.spelled`
* `Thrift.Ssl.ssl_accept_unix`
* `Thrift.Ssl.ssl_ca_certs`
* `Thrift.Ssl.ssl_close`
* `Thrift.Ssl.ssl_hostname_unchecked`
* `Thrift.Ssl.ssl_legacy_first_partial`
* `Thrift.Ssl.ssl_legacy_multivalued`
* `Thrift.Ssl.ssl_rejected_open_case`
* `Thrift.Ssl.ssl_stale_valid`
* `Thrift.TwistedSasl.answer_raises`
* `Thrift.batchLog_delivered`
* `Thrift.binary_old_name_unlimited`
* `Thrift.compact_length_unchecked`
* `Thrift.compact_out_of_range`
* `Thrift.failed_call_partial`
* `Thrift.hears_of`
* `Thrift.multiplexed_hears`
* `Thrift.multiplexed_reads`
* `Thrift.required_unset_refused`
* `Thrift.zlib_empty_flush`

## `Quot.sound`, `propext` (103)

* `Thrift.CReadable.header_loses`
* `Thrift.CReadable.header_unframed_hangs`
* `Thrift.CReadable.header_wrong_value`
* `Thrift.CReadable.zlib_loses`
* `Thrift.Compact.compact_int_length`
* `Thrift.Consts.container_kind`
* `Thrift.Consts.container_ref`
* `Thrift.Consts.double_ref`
* `Thrift.Consts.int_unchecked`
* `Thrift.Consts.references_fail`
* `Thrift.Consts.struct_ref`
* `Thrift.Decorator.decorate_none`
* `Thrift.Decorator.decorate_some`
* `Thrift.Decorator.linear_decorate`
* `Thrift.Decorator.methods`
* `Thrift.Doc.attached`
* `Thrift.Doc.empty_text`
* `Thrift.Doc.short_text`
* `Thrift.Doc.starred_text`
* `Thrift.Doc.unstarred_text_fails`
* `Thrift.Doc.unstarred_text_partial`
* `Thrift.Doc.words_kept`
* `Thrift.FrozenDict.frozendict_items`
* `Thrift.FrozenDict.frozendict_not_frozen`
* `Thrift.FrozenDict.frozendict_unordered`
* `Thrift.Header.header_send_limit`
* `Thrift.Hints.fast_alias`
* `Thrift.Hints.fast_element`
* `Thrift.Hints.fast_immutable`
* `Thrift.Hints.frozen_list`
* `Thrift.Hints.frozen_set`
* `Thrift.IntEnum.fast_immutable`
* `Thrift.IntEnum.fast_list`
* `Thrift.IntEnum.number_immutable`
* `Thrift.IntEnum.number_mutable`
* `Thrift.IntEnum.number_typedef`
* `Thrift.IntEnum.unknown_value`
* `Thrift.Json.json_depth_read_balanced`
* `Thrift.Json.json_depth_write_balanced`
* `Thrift.Json.json_trailing`
* `Thrift.Nonblocking.nonblocking_crash`
* `Thrift.Nonblocking.nonblocking_serves_ready`
* `Thrift.ServerSocket.choose_spec`
* `Thrift.ServerSocket.dual_stack`
* `Thrift.ServerSocket.keeps_listening`
* `Thrift.ServerSocket.listen_returned`
* `Thrift.ServerSocket.listens_where`
* `Thrift.ServerSocket.others_fail`
* `Thrift.ServerSocket.two_servers`
* `Thrift.ServerSocket.whole_one`
* `Thrift.ServerSocket.whole_reaches`
* `Thrift.Servers.servers_accept_fatal`
* `Thrift.Servers.servers_close_fatal`
* `Thrift.Servers.servers_foreign_child`
* `Thrift.Servers.servers_fork_returns`
* `Thrift.Servers.servers_next_partial`
* `Thrift.Servers.servers_survive_partial`
* `Thrift.Socket.socket_open`
* `Thrift.Socket.socket_write`
* `Thrift.Socket.socket_write_ok`
* `Thrift.Source.docstring_cut`
* `Thrift.Ssl.ssl_accept`
* `Thrift.Ssl.ssl_cert_none`
* `Thrift.Ssl.ssl_failed_open_partial`
* `Thrift.Ssl.ssl_hostname_callback`
* `Thrift.Ssl.ssl_legacy`
* `Thrift.Ssl.ssl_open`
* `Thrift.Ssl.ssl_open_configured`
* `Thrift.Ssl.ssl_rejected_open`
* `Thrift.Ssl.ssl_server_default`
* `Thrift.Structs.insert_free`
* `Thrift.TwistedSasl.dispatch_raises`
* `Thrift.app_read_any`
* `Thrift.app_write`
* `Thrift.binary_refuses`
* `Thrift.buffered_writes`
* `Thrift.compact_refuses_partial`
* `Thrift.compact_stuck`
* `Thrift.depth_read_balanced`
* `Thrift.depth_write_balanced`
* `Thrift.fast_refuses_partial`
* `Thrift.framed_too_large`
* `Thrift.fuel_irrelevant`
* `Thrift.json_refuses`
* `Thrift.memory_is_memStep`
* `Thrift.memory_reads`
* `Thrift.memory_writes`
* `Thrift.multiplexed_twice`
* `Thrift.multiplexed_unregistered`
* `Thrift.multiplexed_writes`
* `Thrift.readAll_any_transport`
* `Thrift.readAll_exact`
* `Thrift.readAll_returns`
* `Thrift.read_ignores_required`
* `Thrift.zlib_empty_flush_breaks`
* `Thrift.zlib_empty_flush_partial`
* `Thrift.zlib_eof_hangs`
* `Thrift.zlib_eof_partial`
* `Thrift.zlib_limit_bypassed`
* `Thrift.zlib_limit_partial`
* `Thrift.zlib_stats_partial`
* `Thrift.zlib_transfer`
* `Thrift.zlib_writes`

## `Classical.choice`, `Quot.sound`, `propext` (536)

* `Thrift.Attrs.assign_partial`
* `Thrift.Attrs.construct_mangled`
* `Thrift.Attrs.construct_partial`
* `Thrift.Attrs.construct_write_partial`
* `Thrift.Attrs.eq_hash_partial`
* `Thrift.Attrs.eq_keyword`
* `Thrift.Attrs.eq_partial`
* `Thrift.Attrs.fast_read_immutable_keyword`
* `Thrift.Attrs.fast_read_keyword`
* `Thrift.Attrs.fast_write_keyword`
* `Thrift.Attrs.immutable_frozen`
* `Thrift.Attrs.immutable_keyword`
* `Thrift.Attrs.immutable_other_raises`
* `Thrift.Attrs.immutable_other_slots`
* `Thrift.Attrs.immutable_raises`
* `Thrift.Attrs.method_hidden`
* `Thrift.Attrs.method_hidden_read`
* `Thrift.Attrs.mutable_unhashable`
* `Thrift.Attrs.read_partial`
* `Thrift.Attrs.slots_keyword`
* `Thrift.Attrs.slots_method`
* `Thrift.Audit.audit_iff`
* `Thrift.Audit.audit_sound`
* `Thrift.Audit.audited_call`
* `Thrift.Audit.enum_unseen`
* `Thrift.Audit.exception_unseen`
* `Thrift.Audit.extends_serves`
* `Thrift.Audit.parse_services`
* `Thrift.Audit.parse_structs`
* `Thrift.Audit.processor_iff`
* `Thrift.Audit.processor_runs`
* `Thrift.Audit.resolve_iff`
* `Thrift.Audit.resolve_one`
* `Thrift.Audit.typedef_alarm`
* `Thrift.Audit.typedef_unseen`
* `Thrift.Audit.unchecked_plain`
* `Thrift.Audit.uuid_unseen`
* `Thrift.Binary.binary_accepts_only_own`
* `Thrift.Binary.binary_bad_version`
* `Thrift.Binary.binary_int_scalar`
* `Thrift.Binary.binary_map_duplicates`
* `Thrift.Binary.binary_message_nonstrict`
* `Thrift.Binary.binary_message_strict`
* `Thrift.Binary.binary_other_scalar`
* `Thrift.Binary.binary_roundtrip`
* `Thrift.Binary.binary_schema_evolution_partial`
* `Thrift.Binary.binary_set_duplicates`
* `Thrift.Binary.binary_skip_non_text`
* `Thrift.Binary.binary_skip_partial`
* `Thrift.Binary.binary_truncation`
* `Thrift.Binary.binary_truncation_skip`
* `Thrift.Binary.binary_unknown_binary_field`
* `Thrift.Binary.binary_wire_format`
* `Thrift.Binary.dyn_negative_id_aliases`
* `Thrift.Binary.reads`
* `Thrift.Binary.writes`
* `Thrift.Buffered.buffered_delivers`
* `Thrift.Buffered.buffered_faithful`
* `Thrift.CReadable.buffered_any`
* `Thrift.CReadable.buffered_value`
* `Thrift.CReadable.framed_any`
* `Thrift.CReadable.framed_value`
* `Thrift.CReadable.header_frame_value_partial`
* `Thrift.CReadable.header_unframed_value`
* `Thrift.CReadable.memory_any`
* `Thrift.CReadable.memory_value`
* `Thrift.CReadable.sasl_any`
* `Thrift.CReadable.sasl_value`
* `Thrift.CReadable.zlib_value_partial`
* `Thrift.CReadable.zlib_wrong_value`
* `Thrift.Callbacks.callback_iff`
* `Thrift.Callbacks.later_not_given`
* `Thrift.Callbacks.post_call`
* `Thrift.Callbacks.post_default_oneway`
* `Thrift.Callbacks.post_oneway_partial`
* `Thrift.Callbacks.post_responses`
* `Thrift.Callbacks.post_unregistered`
* `Thrift.Callbacks.routes`
* `Thrift.Compact.compact_accepts_only_own`
* `Thrift.Compact.compact_bad_version`
* `Thrift.Compact.compact_int_out_of_range`
* `Thrift.Compact.compact_int_read`
* `Thrift.Compact.compact_int_write`
* `Thrift.Compact.compact_map_duplicates`
* `Thrift.Compact.compact_message`
* `Thrift.Compact.compact_roundtrip`
* `Thrift.Compact.compact_schema_evolution_partial`
* `Thrift.Compact.compact_set_duplicates`
* `Thrift.Compact.compact_skip_non_text`
* `Thrift.Compact.compact_skip_partial`
* `Thrift.Compact.compact_truncation`
* `Thrift.Compact.compact_truncation_skip`
* `Thrift.Compact.compact_unknown_binary_field`
* `Thrift.Compact.compact_varint_any`
* `Thrift.Compact.compact_wire_format`
* `Thrift.Compact.reads`
* `Thrift.Compact.writes`
* `Thrift.Consts.accepted_iff`
* `Thrift.Consts.enum_prefix`
* `Thrift.Consts.enum_string`
* `Thrift.Consts.program_accepted_iff`
* `Thrift.Consts.program_partial`
* `Thrift.Copies.copy_equal_partial`
* `Thrift.Copies.frozen_exception`
* `Thrift.Copies.frozen_slots`
* `Thrift.Copies.make_has`
* `Thrift.Copies.make_raises`
* `Thrift.Copies.slots_exception`
* `Thrift.Copies.slots_exception_lost`
* `Thrift.Decorator.decorate_iff`
* `Thrift.Defaults.default_frozen_partial`
* `Thrift.Defaults.default_given`
* `Thrift.Defaults.default_leaks`
* `Thrift.Defaults.default_negative`
* `Thrift.Defaults.default_shared`
* `Thrift.Defaults.default_value_partial`
* `Thrift.Defaults.import_fails`
* `Thrift.Defaults.import_iff_partial`
* `Thrift.Defaults.read_fresh`
* `Thrift.Doc.crash`
* `Thrift.Doc.no_text`
* `Thrift.Doc.python_partial`
* `Thrift.Doc.trailing`
* `Thrift.Enums.async_name`
* `Thrift.Enums.class_partial`
* `Thrift.Enums.dicts_inverse`
* `Thrift.Enums.dotted_name`
* `Thrift.Enums.private_name`
* `Thrift.Enums.reserved_collision`
* `Thrift.Enums.values_iff`
* `Thrift.Equal.default_returns`
* `Thrift.Equal.fast_immutable_unequal`
* `Thrift.Equal.list_for_tuple`
* `Thrift.Equal.nan_unequal`
* `Thrift.Equal.sent_equal_partial`
* `Thrift.Equal.write_iff`
* `Thrift.Fast.fast_compact_agrees_partial`
* `Thrift.Fast.fast_decoder_agrees_partial`
* `Thrift.Fast.fast_decoder_encoded`
* `Thrift.Fast.fast_decodes`
* `Thrift.Fast.fast_encoder_partial`
* `Thrift.Fast.fast_wire_format`
* `Thrift.FrozenDict.frozendict_builds`
* `Thrift.FrozenDict.frozendict_equal`
* `Thrift.FrozenDict.frozendict_hash_differs`
* `Thrift.FrozenDict.frozendict_hash_partial`
* `Thrift.Header.header_contained`
* `Thrift.Header.header_flush`
* `Thrift.Header.header_flush_other`
* `Thrift.Header.header_fragmentation`
* `Thrift.Header.header_frame_too_large`
* `Thrift.Header.header_framed`
* `Thrift.Header.header_limits`
* `Thrift.Header.header_read`
* `Thrift.Header.header_receive`
* `Thrift.Header.header_roundtrip`
* `Thrift.Header.header_send_too_large`
* `Thrift.Header.header_tiny_frame`
* `Thrift.Header.header_unframed`
* `Thrift.Header.parseHeader_any`
* `Thrift.Header.sendOps`
* `Thrift.HeaderProtocol.bad_protocol_silent`
* `Thrift.HeaderProtocol.bad_transform_silent`
* `Thrift.HeaderProtocol.client_recv`
* `Thrift.HeaderProtocol.client_send`
* `Thrift.HeaderProtocol.header_call`
* `Thrift.HeaderProtocol.serve_call`
* `Thrift.HeaderProtocol.serve_oneway`
* `Thrift.HeaderProtocol.serve_session`
* `Thrift.HeaderProtocol.serve_unknown`
* `Thrift.Hints.argument_absent`
* `Thrift.Hints.call_hints_partial`
* `Thrift.Hints.fast_hints_partial`
* `Thrift.Hints.foreign_skipped`
* `Thrift.Hints.read_hints_partial`
* `Thrift.Hints.required_absent`
* `Thrift.Http.http_bodies`
* `Thrift.Http.http_connections`
* `Thrift.Http.http_cookie`
* `Thrift.Http.http_length`
* `Thrift.Http.http_length_twice`
* `Thrift.Http.http_no_stale`
* `Thrift.Http.http_open_leaks`
* `Thrift.Http.http_outcome`
* `Thrift.Http.http_reply`
* `Thrift.Http.http_status`
* `Thrift.HttpServer.http_call`
* `Thrift.HttpServer.http_oneway`
* `Thrift.HttpServer.post_call`
* `Thrift.HttpServer.post_oneway`
* `Thrift.HttpServer.post_responses`
* `Thrift.HttpServer.post_truncated_waits`
* `Thrift.HttpServer.post_unknown`
* `Thrift.HttpServer.response_exception_ignored`
* `Thrift.HttpServer.serial_answered`
* `Thrift.HttpServer.twoway_answered`
* `Thrift.HttpUrl.cafile_raises`
* `Thrift.HttpUrl.direct_partial`
* `Thrift.HttpUrl.empty_user`
* `Thrift.HttpUrl.https_private`
* `Thrift.HttpUrl.leaks`
* `Thrift.HttpUrl.no_injection`
* `Thrift.HttpUrl.params_dropped`
* `Thrift.HttpUrl.password_needed`
* `Thrift.HttpUrl.plain_proxy`
* `Thrift.HttpUrl.port_argument`
* `Thrift.HttpUrl.port_zero`
* `Thrift.HttpUrl.proxy_bare`
* `Thrift.HttpUrl.proxy_none`
* `Thrift.HttpUrl.proxy_port`
* `Thrift.HttpUrl.proxy_v6`
* `Thrift.HttpUrl.query_alone`
* `Thrift.HttpUrl.tunnel_partial`
* `Thrift.HttpUrl.zone_dropped`
* `Thrift.Includes.base_hidden`
* `Thrift.Includes.compile_acyclic`
* `Thrift.Includes.compile_files`
* `Thrift.Includes.defined_clash`
* `Thrift.Includes.denotes_one`
* `Thrift.Includes.extends_named`
* `Thrift.Includes.extends_reaches`
* `Thrift.Includes.extends_serves`
* `Thrift.Includes.function_types`
* `Thrift.Includes.names_apart`
* `Thrift.Includes.package_hidden`
* `Thrift.Includes.package_of`
* `Thrift.Includes.processor_iff`
* `Thrift.Includes.processor_runs`
* `Thrift.Includes.recursion_circular`
* `Thrift.Includes.same_base_name`
* `Thrift.Includes.same_namespace`
* `Thrift.Includes.service_hides`
* `Thrift.Includes.service_reaches`
* `Thrift.Includes.struct_types`
* `Thrift.Includes.ttypes_reaches`
* `Thrift.Includes.typedef_unreached`
* `Thrift.IntEnum.fast_roundtrip_partial`
* `Thrift.IntEnum.fast_writes_same`
* `Thrift.IntEnum.python_roundtrip`
* `Thrift.Json.base64_accepts`
* `Thrift.Json.base64_ignores`
* `Thrift.Json.base64_unpadded`
* `Thrift.Json.json_binary_limit`
* `Thrift.Json.json_control_invalid`
* `Thrift.Json.json_decoded_values_partial`
* `Thrift.Json.json_depth_write_refused`
* `Thrift.Json.json_fragmentation_differs`
* `Thrift.Json.json_message_name_limit`
* `Thrift.Json.json_message_read`
* `Thrift.Json.json_message_total`
* `Thrift.Json.json_message_truncated_partial`
* `Thrift.Json.json_message_wellformed_partial`
* `Thrift.Json.json_message_write`
* `Thrift.Json.json_nonfinite_invalid`
* `Thrift.Json.json_nonfinite_lost`
* `Thrift.Json.json_number_limit`
* `Thrift.Json.json_out_of_range`
* `Thrift.Json.json_reads_any_list`
* `Thrift.Json.json_reads_any_spelling`
* `Thrift.Json.json_roundtrip`
* `Thrift.Json.json_schema_evolution`
* `Thrift.Json.json_skip`
* `Thrift.Json.json_skip_total`
* `Thrift.Json.json_string_limit`
* `Thrift.Json.json_total`
* `Thrift.Json.json_truncated_hangs`
* `Thrift.Json.json_truncated_partial`
* `Thrift.Json.json_truncated_raises`
* `Thrift.Json.json_uuid_digits`
* `Thrift.Json.json_version`
* `Thrift.Json.json_wellformed_partial`
* `Thrift.Json.json_wire_format`
* `Thrift.Json.pyInt16_iff`
* `Thrift.Json.reads`
* `Thrift.Json.writes`
* `Thrift.Locals.call_hidden`
* `Thrift.Locals.call_iff`
* `Thrift.Locals.call_wrong`
* `Thrift.Locals.module_unusable`
* `Thrift.Locals.process_no_reply`
* `Thrift.Locals.process_raises_iff`
* `Thrift.Locals.process_success`
* `Thrift.Locals.read_immutable_iff`
* `Thrift.Locals.read_immutable_partial`
* `Thrift.Locals.read_immutable_wrong`
* `Thrift.Names.names_await`
* `Thrift.Names.names_clash`
* `Thrift.Names.names_client_partial`
* `Thrift.Names.names_keyword`
* `Thrift.Names.names_processor`
* `Thrift.Names.names_reserved_partial`
* `Thrift.Names.names_underscore`
* `Thrift.Nonblocking.nonblocking_all_sent`
* `Thrift.Nonblocking.nonblocking_close_reason`
* `Thrift.Nonblocking.nonblocking_crash_reason_partial`
* `Thrift.Nonblocking.nonblocking_drops`
* `Thrift.Nonblocking.nonblocking_frames_partial`
* `Thrift.Nonblocking.nonblocking_livelock`
* `Thrift.Nonblocking.nonblocking_one_request`
* `Thrift.Nonblocking.nonblocking_protocol`
* `Thrift.Nonblocking.nonblocking_waits_partial`
* `Thrift.Nonblocking.nonblocking_workers`
* `Thrift.Numbers.double_decimal`
* `Thrift.Numbers.double_error`
* `Thrift.Numbers.double_inf`
* `Thrift.Numbers.double_large`
* `Thrift.Numbers.double_tiny`
* `Thrift.Numbers.idl_int`
* `Thrift.Numbers.int_const`
* `Thrift.Numbers.rounds_exists`
* `Thrift.Recursive.fix_spec_exact`
* `Thrift.Recursive.generated_spec`
* `Thrift.Recursive.generated_spec_negative`
* `Thrift.Recursive.spec_codes`
* `Thrift.Recursive.thrift_spec_partial`
* `Thrift.Remote.binary_raises`
* `Thrift.Remote.calls_partial`
* `Thrift.Remote.calls_raises`
* `Thrift.Remote.help`
* `Thrift.Remote.https_plain`
* `Thrift.Remote.late_target`
* `Thrift.Remote.names_hidden`
* `Thrift.Remote.no_function`
* `Thrift.Remote.no_ipv6`
* `Thrift.Remote.no_path`
* `Thrift.Remote.only_asked`
* `Thrift.Remote.params_dropped`
* `Thrift.Remote.service_hidden`
* `Thrift.Remote.ssl_needs_certs`
* `Thrift.Remote.ssl_unreadable`
* `Thrift.Remote.typedef_evaluated`
* `Thrift.Remote.unknown_function`
* `Thrift.Remote.wrong_number`
* `Thrift.Repr.class_unknown`
* `Thrift.Repr.complete`
* `Thrift.Repr.eval_repr_partial`
* `Thrift.Repr.eval_repr_same_partial`
* `Thrift.Repr.frozen_inside`
* `Thrift.Repr.no_expression`
* `Thrift.Repr.no_parameter`
* `Thrift.Repr.not_finite`
* `Thrift.Repr.other_class`
* `Thrift.Repr.part_unreadable`
* `Thrift.Repr.repr_injective`
* `Thrift.Repr.repr_total`
* `Thrift.Repr.slots_missing`
* `Thrift.Sasl.sasl_flush`
* `Thrift.Sasl.sasl_flush_failed`
* `Thrift.Sasl.sasl_open_accepts`
* `Thrift.Sasl.sasl_open_incomplete`
* `Thrift.Sasl.sasl_open_ok`
* `Thrift.Sasl.sasl_open_rejected`
* `Thrift.Sasl.sasl_open_returns`
* `Thrift.Sasl.sasl_transfer`
* `Thrift.ServerSocket.client_reaches`
* `Thrift.Servers.servers_closes`
* `Thrift.Servers.servers_closes_out`
* `Thrift.Servers.servers_exit_leak`
* `Thrift.Servers.servers_factory_leak`
* `Thrift.Servers.servers_isolation_partial`
* `Thrift.Servers.servers_one_worker`
* `Thrift.Servers.servers_protocol`
* `Thrift.Servers.servers_start_leak`
* `Thrift.SimpleJson.simple_compound_key_invalid`
* `Thrift.SimpleJson.simple_control_invalid`
* `Thrift.SimpleJson.simple_message`
* `Thrift.SimpleJson.simple_names_unique`
* `Thrift.SimpleJson.simple_nonfinite_invalid`
* `Thrift.SimpleJson.simple_wellformed_partial`
* `Thrift.SimpleJson.simple_wire_format`
* `Thrift.Socket.socket_isOpen`
* `Thrift.Source.binary_const_fails`
* `Thrift.Source.binary_const_partial`
* `Thrift.Source.docstring_backslash`
* `Thrift.Source.docstring_cut_inside`
* `Thrift.Source.docstring_injection`
* `Thrift.Source.docstring_joined`
* `Thrift.Source.docstring_partial`
* `Thrift.Source.literal_iff`
* `Thrift.Source.not_utf8`
* `Thrift.Source.string_const`
* `Thrift.Source.string_end_to_end`
* `Thrift.Structs.allowed_number`
* `Thrift.Structs.compile_fns`
* `Thrift.Structs.compile_ok`
* `Thrift.Structs.compile_structs`
* `Thrift.Structs.counted_number`
* `Thrift.Structs.function_accepted`
* `Thrift.Structs.idl_call`
* `Thrift.Structs.insert_shifts`
* `Thrift.Structs.number_cut`
* `Thrift.Structs.number_replaced`
* `Thrift.Structs.number_too_big`
* `Thrift.Structs.order_free`
* `Thrift.Structs.program_accepted`
* `Thrift.Structs.struct_accepted`
* `Thrift.Structs.struct_fieldsOK`
* `Thrift.Structs.struct_made`
* `Thrift.Structs.success_dropped`
* `Thrift.Structs.throws_default`
* `Thrift.Structs.written_number`
* `Thrift.Tornado.lock_exclusive_fifo`
* `Thrift.Tornado.lock_inside`
* `Thrift.Tornado.lock_leave_and_free`
* `Thrift.Tornado.lock_no_lost_wakeup`
* `Thrift.Tornado.tornado_calls_in_order`
* `Thrift.Tornado.tornado_flush_fails`
* `Thrift.Tornado.tornado_flushes`
* `Thrift.Tornado.tornado_frames`
* `Thrift.Tornado.tornado_no_stuck`
* `Thrift.Tornado.tornado_read_fails`
* `Thrift.TornadoClient.tornado_client_cancelled`
* `Thrift.TornadoClient.tornado_client_cancelled_lost`
* `Thrift.TornadoClient.tornado_client_deaf`
* `Thrift.TornadoClient.tornado_client_deaf_name`
* `Thrift.TornadoClient.tornado_client_exception`
* `Thrift.TornadoClient.tornado_client_lost_partial`
* `Thrift.TornadoClient.tornado_client_once`
* `Thrift.TornadoClient.tornado_client_own`
* `Thrift.TornadoClient.tornado_client_polluted`
* `Thrift.TornadoClient.tornado_client_reply`
* `Thrift.TornadoClient.tornado_client_request`
* `Thrift.TornadoClient.tornado_client_seqids`
* `Thrift.TornadoClient.tornado_client_unknown`
* `Thrift.TornadoClient.tornado_client_unreadable`
* `Thrift.TornadoServer.bad_frame`
* `Thrift.TornadoServer.breaks`
* `Thrift.TornadoServer.cancelled_hangs`
* `Thrift.TornadoServer.end_of_stream`
* `Thrift.TornadoServer.one_at_a_time`
* `Thrift.TornadoServer.served`
* `Thrift.TornadoServer.stream_closed`
* `Thrift.TornadoServer.write_fails`
* `Thrift.Twisted.twisted_all_fired_partial`
* `Thrift.Twisted.twisted_exception`
* `Thrift.Twisted.twisted_lost_ends`
* `Thrift.Twisted.twisted_lost_partial`
* `Thrift.Twisted.twisted_lost_retried`
* `Thrift.Twisted.twisted_never`
* `Thrift.Twisted.twisted_once`
* `Thrift.Twisted.twisted_own`
* `Thrift.Twisted.twisted_polluted`
* `Thrift.Twisted.twisted_refused`
* `Thrift.Twisted.twisted_reply`
* `Thrift.Twisted.twisted_request`
* `Thrift.Twisted.twisted_seqids`
* `Thrift.Twisted.twisted_unknown`
* `Thrift.Twisted.twisted_unsent`
* `Thrift.TwistedSasl.init_raises`
* `Thrift.TwistedSasl.never_started`
* `Thrift.TwistedSasl.silent`
* `Thrift.TwistedSasl.wire`
* `Thrift.TwistedServer.answered_once`
* `Thrift.TwistedServer.bad_frame`
* `Thrift.TwistedServer.compact_whole_or_closed`
* `Thrift.TwistedServer.independent`
* `Thrift.TwistedServer.resource_hangs`
* `Thrift.TwistedServer.served_partial`
* `Thrift.TwistedServer.wrong_result`
* `Thrift.added_exception_lost`
* `Thrift.answers_total`
* `Thrift.any_call`
* `Thrift.any_call_across`
* `Thrift.any_exception`
* `Thrift.any_multiplexed_call`
* `Thrift.any_multiplexed_oneway`
* `Thrift.any_multiplexed_refused`
* `Thrift.any_multiplexed_reply`
* `Thrift.any_multiplexed_silent`
* `Thrift.any_multiplexed_unknown`
* `Thrift.any_oneway_across`
* `Thrift.any_recv`
* `Thrift.any_reply`
* `Thrift.any_silent`
* `Thrift.any_unknown`
* `Thrift.app_roundtrip`
* `Thrift.binary_bad_length`
* `Thrift.binary_decoded_values`
* `Thrift.binary_failed_call_leaks`
* `Thrift.binary_failed_call_prefixes`
* `Thrift.binary_fragmentation`
* `Thrift.binary_total`
* `Thrift.binary_unset_reads_default`
* `Thrift.buffered_refill`
* `Thrift.buffered_session`
* `Thrift.call_across`
* `Thrift.call_end_to_end`
* `Thrift.call_oneway`
* `Thrift.carried_frame`
* `Thrift.compact_bad_length`
* `Thrift.compact_decoded_values_partial`
* `Thrift.compact_failed_call_sticks`
* `Thrift.compact_fragmentation`
* `Thrift.compact_total`
* `Thrift.compact_unset_reads_default`
* `Thrift.depth_read_refused`
* `Thrift.depth_skip_refused`
* `Thrift.depth_write_refused`
* `Thrift.failed_flush_clean`
* `Thrift.framed_read`
* `Thrift.framed_session`
* `Thrift.framed_transfer`
* `Thrift.framed_writes`
* `Thrift.means_unique`
* `Thrift.message_name_limit`
* `Thrift.multiplexed_again`
* `Thrift.multiplexed_any`
* `Thrift.multiplexed_call`
* `Thrift.multiplexed_default`
* `Thrift.multiplexed_misrouted`
* `Thrift.multiplexed_no_default`
* `Thrift.multiplexed_not_call`
* `Thrift.multiplexed_ok`
* `Thrift.multiplexed_send`
* `Thrift.multiplexer_default`
* `Thrift.multiplexer_nested`
* `Thrift.oneway_across`
* `Thrift.process_bad_arguments`
* `Thrift.process_bad_header`
* `Thrift.process_callback_raises`
* `Thrift.process_oneway`
* `Thrift.process_passes`
* `Thrift.process_reply`
* `Thrift.process_unknown`
* `Thrift.process_unserializable`
* `Thrift.reads_one`
* `Thrift.recv_across`
* `Thrift.recv_exception`
* `Thrift.recv_fails`
* `Thrift.recv_reply`
* `Thrift.routed_or_not`
* `Thrift.serialization_binary`
* `Thrift.serialization_compact`
* `Thrift.skip_total`
* `Thrift.unset_not_written`
* `Thrift.zlib_transfer_progress`
