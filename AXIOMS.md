# Axioms per theorem

Output of `#print axioms` for every theorem of MANIFEST.json, grouped. All three axioms are part of Lean.

## none

* `Blackhole.Builder.C82_fails_async`
* `Blackhole.Builder.C82_fails_console`
* `Blackhole.Builder.C82_fails_json`
* `Blackhole.Builder.C82_fails_tskv`
* `Blackhole.Console.C36_sequences`
* `Blackhole.Console.C37_default_prints`
* `Blackhole.File.C16_wraps`
* `Blackhole.Registry.C35_render_throws`
* `Blackhole.Scope.C05_fails_assign_over_scope`
* `Blackhole.Scope.C05_fails_moved_from`
* `Blackhole.Scope.C05_fails_other_thread`
* `Blackhole.Scope.C05_fails_other_thread_close`
* `Blackhole.Time.C30_negative`
* `Blackhole.Time.C30_zone`

## propext

* `Blackhole.Async.C11_fails_concrete`
* `Blackhole.Async.C11_join_waits`
* `Blackhole.Async.C12_builder_records`
* `Blackhole.Async.C12_factory_missing_is_ub`
* `Blackhole.Attr.C13_capture_lazy`
* `Blackhole.Attr.C13_value_exactly_one_type`
* `Blackhole.Attr.C13_value_int_wrong_type`
* `Blackhole.Attr.C13_view_int_wrong_type`
* `Blackhole.Attr.C13_view_reads_like_value`
* `Blackhole.Attr.C74_fails_function`
* `Blackhole.Attr.C74_fails_pointer`
* `Blackhole.Attr.C74_value_constructors`
* `Blackhole.Attr.C74_view_constructors`
* `Blackhole.Builder.C82_blocking_delivers`
* `Blackhole.Builder.C82_fails_null_sink`
* `Blackhole.Builder.C82_file_partial`
* `Blackhole.Builder.C82_root_partial`
* `Blackhole.Builder.C82_string`
* `Blackhole.Chain.C72_fails_error`
* `Blackhole.Chain.C72_fails_error_concrete`
* `Blackhole.Chain.C72_fails_inner_drop`
* `Blackhole.Chain.C72_fails_loss`
* `Blackhole.Config.C33_fails_nul_string`
* `Blackhole.Console.C36_default_colour`
* `Blackhole.Console.C36_not_a_terminal`
* `Blackhole.Console.C37_denied`
* `Blackhole.Console.C37_factory_no_filter`
* `Blackhole.DateOther.C32_fails_early`
* `Blackhole.DateOther.C32_fails_percent`
* `Blackhole.DateOther.C32_moved`
* `Blackhole.Exhaust.C103_fails_move`
* `Blackhole.Facade.C42_fails_compiled_attributes`
* `Blackhole.Facade.C42_fails_compiled_message`
* `Blackhole.Facade.C42_fails_unterminated`
* `Blackhole.Facade.C42_fails_view`
* `Blackhole.File.C14_throws_only_on_errors`
* `Blackhole.File.C17_fails_race`
* `Blackhole.File.Disk.C61_default_loses`
* `Blackhole.File.Disk.C62_fails_close`
* `Blackhole.File.Disk.C62_fails_for_ever`
* `Blackhole.File.Disk.C62_fails_no_recovery`
* `Blackhole.File.Disk.C62_reported`
* `Blackhole.Flush.C101_operations`
* `Blackhole.Flush.C101_unit`
* `Blackhole.Fmt.C49_fails_empty_specification`
* `Blackhole.Fmt.C50_fails_null`
* `Blackhole.Fmt.C50_fails_past_end`
* `Blackhole.Fmt.C59_needs_terminated`
* `Blackhole.FmtArgs.Overload.C75_overloads`
* `Blackhole.FmtArgs.Overload.C75_passed`
* `Blackhole.FmtArgs.Overload.C75_read_as_stored`
* `Blackhole.FmtPrint.C97_colored_partial`
* `Blackhole.FmtPrint.C97_fails_colour_left`
* `Blackhole.FmtPrint.C97_fails_silent`
* `Blackhole.FmtPrint.C97_steps`
* `Blackhole.FmtPrint.C97_stream`
* `Blackhole.FmtPrint.C97_threads`
* `Blackhole.Lazy.C107_fails_string`
* `Blackhole.Lazy.C107_queue_text`
* `Blackhole.MetaFormat.C41_fails_bool`
* `Blackhole.MetaFormat.C41_fails_empty_view`
* `Blackhole.Ostream.C80_blocking_partial`
* `Blackhole.Ostream.C80_fails_caller`
* `Blackhole.Ostream.C80_fails_terminated`
* `Blackhole.Ostream.C80_report_partial`
* `Blackhole.PackLife.C105_facade`
* `Blackhole.PackLife.C105_fails_twice`
* `Blackhole.PackLife.C105_once_partial`
* `Blackhole.Peer.C104_stays`
* `Blackhole.Printf.C90_fails_dot`
* `Blackhole.Printf.C90_fails_empty`
* `Blackhole.Printf.C90_fails_hash`
* `Blackhole.Printf.C90_fails_long`
* `Blackhole.Printf.C90_fails_null`
* `Blackhole.Printf.C90_fails_sign`
* `Blackhole.Printf.C90_fails_twice`
* `Blackhole.Printf.C90_fails_zero_left`
* `Blackhole.Printf.C90_fails_zero_precision`
* `Blackhole.ProcName.C106_freed`
* `Blackhole.RecordBuf.C08_default_move_asserts`
* `Blackhole.Reenter.C73_fails_attribute`
* `Blackhole.Reenter.C73_fails_colour`
* `Blackhole.Reenter.C73_fails_config_destructor`
* `Blackhole.Reenter.C73_fails_copy`
* `Blackhole.Reenter.C73_fails_filter_destructor`
* `Blackhole.RegLife.C87_build`
* `Blackhole.RegLife.C87_builder_dangles`
* `Blackhole.RegLife.C87_fails_blocking`
* `Blackhole.RegLife.C87_fails_temporary`
* `Blackhole.Registry.C34_first_error`
* `Blackhole.RootConc.C06_fails_assignment_undone`
* `Blackhole.Socket.C40_failure`
* `Blackhole.StringRef.C98_fails_same_order`
* `Blackhole.StringView.C43_constructors`
* `Blackhole.Syslog.C47_fails_two`
* `Blackhole.Together.C88_fails_default`
* `Blackhole.Together.C88_kept`
* `Blackhole.Tskv.C25_clean`
* `Blackhole.Tskv.C25_unescape`

## propext, Quot.sound

* `Blackhole.ArrayWriter.C93_array`
* `Blackhole.ArrayWriter.C93_c_str`
* `Blackhole.ArrayWriter.C93_exact_fit`
* `Blackhole.ArrayWriter.C93_fails_c_str`
* `Blackhole.Async.C09_prefix`
* `Blackhole.Async.C09_producer_delivery`
* `Blackhole.Async.C09_producer_order`
* `Blackhole.Async.C10_bounded`
* `Blackhole.Async.C10_wait_never_discards`
* `Blackhole.Async.C11_destroyed`
* `Blackhole.Async.C11_drains_partial`
* `Blackhole.Async.C11_fails_pending_dequeue`
* `Blackhole.Async.C11_terminates`
* `Blackhole.Async.C12_fails_drop_rvalue`
* `Blackhole.Async.C60_never_blocks`
* `Blackhole.Async.C60_shutdown_bound`
* `Blackhole.Async.C60_shutdown_never_blocks`
* `Blackhole.AsyncMem.C79_call`
* `Blackhole.AsyncReenter.C76_delivery`
* `Blackhole.AsyncReenter.C76_drop_returns`
* `Blackhole.AsyncReenter.C76_wait_keeps`
* `Blackhole.Attr.C13_capture_roundtrip`
* `Blackhole.Attr.C13_view_equality`
* `Blackhole.Attr.C74_compiles`
* `Blackhole.Buffer.C63_contents`
* `Blackhole.Buffer.C63_move`
* `Blackhole.Buffer.C63_moved_from_inline`
* `Blackhole.Buffer.C63_throws`
* `Blackhole.Builder.C82_async_partial`
* `Blackhole.Builder.C82_blocking`
* `Blackhole.Builder.C82_blocking_renews`
* `Blackhole.Builder.C82_console_partial`
* `Blackhole.Builder.C82_fails_file`
* `Blackhole.Builder.C82_fails_no_formatter`
* `Blackhole.Builder.C82_fails_root`
* `Blackhole.Builder.C82_file_first`
* `Blackhole.Builder.C82_json_partial`
* `Blackhole.Builder.C82_program`
* `Blackhole.Builder.C82_tskv_partial`
* `Blackhole.Builder.Chain.C83_builds_partial`
* `Blackhole.Builder.Chain.C83_fails_reference`
* `Blackhole.Builder.Chain.C83_only`
* `Blackhole.Config.C33_at_most_one`
* `Blackhole.Config.C33_each_map_partial`
* `Blackhole.Config.C33_each_partial`
* `Blackhole.Config.C33_fails_nul_key`
* `Blackhole.Config.C33_missing_partial`
* `Blackhole.Config.C33_navigation_partial`
* `Blackhole.Console.C36_mapping`
* `Blackhole.Console.C36_stream`
* `Blackhole.Console.C37_factory`
* `Blackhole.Console.C37_severity_filter`
* `Blackhole.Date.C31_fails_long`
* `Blackhole.DateOther.C32_every_pattern`
* `Blackhole.DateOther.C32_fails_late`
* `Blackhole.Dev.C68_fails_console`
* `Blackhole.Durable.C86_bytes`
* `Blackhole.Durable.C86_closed`
* `Blackhole.Durable.C86_default_unbounded`
* `Blackhole.Durable.C86_events`
* `Blackhole.Durable.C86_prefix`
* `Blackhole.Durable.C86_returned`
* `Blackhole.Durable.C86_stopped`
* `Blackhole.Essentials.C64_fails_incomplete`
* `Blackhole.Essentials.C64_filter`
* `Blackhole.Essentials.C64_mismatch_sink`
* `Blackhole.Essentials.C64_only_sink`
* `Blackhole.Essentials.C64_refused_formatter`
* `Blackhole.Essentials.C64_same_registry`
* `Blackhole.Essentials.C64_unknown_formatter`
* `Blackhole.Essentials.C64_unknown_handler`
* `Blackhole.Essentials.C64_unknown_sink`
* `Blackhole.Essentials.C64_unknown_wrapped`
* `Blackhole.Facade.C42_accepted`
* `Blackhole.Facade.C42_format_error`
* `Blackhole.Facade.C42_misplaced`
* `Blackhole.Facade.C42_no_values`
* `Blackhole.Facade.C42_pattern`
* `Blackhole.Facade.C42_rejected`
* `Blackhole.File.C14_lines`
* `Blackhole.File.C14_nothing_dropped`
* `Blackhole.File.C15_every_nth`
* `Blackhole.File.C15_unflushed`
* `Blackhole.File.C15_zero`
* `Blackhole.File.C16_multiples`
* `Blackhole.File.C16_unflushed`
* `Blackhole.File.C16_zero`
* `Blackhole.File.C17_reopen`
* `Blackhole.File.C18_accepts`
* `Blackhole.File.C18_rejects`
* `Blackhole.File.C18_wraps`
* `Blackhole.File.C46_bad_flush_ignored`
* `Blackhole.File.C46_builder`
* `Blackhole.File.C46_factory`
* `Blackhole.File.C46_factory_rejects`
* `Blackhole.File.Disk.C61_bytes`
* `Blackhole.File.Disk.C61_destroyed`
* `Blackhole.File.Disk.C61_events`
* `Blackhole.File.Disk.C61_every_event`
* `Blackhole.File.Disk.C61_prefix`
* `Blackhole.File.Disk.C62_fails_silenced`
* `Blackhole.File.Disk.C62_recovers_partial`
* `Blackhole.Flush.C101_attribute`
* `Blackhole.Flush.C101_returned`
* `Blackhole.Flush.C101_silent`
* `Blackhole.Fmt.C49_fails_number_wraps`
* `Blackhole.Fmt.C50_empty_partial`
* `Blackhole.Fmt.C50_fails_reads_behind`
* `Blackhole.Fmt.C50_not_empty`
* `Blackhole.Fmt.C52_bool`
* `Blackhole.Fmt.C52_char`
* `Blackhole.Fmt.C52_field`
* `Blackhole.Fmt.C52_text`
* `Blackhole.FmtArgs.Overload.C75_passed_all`
* `Blackhole.FmtPrint.C97_fails_colour_mixed`
* `Blackhole.FmtPrint.C97_fails_count`
* `Blackhole.FmtStream.C92_padded_text`
* `Blackhole.Json.C29_distinct`
* `Blackhole.Json.C29_first`
* `Blackhole.Json.C29_unique`
* `Blackhole.Json.C55_config`
* `Blackhole.Json.C55_mutate`
* `Blackhole.Lazy.C107_blocking`
* `Blackhole.Lazy.C107_dev`
* `Blackhole.Lazy.C107_json`
* `Blackhole.Lazy.C107_json_alone`
* `Blackhole.Lazy.C107_json_text`
* `Blackhole.Lazy.C107_queue`
* `Blackhole.Lazy.C107_string`
* `Blackhole.Lazy.C107_string_others_partial`
* `Blackhole.Lazy.C107_string_text_partial`
* `Blackhole.Lazy.C107_tskv`
* `Blackhole.Lazy.C107_tskv_alone`
* `Blackhole.Lazy.C107_tskv_text`
* `Blackhole.Lifetime.C77_assigned`
* `Blackhole.LockRace.C99_fails_dev`
* `Blackhole.LockRace.C99_fails_report`
* `Blackhole.MetaFormat.C41_accepts`
* `Blackhole.MetaFormat.C41_compiles`
* `Blackhole.MetaFormat.C41_fails_doubled_braces`
* `Blackhole.Ostream.C80_call_partial`
* `Blackhole.Ostream.C80_dev_partial`
* `Blackhole.Ostream.C80_terminates_iff`
* `Blackhole.Ostream.C80_terminates_iff_unit`
* `Blackhole.Ostream.C81_coloured_partial`
* `Blackhole.Ostream.C81_dev_partial`
* `Blackhole.Ostream.C81_text_partial`
* `Blackhole.PackLife.C105_call`
* `Blackhole.PackLife.C105_fails_scope`
* `Blackhole.Pattern.C20_empty`
* `Blackhole.Pattern.C21_broken`
* `Blackhole.Peer.C104_connects`
* `Blackhole.Peer.C104_follows`
* `Blackhole.Peer.C104_had_address`
* `Blackhole.Peer.C104_same_emit`
* `Blackhole.Peer.C104_udp_fixed`
* `Blackhole.Peer.C104_udp_made`
* `Blackhole.Peer.C104_unreachable`
* `Blackhole.Pipeline.C65_pattern`
* `Blackhole.ProcName.C106_place`
* `Blackhole.Race.C89_fails_early`
* `Blackhole.RecordBuf.C08_moved_from_asserts`
* `Blackhole.Reenter.C73_no_deadlock_partial`
* `Blackhole.Reenter.C73_unlocked_partial`
* `Blackhole.Registry.C34_build`
* `Blackhole.Registry.C34_last_registration_wins`
* `Blackhole.Registry.C34_unregistered`
* `Blackhole.Registry.C35_all_sinks`
* `Blackhole.Registry.C35_sink_throws`
* `Blackhole.Ring.C78_calls`
* `Blackhole.RingNest.C108_queue`
* `Blackhole.RingWeak.C109_fails_full`
* `Blackhole.Root.C01_accepted_lazy`
* `Blackhole.Root.C01_accepted_plain`
* `Blackhole.Root.C01_rejected_lazy`
* `Blackhole.Root.C01_rejected_plain`
* `Blackhole.Root.C02_filter_throws`
* `Blackhole.Root.C02_supplier_throws`
* `Blackhole.Root.C03_attribute_order`
* `Blackhole.Root.C03_contents`
* `Blackhole.Root.C03_message_only`
* `Blackhole.Root.C03_pack_grows`
* `Blackhole.Root.C07_activate`
* `Blackhole.Root.C07_active_iff`
* `Blackhole.Root.C07_handlers_see_active`
* `Blackhole.RootConc.C06_assignment_installs`
* `Blackhole.RootConc.C06_filter_takes_effect`
* `Blackhole.Shared.C67_fails_report`
* `Blackhole.Socket.C40_deliveries`
* `Blackhole.Socket.C48_required`
* `Blackhole.Socket.C70_udp`
* `Blackhole.Spin.C84_alive`
* `Blackhole.Spin.C84_atomic`
* `Blackhole.Spin.C84_counts`
* `Blackhole.Spin.C84_exclusive`
* `Blackhole.Spin.C84_gone`
* `Blackhole.Spin.C84_pointer_whole`
* `Blackhole.StringFmt.C53_bad_pattern`
* `Blackhole.StringFmt.C53_config`
* `Blackhole.StringFmt.C53_fails_no_pattern`
* `Blackhole.StringFmt.C53_rejects_partial`
* `Blackhole.StringRef.C98_compare`
* `Blackhole.StringView.C43_equality`
* `Blackhole.StringView.C43_index`
* `Blackhole.StringView.C43_order`
* `Blackhole.StringView.C43_strict_total`
* `Blackhole.StringView.C43_substr`
* `Blackhole.StringView.C43_to_string`
* `Blackhole.SysError.C94_gnu`
* `Blackhole.SysError.C94_xsi`
* `Blackhole.Syslog.C39_configured`
* `Blackhole.Syslog.C39_default`
* `Blackhole.Syslog.C39_factory_default`
* `Blackhole.Syslog.C39_factory_wraps`
* `Blackhole.Syslog.C39_fails_huge`
* `Blackhole.Syslog.C39_fails_longer`
* `Blackhole.Syslog.C39_text`
* `Blackhole.Syslog.C39_text_nul`
* `Blackhole.Syslog.C47_fails_factory`
* `Blackhole.Syslog.C47_in_force_partial`
* `Blackhole.Together.C88_null`
* `Blackhole.Together.C88_order`
* `Blackhole.Tskv.C25_message`
* `Blackhole.Tskv.C27_config`
* `Blackhole.ValueMem.C96_moved_text`

## propext, Classical.choice, Quot.sound

* `Blackhole.ArrayWriter.C93_double`
* `Blackhole.ArrayWriter.C93_fails_double`
* `Blackhole.ArrayWriter.C93_words`
* `Blackhole.Async.C10_drop_only_when_full`
* `Blackhole.Async.C10_drop_returns`
* `Blackhole.Async.C10_wait_returns_accepted`
* `Blackhole.Async.C12_builder_factor_partial`
* `Blackhole.Async.C12_factor`
* `Blackhole.Async.C12_factory`
* `Blackhole.Async.C12_fails_builder_policy`
* `Blackhole.Async.C12_policy_names`
* `Blackhole.Async.C60_delivery_bound`
* `Blackhole.Async.C60_starvation`
* `Blackhole.AsyncMem.C79_calls_made`
* `Blackhole.AsyncMem.C79_defined`
* `Blackhole.AsyncMem.C79_nothing_left`
* `Blackhole.AsyncMem.C79_queue`
* `Blackhole.AsyncMem.C79_seen`
* `Blackhole.AsyncReenter.C76_destruction`
* `Blackhole.AsyncReenter.C76_fails_destruction`
* `Blackhole.AsyncReenter.C76_fails_wait`
* `Blackhole.AsyncReenter.C76_nested_delivered`
* `Blackhole.AsyncReenter.C76_wait_returns_iff`
* `Blackhole.Attr.C13_value_int_roundtrip`
* `Blackhole.Attr.C13_view_int_roundtrip`
* `Blackhole.Attr.C74_fails_buffer`
* `Blackhole.Attr.C74_value_partial`
* `Blackhole.Attr.C74_view_partial`
* `Blackhole.Buffer.C63_concatenation`
* `Blackhole.Buffer.C63_fails_moved_from`
* `Blackhole.Buffer.C63_fails_moved_from_cleared`
* `Blackhole.Buffer.C63_fails_own`
* `Blackhole.Buffer.C63_own_inline`
* `Blackhole.Chain.C72_console`
* `Blackhole.Chain.C72_drains_partial`
* `Blackhole.Chain.C72_file`
* `Blackhole.Chain.C72_order`
* `Blackhole.Chain.C72_threads`
* `Blackhole.Config.C33_conversions_partial`
* `Blackhole.Console.C36_coloured`
* `Blackhole.Console.C37_no_threshold`
* `Blackhole.Console.C37_printed`
* `Blackhole.Console.C37_threshold`
* `Blackhole.Console.C38_complete`
* `Blackhole.Console.C38_exclusive`
* `Blackhole.Console.C38_whole_lines`
* `Blackhole.Date.C31_exact`
* `Blackhole.Date.C31_expand_partial`
* `Blackhole.Date.C31_fails_percent`
* `Blackhole.Date.C31_six_digits`
* `Blackhole.Date.C56_default_partial`
* `Blackhole.Date.C56_fails_negative`
* `Blackhole.Date.C56_injective`
* `Blackhole.Date.C56_libc`
* `Blackhole.Date.C57_fails_sign`
* `Blackhole.Date.C57_fails_summer`
* `Blackhole.Date.C57_fails_unwritten`
* `Blackhole.Date.C57_local_partial`
* `Blackhole.Date.C58_fails_utc`
* `Blackhole.Date.C58_local`
* `Blackhole.Date.C58_utc_partial`
* `Blackhole.DateOther.C32_default`
* `Blackhole.DateOther.C32_exact`
* `Blackhole.DateOther.C32_expand_partial`
* `Blackhole.Dev.C68_fails_exception`
* `Blackhole.Dev.C68_reset`
* `Blackhole.Dev.C68_text`
* `Blackhole.Dev.C68_visible`
* `Blackhole.Dev.C68_whole`
* `Blackhole.Double.C71_center_partial`
* `Blackhole.Double.C71_fails_center`
* `Blackhole.Double.C71_fails_huge`
* `Blackhole.Double.C71_fails_left`
* `Blackhole.Double.C71_fails_words`
* `Blackhole.Double.C71_numbers_partial`
* `Blackhole.Double.C71_unknown`
* `Blackhole.Double.C71_words`
* `Blackhole.Essentials.C64_build`
* `Blackhole.Essentials.C64_handler`
* `Blackhole.Essentials.C64_sink`
* `Blackhole.Exhaust.C103_close`
* `Blackhole.Exhaust.C103_fails_assign`
* `Blackhole.Exhaust.C103_log_again`
* `Blackhole.Exhaust.C103_memory`
* `Blackhole.Exhaust.C103_outcome_partial`
* `Blackhole.Exhaust.C103_unchanged`
* `Blackhole.Facade.C42_compiled_partial`
* `Blackhole.Facade.C42_message`
* `Blackhole.File.C17_follows_path`
* `Blackhole.File.C17_null_never_reopens`
* `Blackhole.File.C17_reuse`
* `Blackhole.Flush.C101_crash`
* `Blackhole.Flush.C101_text`
* `Blackhole.Flush.C101_threads`
* `Blackhole.Fmt.C45_bool`
* `Blackhole.Fmt.C45_char`
* `Blackhole.Fmt.C45_decimal_read_back`
* `Blackhole.Fmt.C45_digits`
* `Blackhole.Fmt.C45_text`
* `Blackhole.Fmt.C45_width`
* `Blackhole.Fmt.C49_expand`
* `Blackhole.Fmt.C49_literal`
* `Blackhole.Fmt.C49_lone_close`
* `Blackhole.Fmt.C49_lone_open`
* `Blackhole.Fmt.C49_no_mixing`
* `Blackhole.Fmt.C49_number_too_big_partial`
* `Blackhole.Fmt.C49_number_wraps_detected_partial`
* `Blackhole.Fmt.C49_unsuitable`
* `Blackhole.Fmt.C52_other_type`
* `Blackhole.Fmt.C59_any_format_string`
* `Blackhole.Fmt.C66_expand`
* `Blackhole.Fmt.C66_same_as_written`
* `Blackhole.Fmt.C69_accepted`
* `Blackhole.Fmt.C69_outcome`
* `Blackhole.FmtArgs.C75_convertible`
* `Blackhole.FmtArgs.C75_expand`
* `Blackhole.FmtArgs.C75_fails_convertible`
* `Blackhole.FmtArgs.C75_names`
* `Blackhole.FmtArgs.C75_nested`
* `Blackhole.FmtArgs.C75_no_mixing`
* `Blackhole.FmtArgs.C75_outcome`
* `Blackhole.FmtArgs.C75_positions`
* `Blackhole.FmtArgs.C75_user_types`
* `Blackhole.FmtArgs.C75_value_partial`
* `Blackhole.FmtArgs.Overload.C75_fails_types`
* `Blackhole.FmtPrint.C97_print`
* `Blackhole.FmtPrint.C97_printf_partial`
* `Blackhole.FmtStream.C92_fails_copy`
* `Blackhole.FmtStream.C92_format_decimal`
* `Blackhole.FmtStream.C92_format_int`
* `Blackhole.FmtStream.C92_manipulators`
* `Blackhole.FmtStream.C92_stream`
* `Blackhole.Ident.C102_alive`
* `Blackhole.Ident.C102_closed`
* `Blackhole.Ident.C102_factory`
* `Blackhole.Ident.C102_moved`
* `Blackhole.Ident.C102_name`
* `Blackhole.Json.C28_fails_append`
* `Blackhole.Json.C28_fails_array`
* `Blackhole.Json.C28_fails_filler`
* `Blackhole.Json.C28_fails_fragment`
* `Blackhole.Json.C28_fails_mixed`
* `Blackhole.Json.C28_fails_onto`
* `Blackhole.Json.C28_fails_pointer`
* `Blackhole.Json.C28_fails_root`
* `Blackhole.Json.C28_fails_through`
* `Blackhole.Json.C28_tree_partial`
* `Blackhole.Json.C29_fails_keys`
* `Blackhole.Json.C54_format`
* `Blackhole.Json.C54_line`
* `Blackhole.Json.C54_read`
* `Blackhole.Json.C55_builder`
* `Blackhole.Json.C55_routing`
* `Blackhole.JsonRead.C100_build`
* `Blackhole.JsonRead.C100_build_refused`
* `Blackhole.JsonRead.C100_exact`
* `Blackhole.JsonRead.C100_fails_nul`
* `Blackhole.JsonRead.C100_iff_partial`
* `Blackhole.JsonRead.C100_one`
* `Blackhole.JsonRead.C100_reads`
* `Blackhole.JsonRead.C100_refuses`
* `Blackhole.JsonRead.C100_total`
* `Blackhole.JsonRead.C54_grammar`
* `Blackhole.JsonRead.C54_parser`
* `Blackhole.Lifetime.C77_calls_return`
* `Blackhole.Lifetime.C77_destroyed_made`
* `Blackhole.Lifetime.C77_destroyed_once`
* `Blackhole.Lifetime.C77_lives_iff_in_use`
* `Blackhole.Lifetime.C77_no_use_after_free`
* `Blackhole.Lifetime.C77_nothing_left`
* `Blackhole.LockRace.C99_dev`
* `Blackhole.LockRace.C99_only_reports`
* `Blackhole.LockRace.C99_sinks`
* `Blackhole.LockRace.C99_sinks_replaced`
* `Blackhole.LockRace.C99_stderr`
* `Blackhole.LockRace.C99_stderr_replaced`
* `Blackhole.LockRace.C99_stdout_partial`
* `Blackhole.LockRace.C99_stdout_replaced_partial`
* `Blackhole.LockRace.C99_tcp`
* `Blackhole.MetaFormat.C41_argument`
* `Blackhole.MetaFormat.C41_same_argument`
* `Blackhole.MetaFormat.C41_same_partial`
* `Blackhole.MetaFormat.C41_substitutes_partial`
* `Blackhole.Ostream.C80_lines_partial`
* `Blackhole.Ostream.C81_fails_coloured`
* `Blackhole.Ostream.C81_fails_dev`
* `Blackhole.Ostream.C81_number`
* `Blackhole.Ostream.C81_plain_partial`
* `Blackhole.Ostream.C81_unsigned`
* `Blackhole.Pattern.C20_optional`
* `Blackhole.Pattern.C20_plain`
* `Blackhole.Pattern.C20_required`
* `Blackhole.Pattern.C20_sequence`
* `Blackhole.Pattern.C20_text`
* `Blackhole.Pattern.C20_time`
* `Blackhole.Pattern.C20_time_plain`
* `Blackhole.Pattern.C20_typed`
* `Blackhole.Pattern.C21_accepted`
* `Blackhole.Pattern.C21_bad_name`
* `Blackhole.Pattern.C21_every_pattern`
* `Blackhole.Pattern.C21_fails_assertion`
* `Blackhole.Pattern.C21_fails_lone_open`
* `Blackhole.Pattern.C21_fails_unclosed_specification`
* `Blackhole.Pattern.C21_lone_close`
* `Blackhole.Pattern.C21_position`
* `Blackhole.Pattern.C21_unclosed_partial`
* `Blackhole.Pattern.C22_optional_accepted`
* `Blackhole.Pattern.C51_accepted`
* `Blackhole.Pattern.C51_fails_separator_first`
* `Blackhole.Pattern.C51_pattern_first_partial`
* `Blackhole.Peer.C104_fails_udp`
* `Blackhole.Peer.C104_fails_udp_first`
* `Blackhole.Pipeline.C65_configured`
* `Blackhole.Pipeline.C65_console`
* `Blackhole.Pipeline.C65_every_line`
* `Blackhole.Pipeline.C65_file`
* `Blackhole.Pipeline.C65_json`
* `Blackhole.Pipeline.C65_other`
* `Blackhole.Pipeline.C65_reports`
* `Blackhole.Pipeline.C65_runs`
* `Blackhole.Pipeline.C65_sinks`
* `Blackhole.Pipeline.C65_tskv`
* `Blackhole.Printf.C90_fails_hex_float`
* `Blackhole.Printf.C90_fails_word`
* `Blackhole.Printf.C90_text_partial`
* `Blackhole.Printf.C91_any_format_string`
* `Blackhole.Printf.C91_extra`
* `Blackhole.Printf.C91_mixed`
* `Blackhole.Printf.C91_no_position`
* `Blackhole.Printf.C91_number_of_text`
* `Blackhole.Printf.C91_text_of_number`
* `Blackhole.Printf.C91_too_few`
* `Blackhole.ProcName.C106_first_use`
* `Blackhole.ProcName.C106_mac`
* `Blackhole.ProcName.C106_name`
* `Blackhole.ProcName.C106_prints`
* `Blackhole.ProcName.C106_title`
* `Blackhole.Race.C89_ordered`
* `Blackhole.Race.C89_race_free`
* `Blackhole.RecordBuf.C08_blocks`
* `Blackhole.RecordBuf.C08_nothing_left`
* `Blackhole.RecordBuf.C08_owned_copy`
* `Blackhole.RecordBuf.C08_views_stay_inside`
* `Blackhole.Reenter.C73_can_return_partial`
* `Blackhole.Reenter.C73_delivery`
* `Blackhole.Reenter.C73_latest_configuration`
* `Blackhole.Reenter.C73_latest_filter`
* `Blackhole.Reenter.C73_nested`
* `Blackhole.RegLife.C87_dangling`
* `Blackhole.RegLife.C87_defined`
* `Blackhole.RegLife.C87_function`
* `Blackhole.RegLife.C87_nothing_left`
* `Blackhole.RegLife.C87_owners`
* `Blackhole.RegLife.C87_rule`
* `Blackhole.RegLife.C87_values`
* `Blackhole.Ring.C110_alone_partial`
* `Blackhole.Ring.C110_fails_fair`
* `Blackhole.Ring.C110_fails_starved`
* `Blackhole.Ring.C110_fails_taking`
* `Blackhole.Ring.C78_can_deliver_partial`
* `Blackhole.Ring.C78_can_return_partial`
* `Blackhole.Ring.C78_can_stop_partial`
* `Blackhole.Ring.C78_delivered`
* `Blackhole.Ring.C78_delivers_partial`
* `Blackhole.Ring.C78_exclusive`
* `Blackhole.Ring.C78_fails_exception`
* `Blackhole.Ring.C78_full`
* `Blackhole.Ring.C78_refines_partial`
* `Blackhole.Ring.C78_returns_partial`
* `Blackhole.Ring.C78_stops_partial`
* `Blackhole.RingNest.C108_delivery`
* `Blackhole.RingNest.C108_fails_exception`
* `Blackhole.RingNest.C108_fails_nested`
* `Blackhole.RingNest.C108_fails_waiting`
* `Blackhole.RingNest.C108_returns_partial`
* `Blackhole.RingNest.C108_room`
* `Blackhole.RingWeak.C109_calls`
* `Blackhole.RingWeak.C109_delivered`
* `Blackhole.RingWeak.C109_exclusive`
* `Blackhole.RingWeak.C109_includes`
* `Blackhole.RingWeak.C109_once`
* `Blackhole.RingWeak.C109_race_free`
* `Blackhole.Root.C02_handlers_isolated`
* `Blackhole.Root.C02_handlers_isolated_lazy`
* `Blackhole.Root.C03_reachable`
* `Blackhole.RootConc.C06_assignment_sticks_partial`
* `Blackhole.RootConc.C06_constructed_pairs`
* `Blackhole.RootConc.C06_log_is_atomic`
* `Blackhole.RootConc.C06_never_mixes`
* `Blackhole.Scope.C04_exact`
* `Blackhole.Scope.C04_next_log`
* `Blackhole.Scope.C04_promise_allowed`
* `Blackhole.Scope.C04_scopes_follow_each_thread`
* `Blackhole.Scope.C05_after_move_construct`
* `Blackhole.Scope.C05_moves_carry_scopes_partial`
* `Blackhole.Shared.C67_characters`
* `Blackhole.Shared.C67_every_line`
* `Blackhole.Shared.C67_every_line_replaced`
* `Blackhole.Shared.C67_files`
* `Blackhole.Shared.C67_files_replaced`
* `Blackhole.Shared.C67_finishes`
* `Blackhole.Shared.C67_finishes_replaced`
* `Blackhole.Shared.C67_others`
* `Blackhole.Shared.C67_others_replaced`
* `Blackhole.Shared.C67_reports`
* `Blackhole.Shared.C67_streams`
* `Blackhole.Shared.C67_streams_replaced`
* `Blackhole.Socket.C40_connections`
* `Blackhole.Socket.C40_endpoints`
* `Blackhole.Socket.C40_reconnects`
* `Blackhole.Socket.C40_success`
* `Blackhole.Socket.C48_exact`
* `Blackhole.Socket.C48_fails_large_port`
* `Blackhole.Socket.C48_used_partial`
* `Blackhole.Socket.C70_finishes`
* `Blackhole.Socket.C70_grows`
* `Blackhole.Socket.C70_tcp`
* `Blackhole.Spin.C84_fails_waiting`
* `Blackhole.Spin.C84_no_deadlock`
* `Blackhole.Spin.C84_returns_alone`
* `Blackhole.Spin.C84_section_ends`
* `Blackhole.Spin.C84_whole`
* `Blackhole.StringFmt.C19_literal`
* `Blackhole.StringFmt.C20_fields`
* `Blackhole.StringFmt.C20_fields_specified`
* `Blackhole.StringFmt.C20_output`
* `Blackhole.StringFmt.C22_missing`
* `Blackhole.StringFmt.C22_optional`
* `Blackhole.StringFmt.C22_optional_text`
* `Blackhole.StringFmt.C22_required`
* `Blackhole.StringFmt.C22_required_specified`
* `Blackhole.StringFmt.C23_default`
* `Blackhole.StringFmt.C23_leftover`
* `Blackhole.StringFmt.C23_none`
* `Blackhole.StringFmt.C24_exact`
* `Blackhole.StringFmt.C24_fails_nul`
* `Blackhole.StringFmt.C24_fails_null`
* `Blackhole.StringFmt.C24_fails_past_end`
* `Blackhole.StringFmt.C24_fails_reads_behind`
* `Blackhole.StringFmt.C24_terminated_partial`
* `Blackhole.StringFmt.C44_exact`
* `Blackhole.StringFmt.C44_fails_negative`
* `Blackhole.StringFmt.C44_fails_type_s`
* `Blackhole.StringFmt.C44_mapped_partial`
* `Blackhole.StringFmt.C44_number`
* `Blackhole.StringFmt.C44_unnamed_exact`
* `Blackhole.StringFmt.C50_fails_message`
* `Blackhole.StringFmt.C53_severity`
* `Blackhole.StringRef.C98_constructors`
* `Blackhole.StringRef.C98_operators`
* `Blackhole.StringRef.C98_same_order_partial`
* `Blackhole.StringRef.C98_total`
* `Blackhole.SysError.C94_always_partial`
* `Blackhole.SysError.C94_fails_long`
* `Blackhole.SysError.C94_no_memory`
* `Blackhole.SysError.C94_unknown`
* `Blackhole.Syslog.C39_factory`
* `Blackhole.Time.C30_gmtime`
* `Blackhole.Time.C30_range`
* `Blackhole.Time.C30_wraps`
* `Blackhole.Together.C88_fails_long`
* `Blackhole.Together.C88_fails_race`
* `Blackhole.Together.C88_rotation`
* `Blackhole.Together.C88_whole`
* `Blackhole.Tskv.C25_attribute`
* `Blackhole.Tskv.C26_exact`
* `Blackhole.Tskv.C26_fails_constant`
* `Blackhole.Tskv.C26_fails_key_backslash`
* `Blackhole.Tskv.C26_fails_key_newline`
* `Blackhole.Tskv.C26_fails_key_tab`
* `Blackhole.Tskv.C26_read_partial`
* `Blackhole.Tskv.C27_builder`
* `Blackhole.Tskv.C27_fails_tid`
* `Blackhole.Tskv.C27_fields_partial`
* `Blackhole.ValueMem.C96_no_leak`
* `Blackhole.ValueMem.C96_safe`
* `Blackhole.ValueMem.C96_throws`
* `Blackhole.ValueMem.C96_values`
* `Blackhole.ValueMem.C96_view_of_moved`
* `Blackhole.ValueMem.C96_views`
* `Blackhole.ValueMem.C96_views_exist`
* `Blackhole.Wire.C95_fails_file`
* `Blackhole.Wire.C95_fails_string`
* `Blackhole.Wire.C95_fails_tskv`
* `Blackhole.Wire.C95_file`
* `Blackhole.Wire.C95_file_events`
* `Blackhole.Wire.C95_file_lines`
* `Blackhole.Wire.C95_json_one_line`
* `Blackhole.Wire.C95_tcp`
* `Blackhole.Wire.C95_threads`
* `Blackhole.Wrapper.C85_copy_partial`
* `Blackhole.Wrapper.C85_exact`
* `Blackhole.Wrapper.C85_fails_copy`
* `Blackhole.Wrapper.C85_fails_copy_moved`
* `Blackhole.Wrapper.C85_fails_move`
* `Blackhole.Wrapper.C85_move_partial`
* `Blackhole.Wrapper.C85_own_partial`
