{
 "claims": [
  {
   "property": "C01",
   "status": "proved",
   "theorems": [
    "Blackhole.Root.C01_rejected_plain",
    "Blackhole.Root.C01_rejected_lazy",
    "Blackhole.Root.C01_accepted_plain",
    "Blackhole.Root.C01_accepted_lazy"
   ],
   "note": "All filters, handlers, wrapper chains and memories; user callables may depend on the whole trace."
  },
  {
   "property": "C02",
   "status": "proved",
   "theorems": [
    "Blackhole.Root.C02_handlers_isolated",
    "Blackhole.Root.C02_handlers_isolated_lazy",
    "Blackhole.Root.C02_filter_throws",
    "Blackhole.Root.C02_supplier_throws"
   ],
   "note": "Exceptions of handlers are contained and reported; exceptions of the filter and supplier propagate."
  },
  {
   "property": "C03",
   "status": "proved",
   "theorems": [
    "Blackhole.Root.C03_message_only",
    "Blackhole.Root.C03_contents",
    "Blackhole.Root.C03_attribute_order",
    "Blackhole.Root.C03_pack_grows",
    "Blackhole.Root.C03_reachable"
   ],
   "note": "Order of attribute lists for every wrapper chain and every reachable scope state."
  },
  {
   "property": "C04",
   "status": "proved",
   "theorems": [
    "Blackhole.Scope.C04_exact",
    "Blackhole.Scope.C04_promise_allowed",
    "Blackhole.Scope.C04_scopes_follow_each_thread",
    "Blackhole.Scope.C04_next_log"
   ],
   "note": "Refinement of the watcher heap to per-thread stacks for all supported histories; without moves the supported histories are exactly those that a stack discipline allows."
  },
  {
   "property": "C05",
   "status": "partial",
   "theorems": [
    "Blackhole.Scope.C05_moves_carry_scopes_partial",
    "Blackhole.Scope.C05_after_move_construct",
    "Blackhole.Scope.C05_fails_other_thread",
    "Blackhole.Scope.C05_fails_other_thread_close",
    "Blackhole.Scope.C05_fails_assign_over_scope",
    "Blackhole.Scope.C05_fails_moved_from"
   ],
   "note": "Moves carry the moving thread's scopes; the claim fails for scopes of other threads and for the destination's own scopes (negations proved)."
  },
  {
   "property": "C06",
   "status": "partial",
   "theorems": [
    "Blackhole.RootConc.C06_log_is_atomic",
    "Blackhole.RootConc.C06_never_mixes",
    "Blackhole.RootConc.C06_constructed_pairs",
    "Blackhole.RootConc.C06_assignment_sticks_partial",
    "Blackhole.RootConc.C06_assignment_installs",
    "Blackhole.RootConc.C06_filter_takes_effect",
    "Blackhole.RootConc.C06_fails_assignment_undone"
   ],
   "note": "Atomic loads and stores of one shared configuration; an assignment racing with filter() can be undone (negation proved)."
  },
  {
   "property": "C07",
   "status": "proved",
   "theorems": [
    "Blackhole.Root.C07_handlers_see_active",
    "Blackhole.Root.C07_activate",
    "Blackhole.Root.C07_active_iff"
   ],
   "note": "Active iff the clock reading at activation is not the epoch."
  },
  {
   "property": "C08",
   "status": "proved",
   "theorems": [
    "Blackhole.RecordBuf.C08_owned_copy",
    "Blackhole.RecordBuf.C08_views_stay_inside",
    "Blackhole.RecordBuf.C08_blocks",
    "Blackhole.RecordBuf.C08_nothing_left",
    "Blackhole.RecordBuf.C08_default_move_asserts",
    "Blackhole.RecordBuf.C08_moved_from_asserts"
   ],
   "note": "Deep copies stay equal to the source and inside their own buffer; assertion outcomes of default-constructed and moved-from buffers stated. Holds for every choice of the containers: strings and attributes inside the object or in blocks, blocks reused, swapped or freed by assignments."
  },
  {
   "property": "C09",
   "status": "proved",
   "theorems": [
    "Blackhole.Async.C09_prefix",
    "Blackhole.Async.C09_producer_order",
    "Blackhole.Async.C09_producer_delivery"
   ],
   "note": "All interleavings of any number of producers and the consumer."
  },
  {
   "property": "C10",
   "status": "proved",
   "theorems": [
    "Blackhole.Async.C10_bounded",
    "Blackhole.Async.C10_wait_never_discards",
    "Blackhole.Async.C10_wait_returns_accepted",
    "Blackhole.Async.C10_drop_returns",
    "Blackhole.Async.C10_drop_only_when_full"
   ],
   "note": "Queue bound, wait and drop policies for all interleavings."
  },
  {
   "property": "C11",
   "status": "partial",
   "theorems": [
    "Blackhole.Async.C11_destroyed",
    "Blackhole.Async.C11_drains_partial",
    "Blackhole.Async.C11_join_waits",
    "Blackhole.Async.C11_fails_pending_dequeue",
    "Blackhole.Async.C11_fails_concrete",
    "Blackhole.Async.C11_terminates"
   ],
   "note": "Destruction drains what the consumer sees; a pending dequeue across the destructor can lose a message (negation proved); termination under fairness as a measure."
  },
  {
   "property": "C12",
   "status": "partial",
   "theorems": [
    "Blackhole.Async.C12_factor",
    "Blackhole.Async.C12_policy_names",
    "Blackhole.Async.C12_factory",
    "Blackhole.Async.C12_factory_missing_is_ub",
    "Blackhole.Async.C12_builder_factor_partial",
    "Blackhole.Async.C12_fails_builder_policy",
    "Blackhole.Async.C12_fails_drop_rvalue",
    "Blackhole.Async.C12_builder_records"
   ],
   "note": "Factor and policy names; the builder ignores the policy and the drop rvalue overload sets wait (negations proved)."
  },
  {
   "property": "C13",
   "status": "proved",
   "theorems": [
    "Blackhole.Attr.C13_value_int_roundtrip",
    "Blackhole.Attr.C13_view_int_roundtrip",
    "Blackhole.Attr.C13_value_int_wrong_type",
    "Blackhole.Attr.C13_view_int_wrong_type",
    "Blackhole.Attr.C13_value_exactly_one_type",
    "Blackhole.Attr.C13_view_reads_like_value",
    "Blackhole.Attr.C13_capture_roundtrip",
    "Blackhole.Attr.C13_capture_lazy",
    "Blackhole.Attr.C13_view_equality"
   ],
   "note": "Laws for every integral width and every alternative."
  },
  {
   "property": "C14",
   "status": "proved",
   "theorems": [
    "Blackhole.File.C14_lines",
    "Blackhole.File.C14_throws_only_on_errors",
    "Blackhole.File.C14_nothing_dropped"
   ],
   "note": "All policies, histories and file-system behaviours; writing to an open stream is assumed to succeed."
  },
  {
   "property": "C15",
   "status": "proved",
   "theorems": [
    "Blackhole.File.C15_every_nth",
    "Blackhole.File.C15_unflushed",
    "Blackhole.File.C15_zero"
   ],
   "note": "Every stream ever opened, every threshold below 2^64."
  },
  {
   "property": "C16",
   "status": "proved",
   "theorems": [
    "Blackhole.File.C16_multiples",
    "Blackhole.File.C16_unflushed",
    "Blackhole.File.C16_zero",
    "Blackhole.File.C16_wraps"
   ],
   "note": "Exact flush points while the 64-bit counter does not wrap; wrap-around witness given."
  },
  {
   "property": "C17",
   "status": "proved",
   "theorems": [
    "Blackhole.File.C17_reuse",
    "Blackhole.File.C17_reopen",
    "Blackhole.File.C17_null_never_reopens",
    "Blackhole.File.C17_follows_path",
    "Blackhole.File.C17_fails_race"
   ],
   "note": "Per-emit decision for every oracle, and a file system shared with other programs; the race between open and stat is shown separately."
  },
  {
   "property": "C18",
   "status": "proved",
   "theorems": [
    "Blackhole.File.C18_accepts",
    "Blackhole.File.C18_rejects",
    "Blackhole.File.C18_wraps"
   ],
   "note": "Characterisation of accepted strings and values for every string."
  },
  {
   "property": "C19",
   "status": "proved",
   "theorems": [
    "Blackhole.StringFmt.C19_literal"
   ],
   "note": "Every text, record and configuration."
  },
  {
   "property": "C20",
   "status": "proved",
   "theorems": [
    "Blackhole.Pattern.C20_sequence",
    "Blackhole.Pattern.C20_text",
    "Blackhole.Pattern.C20_empty",
    "Blackhole.Pattern.C20_plain",
    "Blackhole.Pattern.C20_typed",
    "Blackhole.Pattern.C20_time",
    "Blackhole.Pattern.C20_time_plain",
    "Blackhole.Pattern.C20_required",
    "Blackhole.Pattern.C20_optional",
    "Blackhole.StringFmt.C20_fields_specified",
    "Blackhole.StringFmt.C20_output",
    "Blackhole.StringFmt.C20_fields"
   ],
   "note": "Every sequence of texts and placeholders; each documented kind of placeholder; the output is the concatenation."
  },
  {
   "property": "C21",
   "status": "partial",
   "theorems": [
    "Blackhole.Pattern.C21_every_pattern",
    "Blackhole.Pattern.C21_lone_close",
    "Blackhole.Pattern.C21_bad_name",
    "Blackhole.Pattern.C21_unclosed_partial",
    "Blackhole.Pattern.C21_fails_lone_open",
    "Blackhole.Pattern.C21_fails_unclosed_specification",
    "Blackhole.Pattern.C21_fails_assertion",
    "Blackhole.Pattern.C21_accepted",
    "Blackhole.Pattern.C21_position",
    "Blackhole.Pattern.C21_broken"
   ],
   "note": "Lone closing braces, bad names and unclosed names are rejected with positions; a lone opening brace at the end and unclosed specifications are accepted, and some end in an assertion (negations proved)."
  },
  {
   "property": "C22",
   "status": "proved",
   "theorems": [
    "Blackhole.Pattern.C22_optional_accepted",
    "Blackhole.StringFmt.C22_required_specified",
    "Blackhole.StringFmt.C22_required",
    "Blackhole.StringFmt.C22_missing",
    "Blackhole.StringFmt.C22_optional",
    "Blackhole.StringFmt.C22_optional_text"
   ],
   "note": "Every pack and name; a missing required attribute leaves all sinks untouched."
  },
  {
   "property": "C23",
   "status": "proved",
   "theorems": [
    "Blackhole.StringFmt.C23_leftover",
    "Blackhole.StringFmt.C23_default",
    "Blackhole.StringFmt.C23_none"
   ],
   "note": "Every pack, separator, item pattern and field."
  },
  {
   "property": "C24",
   "status": "partial",
   "theorems": [
    "Blackhole.StringFmt.C24_terminated_partial",
    "Blackhole.StringFmt.C24_fails_nul",
    "Blackhole.StringFmt.C24_fails_reads_behind",
    "Blackhole.StringFmt.C24_fails_past_end",
    "Blackhole.StringFmt.C24_fails_null",
    "Blackhole.StringFmt.C24_exact"
   ],
   "note": "NUL-terminated views without NUL, exactly (C24_exact); all others fail (negations proved)."
  },
  {
   "property": "C25",
   "status": "proved",
   "theorems": [
    "Blackhole.Tskv.C25_unescape",
    "Blackhole.Tskv.C25_clean",
    "Blackhole.Tskv.C25_message",
    "Blackhole.Tskv.C25_attribute"
   ],
   "note": "Every text; the message and every attribute in every line."
  },
  {
   "property": "C26",
   "status": "partial",
   "theorems": [
    "Blackhole.Tskv.C26_exact",
    "Blackhole.Tskv.C26_read_partial",
    "Blackhole.Tskv.C26_fails_key_tab",
    "Blackhole.Tskv.C26_fails_key_newline",
    "Blackhole.Tskv.C26_fails_key_backslash",
    "Blackhole.Tskv.C26_fails_constant"
   ],
   "note": "Names without tab, newline or trailing backslash and constants without tab, newline or backslash; the others fail (negations proved). C26_exact shows that these conditions are exactly when a line can be read back."
  },
  {
   "property": "C27",
   "status": "partial",
   "theorems": [
    "Blackhole.Tskv.C27_fields_partial",
    "Blackhole.Tskv.C27_fails_tid",
    "Blackhole.Tskv.C27_builder",
    "Blackhole.Tskv.C27_config"
   ],
   "note": "All fields but the thread, which ignores removal and renaming (negation proved); builder and factory included."
  },
  {
   "property": "C28",
   "status": "partial",
   "theorems": [
    "Blackhole.Json.C28_tree_partial",
    "Blackhole.Json.C28_fails_through",
    "Blackhole.Json.C28_fails_onto",
    "Blackhole.Json.C28_fails_pointer",
    "Blackhole.Json.C28_fails_fragment",
    "Blackhole.Json.C28_fails_root",
    "Blackhole.Json.C28_fails_array",
    "Blackhole.Json.C28_fails_mixed",
    "Blackhole.Json.C28_fails_filler",
    "Blackhole.Json.C28_fails_append"
   ],
   "note": "All routings whose pointers consist of names that are not array indices, except perhaps the first, written as strings or as fragments of a URI beginning with #; routes through fields, through arrays (lost fields, assertions, new elements), invalid pointers and \"/\" are shown to misbehave (C28_fails_*)."
  },
  {
   "property": "C29",
   "status": "proved",
   "theorems": [
    "Blackhole.Json.C29_unique",
    "Blackhole.Json.C29_first",
    "Blackhole.Json.C29_distinct",
    "Blackhole.Json.C29_fails_keys"
   ],
   "note": "Every attribute pack; that keys may still collide is shown by C29_fails_keys."
  },
  {
   "property": "C30",
   "status": "proved",
   "theorems": [
    "Blackhole.Time.C30_gmtime",
    "Blackhole.Time.C30_range",
    "Blackhole.Time.C30_wraps",
    "Blackhole.Time.C30_negative",
    "Blackhole.Time.C30_zone"
   ],
   "note": "Every non-negative time whose year fits the field; what happens otherwise is shown by C30_wraps and C30_negative."
  },
  {
   "property": "C31",
   "status": "partial",
   "theorems": [
    "Blackhole.Date.C31_exact",
    "Blackhole.Date.C31_expand_partial",
    "Blackhole.Date.C31_six_digits",
    "Blackhole.Date.C31_fails_percent",
    "Blackhole.Date.C31_fails_long"
   ],
   "note": "Every pattern and strftime that works conversion by conversion, without an escaped percent sign before f or s and without parts of 1024 characters; those are shown to fail (C31_fails_*). C31_exact: the text for every pattern, C library and time, without those hypotheses."
  },
  {
   "property": "C32",
   "status": "partial",
   "theorems": [
    "Blackhole.DateOther.C32_exact",
    "Blackhole.DateOther.C32_every_pattern",
    "Blackhole.DateOther.C32_moved",
    "Blackhole.DateOther.C32_expand_partial",
    "Blackhole.DateOther.C32_fails_percent",
    "Blackhole.DateOther.C32_fails_late",
    "Blackhole.DateOther.C32_fails_early",
    "Blackhole.DateOther.C32_default"
   ],
   "note": "Every pattern in which %% and unknown directives do not follow text, every moment from 1970 to 9999; the others are shown to fail (C32_fails_*); C32_exact and C32_every_pattern give the text for every pattern."
  },
  {
   "property": "C33",
   "status": "partial",
   "theorems": [
    "Blackhole.Config.C33_navigation_partial",
    "Blackhole.Config.C33_at_most_one",
    "Blackhole.Config.C33_missing_partial",
    "Blackhole.Config.C33_conversions_partial",
    "Blackhole.Config.C33_each_partial",
    "Blackhole.Config.C33_each_map_partial",
    "Blackhole.Config.C33_fails_nul_string",
    "Blackhole.Config.C33_fails_nul_key"
   ],
   "note": "Every document and path whose keys have no NUL; strings up to their first NUL (negations proved)."
  },
  {
   "property": "C34",
   "status": "proved",
   "theorems": [
    "Blackhole.Registry.C34_build",
    "Blackhole.Registry.C34_unregistered",
    "Blackhole.Registry.C34_first_error",
    "Blackhole.Registry.C34_last_registration_wins"
   ],
   "note": "Every sequence of registrations and every document; success characterised exactly."
  },
  {
   "property": "C35",
   "status": "proved",
   "theorems": [
    "Blackhole.Registry.C35_all_sinks",
    "Blackhole.Registry.C35_render_throws",
    "Blackhole.Registry.C35_sink_throws"
   ],
   "note": "Formatters and sinks may depend on everything that happened before."
  },
  {
   "property": "C36",
   "status": "proved",
   "theorems": [
    "Blackhole.Console.C36_not_a_terminal",
    "Blackhole.Console.C36_default_colour",
    "Blackhole.Console.C36_coloured",
    "Blackhole.Console.C36_sequences",
    "Blackhole.Console.C36_mapping",
    "Blackhole.Console.C36_stream"
   ],
   "note": "Stream writes are assumed to succeed."
  },
  {
   "property": "C37",
   "status": "proved",
   "theorems": [
    "Blackhole.Console.C37_denied",
    "Blackhole.Console.C37_printed",
    "Blackhole.Console.C37_severity_filter",
    "Blackhole.Console.C37_default_prints",
    "Blackhole.Console.C37_factory",
    "Blackhole.Console.C37_factory_no_filter",
    "Blackhole.Console.C37_threshold",
    "Blackhole.Console.C37_no_threshold"
   ],
   "note": "Every filter, threshold and severity; factory included."
  },
  {
   "property": "C38",
   "status": "proved",
   "theorems": [
    "Blackhole.Console.C38_whole_lines",
    "Blackhole.Console.C38_complete",
    "Blackhole.Console.C38_exclusive"
   ],
   "note": "Every number of threads, programs and schedules, one character per step; lines written by other code to the same stream are outside."
  },
  {
   "property": "C39",
   "status": "proved",
   "theorems": [
    "Blackhole.Syslog.C39_configured",
    "Blackhole.Syslog.C39_default",
    "Blackhole.Syslog.C39_text",
    "Blackhole.Syslog.C39_text_nul",
    "Blackhole.Syslog.C39_factory",
    "Blackhole.Syslog.C39_factory_default",
    "Blackhole.Syslog.C39_factory_wraps",
    "Blackhole.Syslog.C39_fails_huge",
    "Blackhole.Syslog.C39_fails_longer"
   ],
   "note": "All int severities; text up to 2 GiB; NUL truncation stated."
  },
  {
   "property": "C40",
   "status": "proved",
   "theorems": [
    "Blackhole.Socket.C40_success",
    "Blackhole.Socket.C40_failure",
    "Blackhole.Socket.C40_reconnects",
    "Blackhole.Socket.C40_endpoints",
    "Blackhole.Socket.C40_connections",
    "Blackhole.Socket.C40_deliveries"
   ],
   "note": "Every behaviour of the network; emits are serial because of the mutex."
  },
  {
   "property": "C41",
   "status": "partial",
   "theorems": [
    "Blackhole.MetaFormat.C41_accepts",
    "Blackhole.MetaFormat.C41_compiles",
    "Blackhole.MetaFormat.C41_argument",
    "Blackhole.MetaFormat.C41_substitutes_partial",
    "Blackhole.MetaFormat.C41_same_argument",
    "Blackhole.MetaFormat.C41_same_partial",
    "Blackhole.MetaFormat.C41_fails_doubled_braces",
    "Blackhole.MetaFormat.C41_fails_bool",
    "Blackhole.MetaFormat.C41_fails_empty_view"
   ],
   "note": "Every pattern and every call that compiles; a pattern with doubled braces does not compile with exactly as many arguments as fields (C41_fails_doubled_braces), and bool is written as a number (C41_fails_bool)."
  },
  {
   "property": "C42",
   "status": "partial",
   "theorems": [
    "Blackhole.Facade.C42_rejected",
    "Blackhole.Facade.C42_accepted",
    "Blackhole.Facade.C42_format_error",
    "Blackhole.Facade.C42_no_values",
    "Blackhole.Facade.C42_compiled_partial",
    "Blackhole.Facade.C42_pattern",
    "Blackhole.Facade.C42_message",
    "Blackhole.Facade.C42_misplaced",
    "Blackhole.Facade.C42_fails_view",
    "Blackhole.Facade.C42_fails_unterminated",
    "Blackhole.Facade.C42_fails_compiled_message",
    "Blackhole.Facade.C42_fails_compiled_attributes"
   ],
   "note": "Every call through the run-time overloads with a NUL-terminated pattern; views into longer strings and the compile-time overload are shown to fail (C42_fails_*)."
  },
  {
   "property": "C43",
   "status": "proved",
   "theorems": [
    "Blackhole.StringView.C43_constructors",
    "Blackhole.StringView.C43_index",
    "Blackhole.StringView.C43_substr",
    "Blackhole.StringView.C43_to_string",
    "Blackhole.StringView.C43_equality",
    "Blackhole.StringView.C43_order",
    "Blackhole.StringView.C43_strict_total"
   ],
   "note": "All operations of the view; memory reads are bounds-checked."
  },
  {
   "property": "C44",
   "status": "partial",
   "theorems": [
    "Blackhole.StringFmt.C44_number",
    "Blackhole.StringFmt.C44_mapped_partial",
    "Blackhole.StringFmt.C44_fails_negative",
    "Blackhole.StringFmt.C44_fails_type_s",
    "Blackhole.StringFmt.C44_exact",
    "Blackhole.StringFmt.C44_unnamed_exact"
   ],
   "note": "Numbers, and mapped names for severities from 0 on; negative severities and unmapped ones with type s fail (negations proved). C44_exact: what is printed for every severity, list of names and format specification."
  },
  {
   "property": "C45",
   "status": "proved",
   "theorems": [
    "Blackhole.Fmt.C45_bool",
    "Blackhole.Fmt.C45_char",
    "Blackhole.Fmt.C45_text",
    "Blackhole.Fmt.C45_decimal_read_back",
    "Blackhole.Fmt.C45_digits",
    "Blackhole.Fmt.C45_width"
   ],
   "note": "All integer types, bases, widths, fills, alignments; buffer writes are bounds-checked."
  },
  {
   "property": "C46",
   "status": "proved",
   "theorems": [
    "Blackhole.File.C46_builder",
    "Blackhole.File.C46_factory",
    "Blackhole.File.C46_factory_rejects",
    "Blackhole.File.C46_bad_flush_ignored"
   ],
   "note": "Builder and factory; flush entries of other types are ignored (stated)."
  },
  {
   "property": "C47",
   "status": "partial",
   "theorems": [
    "Blackhole.Syslog.C47_in_force_partial",
    "Blackhole.Syslog.C47_fails_factory",
    "Blackhole.Syslog.C47_fails_two"
   ],
   "note": "Holds while no sink is destroyed; fails for factory-made sinks and for two sinks (negations proved)."
  },
  {
   "property": "C48",
   "status": "partial",
   "theorems": [
    "Blackhole.Socket.C48_used_partial",
    "Blackhole.Socket.C48_required",
    "Blackhole.Socket.C48_fails_large_port",
    "Blackhole.Socket.C48_exact"
   ],
   "note": "Ports below 65536, exactly (C48_exact); larger ports are reduced modulo 65536 (negation proved)."
  },
  {
   "property": "C49",
   "status": "partial",
   "theorems": [
    "Blackhole.Fmt.C49_expand",
    "Blackhole.Fmt.C49_literal",
    "Blackhole.Fmt.C49_lone_close",
    "Blackhole.Fmt.C49_lone_open",
    "Blackhole.Fmt.C49_unsuitable",
    "Blackhole.Fmt.C49_no_mixing",
    "Blackhole.Fmt.C49_number_too_big_partial",
    "Blackhole.Fmt.C49_number_wraps_detected_partial",
    "Blackhole.Fmt.C49_fails_number_wraps",
    "Blackhole.Fmt.C49_fails_empty_specification"
   ],
   "note": "All documented format strings; numbers beyond 2^32 and empty specifications before alignment characters fail (negations proved)."
  },
  {
   "property": "C50",
   "status": "partial",
   "theorems": [
    "Blackhole.Fmt.C50_not_empty",
    "Blackhole.Fmt.C50_empty_partial",
    "Blackhole.Fmt.C50_fails_reads_behind",
    "Blackhole.Fmt.C50_fails_past_end",
    "Blackhole.Fmt.C50_fails_null",
    "Blackhole.StringFmt.C50_fails_message"
   ],
   "note": "Non-empty strings, and empty ones followed by NUL; other empty ones fail (negations proved)."
  },
  {
   "property": "C51",
   "status": "partial",
   "theorems": [
    "Blackhole.Pattern.C51_accepted",
    "Blackhole.Pattern.C51_pattern_first_partial",
    "Blackhole.Pattern.C51_fails_separator_first"
   ],
   "note": "Pattern first; separator first is rejected (negation proved)."
  },
  {
   "property": "C52",
   "status": "proved",
   "theorems": [
    "Blackhole.Fmt.C52_text",
    "Blackhole.Fmt.C52_bool",
    "Blackhole.Fmt.C52_char",
    "Blackhole.Fmt.C52_other_type",
    "Blackhole.Fmt.C52_field"
   ],
   "note": "Every text, boolean and character argument in every specification."
  },
  {
   "property": "C53",
   "status": "partial",
   "theorems": [
    "Blackhole.StringFmt.C53_config",
    "Blackhole.StringFmt.C53_severity",
    "Blackhole.StringFmt.C53_bad_pattern",
    "Blackhole.StringFmt.C53_rejects_partial",
    "Blackhole.StringFmt.C53_fails_no_pattern"
   ],
   "note": "Proved except for a missing pattern, which is undefined behaviour (C53_fails_no_pattern)."
  },
  {
   "property": "C54",
   "status": "proved",
   "theorems": [
    "Blackhole.Json.C54_read",
    "Blackhole.Json.C54_format",
    "Blackhole.Json.C54_line",
    "Blackhole.JsonRead.C54_grammar",
    "Blackhole.JsonRead.C54_parser"
   ],
   "note": "Every tree, configuration and record, given that doubles are rendered as numbers; the writer of RapidJSON is an assumption. C54_grammar and C54_parser: the text is one of the grammar of C100 and the parser of configurations reads it back."
  },
  {
   "property": "C55",
   "status": "proved",
   "theorems": [
    "Blackhole.Json.C55_builder",
    "Blackhole.Json.C55_routing",
    "Blackhole.Json.C55_config",
    "Blackhole.Json.C55_mutate"
   ],
   "note": "Every sequence of calls; every configuration of the documented form."
  },
  {
   "property": "C56",
   "status": "partial",
   "theorems": [
    "Blackhole.Date.C56_default_partial",
    "Blackhole.Date.C56_libc",
    "Blackhole.Date.C56_injective",
    "Blackhole.Date.C56_fails_negative"
   ],
   "note": "Every record from 1970 on, given a strftime that prints the six conversions as POSIX says; before 1970 it is false (C56_fails_negative)."
  },
  {
   "property": "C57",
   "status": "partial",
   "theorems": [
    "Blackhole.Date.C57_local_partial",
    "Blackhole.Date.C57_fails_summer",
    "Blackhole.Date.C57_fails_unwritten",
    "Blackhole.Date.C57_fails_sign"
   ],
   "note": "Every record and zone without summer time; summer time and %z are shown to be wrong (C57_fails_*)."
  },
  {
   "property": "C58",
   "status": "partial",
   "theorems": [
    "Blackhole.Date.C58_local",
    "Blackhole.Date.C58_utc_partial",
    "Blackhole.Date.C58_fails_utc"
   ],
   "note": "Every record with the local format; in UTC only for processes in UTC (C58_fails_utc)."
  },
  {
   "property": "C59",
   "status": "proved",
   "theorems": [
    "Blackhole.Fmt.C59_any_format_string",
    "Blackhole.Fmt.C59_needs_terminated"
   ],
   "note": "Every format string and every list of valid arguments; the conversion of floating-point numbers is a parameter assumed to be defined. Empty views without a NUL behind them are shown to be undefined (C59_needs_terminated)."
  },
  {
   "property": "C60",
   "status": "proved",
   "theorems": [
    "Blackhole.Async.C60_delivery_bound",
    "Blackhole.Async.C60_never_blocks",
    "Blackhole.Async.C60_shutdown_bound",
    "Blackhole.Async.C60_shutdown_never_blocks",
    "Blackhole.Async.C60_starvation"
   ],
   "note": "Bounds in turns of the worker for every schedule in which the wrapped sink does not throw (then the process is terminated); the lack of fairness between producers is proved as C60_starvation."
  },
  {
   "property": "C61",
   "status": "proved",
   "theorems": [
    "Blackhole.File.Disk.C61_prefix",
    "Blackhole.File.Disk.C61_events",
    "Blackhole.File.Disk.C61_bytes",
    "Blackhole.File.Disk.C61_every_event",
    "Blackhole.File.Disk.C61_destroyed",
    "Blackhole.File.Disk.C61_default_loses"
   ],
   "note": "For every history without write errors (those are C62); the death of the process, not of the machine: what the operating system has got survives. For byte thresholds each line must be short enough for the 64-bit counter (C16)."
  },
  {
   "property": "C62",
   "status": "partial",
   "theorems": [
    "Blackhole.File.Disk.C62_reported",
    "Blackhole.File.Disk.C62_fails_no_recovery",
    "Blackhole.File.Disk.C62_fails_for_ever",
    "Blackhole.File.Disk.C62_fails_silenced",
    "Blackhole.File.Disk.C62_fails_close",
    "Blackhole.File.Disk.C62_recovers_partial"
   ],
   "note": "Errors are reported by the emit in which they occur; the sink recovers only through rotation. The rest of the claim is shown to fail (C62_fails_no_recovery, C62_fails_for_ever)."
  },
  {
   "property": "C63",
   "status": "partial",
   "theorems": [
    "Blackhole.Buffer.C63_contents",
    "Blackhole.Buffer.C63_concatenation",
    "Blackhole.Buffer.C63_throws",
    "Blackhole.Buffer.C63_move",
    "Blackhole.Buffer.C63_moved_from_inline",
    "Blackhole.Buffer.C63_fails_moved_from",
    "Blackhole.Buffer.C63_fails_moved_from_cleared",
    "Blackhole.Buffer.C63_own_inline",
    "Blackhole.Buffer.C63_fails_own"
   ],
   "note": "The sentence in parentheses is false once the text has left the object (C63_fails_moved_from, C63_fails_moved_from_cleared, C63_fails_own); everything else is proved."
  },
  {
   "property": "C64",
   "status": "partial",
   "theorems": [
    "Blackhole.Essentials.C64_sink",
    "Blackhole.Essentials.C64_same_registry",
    "Blackhole.Essentials.C64_unknown_sink",
    "Blackhole.Essentials.C64_unknown_wrapped",
    "Blackhole.Essentials.C64_fails_incomplete",
    "Blackhole.Essentials.C64_handler",
    "Blackhole.Essentials.C64_unknown_handler",
    "Blackhole.Essentials.C64_unknown_formatter",
    "Blackhole.Essentials.C64_filter",
    "Blackhole.Essentials.C64_build",
    "Blackhole.Essentials.C64_only_sink",
    "Blackhole.Essentials.C64_mismatch_sink",
    "Blackhole.Essentials.C64_refused_formatter"
   ],
   "note": "The last sentence fails: an asynchronous sink without a factor or an overflow policy reads an empty optional (C64_fails_incomplete). The rest is proved."
  },
  {
   "property": "C65",
   "status": "proved",
   "theorems": [
    "Blackhole.Pipeline.C65_json",
    "Blackhole.Pipeline.C65_tskv",
    "Blackhole.Pipeline.C65_sinks",
    "Blackhole.Pipeline.C65_file",
    "Blackhole.Pipeline.C65_every_line",
    "Blackhole.Pipeline.C65_console",
    "Blackhole.Pipeline.C65_other",
    "Blackhole.Pipeline.C65_runs",
    "Blackhole.Pipeline.C65_configured",
    "Blackhole.Pipeline.C65_pattern",
    "Blackhole.Pipeline.C65_reports"
   ],
   "note": ""
  },
  {
   "property": "C66",
   "status": "proved",
   "theorems": [
    "Blackhole.Fmt.C66_expand",
    "Blackhole.Fmt.C66_same_as_written"
   ],
   "note": "Nested fields in every position of every well formed format string."
  },
  {
   "property": "C67",
   "status": "partial",
   "theorems": [
    "Blackhole.Shared.C67_fails_report",
    "Blackhole.Shared.C67_characters",
    "Blackhole.Shared.C67_others",
    "Blackhole.Shared.C67_files",
    "Blackhole.Shared.C67_finishes",
    "Blackhole.Shared.C67_every_line",
    "Blackhole.Shared.C67_files_replaced",
    "Blackhole.Shared.C67_streams_replaced",
    "Blackhole.Shared.C67_every_line_replaced",
    "Blackhole.Shared.C67_others_replaced",
    "Blackhole.Shared.C67_finishes_replaced",
    "Blackhole.Shared.C67_streams",
    "Blackhole.Shared.C67_reports"
   ],
   "note": "Proved for file sinks in general (C67_files, C67_every_line, C67_finishes) and for console sinks when nothing fails (C67_streams). C67_fails_report shows that the logger's own error reports on the standard output, which take no mutex, can break a console sink's line; C67_characters says what is on the streams all the same, whatever fails. The theorems ending in _replaced say the same for calls that each find their own handlers, as when loggers are assigned to or several loggers share the process. Sockets, the system log and queues take a text in one step here (C67_others)."
  },
  {
   "property": "C68",
   "status": "partial",
   "theorems": [
    "Blackhole.Dev.C68_text",
    "Blackhole.Dev.C68_fails_exception",
    "Blackhole.Dev.C68_visible",
    "Blackhole.Dev.C68_reset",
    "Blackhole.Dev.C68_whole",
    "Blackhole.Dev.C68_fails_console"
   ],
   "note": "C68_text gives the whole output, C68_visible and C68_reset the colours, C68_whole several threads. C68_fails_exception: a throwing attribute function leaves an unfinished line. C68_fails_console: a console sink's line can come into the middle of a record, since the mutexes differ. Doubles are printed by an oracle; the stream is assumed to have default flags."
  },
  {
   "property": "C69",
   "status": "proved",
   "theorems": [
    "Blackhole.Fmt.C69_outcome",
    "Blackhole.Fmt.C69_accepted"
   ],
   "note": "C69_outcome gives the result of formatting for all strings of the described shape; C69_accepted is the converse of C49. Positions are below 2^31; the final faults are those of `Ending`."
  },
  {
   "property": "C70",
   "status": "proved",
   "theorems": [
    "Blackhole.Socket.C70_tcp",
    "Blackhole.Socket.C70_grows",
    "Blackhole.Socket.C70_finishes",
    "Blackhole.Socket.C70_udp"
   ],
   "note": "The mutex is sequentially consistent. Boost.Asio does not promise that one UDP socket may be used from several threads at once; send_to is taken to be one system call."
  },
  {
   "property": "C71",
   "status": "partial",
   "theorems": [
    "Blackhole.Double.C71_numbers_partial",
    "Blackhole.Double.C71_center_partial",
    "Blackhole.Double.C71_words",
    "Blackhole.Double.C71_unknown",
    "Blackhole.Double.C71_fails_left",
    "Blackhole.Double.C71_fails_center",
    "Blackhole.Double.C71_fails_words",
    "Blackhole.Double.C71_fails_huge"
   ],
   "note": "Proved for finite numbers whose field is padded on the right with spaces only, and which have a sign or a field within the first 500 characters if centred. Fails (C71_fails_*): a left-aligned number is padded with spaces whatever the fill; a centred one without sign is replaced by unwritten memory when its field makes the buffer grow; words are padded like text, so on the right by default and with zeros behind; a number of 2^31 characters takes all memory."
  },
  {
   "property": "C72",
   "status": "partial",
   "theorems": [
    "Blackhole.Chain.C72_order",
    "Blackhole.Chain.C72_threads",
    "Blackhole.Chain.C72_file",
    "Blackhole.Chain.C72_console",
    "Blackhole.Chain.C72_drains_partial",
    "Blackhole.Chain.C72_fails_error",
    "Blackhole.Chain.C72_fails_error_concrete",
    "Blackhole.Chain.C72_fails_loss",
    "Blackhole.Chain.C72_fails_inner_drop"
   ],
   "note": "C72_drains_partial needs the condition CleanStops (no worker about to conclude that nothing is left although something is, when its destructor begins); without it the claim is false (C72_fails_loss). C72_fails_error(_concrete) and C72_fails_inner_drop are the other two violations. Everything else is proved without conditions."
  },
  {
   "property": "C73",
   "status": "partial",
   "theorems": [
    "Blackhole.Reenter.C73_unlocked_partial",
    "Blackhole.Reenter.C73_no_deadlock_partial",
    "Blackhole.Reenter.C73_can_return_partial",
    "Blackhole.Reenter.C73_delivery",
    "Blackhole.Reenter.C73_latest_configuration",
    "Blackhole.Reenter.C73_latest_filter",
    "Blackhole.Reenter.C73_nested",
    "Blackhole.Reenter.C73_fails_colour",
    "Blackhole.Reenter.C73_fails_attribute",
    "Blackhole.Reenter.C73_fails_copy",
    "Blackhole.Reenter.C73_fails_filter_destructor",
    "Blackhole.Reenter.C73_fails_config_destructor"
   ],
   "note": "C73_unlocked_partial, C73_no_deadlock_partial and C73_can_return_partial need that the five kinds of callbacks which run under a lock (Who.guarded) do not call the library (Gentle); without it the claim is false (C73_fails_colour, C73_fails_attribute, C73_fails_copy, C73_fails_filter_destructor, C73_fails_config_destructor). C73_delivery, C73_nested, C73_latest_configuration and C73_latest_filter hold for all executions. Asynchronous sinks are not included (C76)."
  },
  {
   "property": "C74",
   "status": "partial",
   "theorems": [
    "Blackhole.Attr.C74_view_partial",
    "Blackhole.Attr.C74_value_partial",
    "Blackhole.Attr.C74_fails_pointer",
    "Blackhole.Attr.C74_fails_buffer",
    "Blackhole.Attr.C74_fails_function",
    "Blackhole.Attr.C74_value_constructors",
    "Blackhole.Attr.C74_view_constructors",
    "Blackhole.Attr.C74_compiles"
   ],
   "note": "C74_view_partial and C74_value_partial exclude pointers and arrays that are longer than their text, for which the claim is false (C74_fails_pointer, C74_fails_buffer, both for all texts). C74_fails_function: function values, which the documentation lists, cannot be made."
  },
  {
   "property": "C75",
   "status": "partial",
   "theorems": [
    "Blackhole.FmtArgs.C75_nested",
    "Blackhole.FmtArgs.C75_outcome",
    "Blackhole.FmtArgs.Overload.C75_overloads",
    "Blackhole.FmtArgs.Overload.C75_read_as_stored",
    "Blackhole.FmtArgs.Overload.C75_passed",
    "Blackhole.FmtArgs.Overload.C75_passed_all",
    "Blackhole.FmtArgs.Overload.C75_fails_types",
    "Blackhole.FmtArgs.C75_positions",
    "Blackhole.FmtArgs.C75_names",
    "Blackhole.FmtArgs.C75_expand",
    "Blackhole.FmtArgs.C75_user_types",
    "Blackhole.FmtArgs.C75_no_mixing",
    "Blackhole.FmtArgs.C75_value_partial",
    "Blackhole.FmtArgs.C75_fails_convertible",
    "Blackhole.FmtArgs.C75_convertible"
   ],
   "note": "C75_value_partial excludes objects that convert to integers outside the range of int, for which the claim is false (C75_fails_convertible; C75_convertible says for every value what is written instead). C75_overloads says for every C++ type whether a call compiles and what the argument is written as, C75_read_as_stored that the two sets of overloads agree, C75_passed and C75_passed_all that the arguments of the other theorems are exactly those that compile (but long double); C75_fails_types what goes wrong: objects that print themselves and convert to a number, integers of 128 bits. How a long double is written is left out. C75_outcome and C75_nested say for every well formed format string, with names, positions, pointers, user types and nested widths and precisions, what is printed or which fault is reported first."
  },
  {
   "property": "C76",
   "status": "partial",
   "theorems": [
    "Blackhole.AsyncReenter.C76_delivery",
    "Blackhole.AsyncReenter.C76_nested_delivered",
    "Blackhole.AsyncReenter.C76_drop_returns",
    "Blackhole.AsyncReenter.C76_wait_keeps",
    "Blackhole.AsyncReenter.C76_wait_returns_iff",
    "Blackhole.AsyncReenter.C76_fails_wait",
    "Blackhole.AsyncReenter.C76_destruction",
    "Blackhole.AsyncReenter.C76_fails_destruction"
   ],
   "note": "Proved for the policy that drops; for the policy that waits C76_wait_returns_iff says exactly when a nested call returns (there is room at that moment), and C76_fails_wait gives the deadlock for every capacity. C76_fails_destruction: a sink that logs in every call is never destroyed. The queue is taken by its contract, as in C09; the root logger between the sink and the asynchronous sink adds only a shared lock (C73)."
  },
  {
   "property": "C77",
   "status": "proved",
   "theorems": [
    "Blackhole.Lifetime.C77_no_use_after_free",
    "Blackhole.Lifetime.C77_destroyed_once",
    "Blackhole.Lifetime.C77_lives_iff_in_use",
    "Blackhole.Lifetime.C77_destroyed_made",
    "Blackhole.Lifetime.C77_nothing_left",
    "Blackhole.Lifetime.C77_calls_return",
    "Blackhole.Lifetime.C77_assigned"
   ],
   "note": "A logger is destroyed only while no thread is inside one of its own member functions, as C++ requires. std::shared_ptr is taken by its contract (a count that is changed atomically). A log call is one step per handler."
  },
  {
   "property": "C78",
   "status": "partial",
   "theorems": [
    "Blackhole.Ring.C78_delivers_partial",
    "Blackhole.Ring.C78_returns_partial",
    "Blackhole.Ring.C78_refines_partial",
    "Blackhole.Ring.C78_delivered",
    "Blackhole.Ring.C78_exclusive",
    "Blackhole.Ring.C78_calls",
    "Blackhole.Ring.C78_full",
    "Blackhole.Ring.C78_can_deliver_partial",
    "Blackhole.Ring.C78_can_stop_partial",
    "Blackhole.Ring.C78_can_return_partial",
    "Blackhole.Ring.C78_fails_exception",
    "Blackhole.Ring.C78_stops_partial"
   ],
   "note": "Violated when the lambda in emit throws (memory for the copy of the record, or an exception of a function of an attribute, C108): its place stays claimed and empty, nothing behind it is ever delivered, and the destructor does not return (C78_fails_exception). Without such a failure everything is proved, also that delivery is inevitable: in every fair infinite execution each record with a place is delivered (C78_delivers_partial) and its call returns (C78_returns_partial); the destructor returns within a number of steps of the worker that is linear in the records that wait (C78_stops_partial). The queue is libcds's, whose source is not in the checkout: it is the published algorithm, with sequentially consistent memory (C109 has the weaker one) and counters that do not wrap."
  },
  {
   "property": "C79",
   "status": "proved",
   "theorems": [
    "Blackhole.AsyncMem.C79_defined",
    "Blackhole.AsyncMem.C79_seen",
    "Blackhole.AsyncMem.C79_queue",
    "Blackhole.AsyncMem.C79_call",
    "Blackhole.AsyncMem.C79_calls_made",
    "Blackhole.AsyncMem.C79_nothing_left"
   ],
   "note": "The queue of C78 with the buffers of C08 in its cells, the temporary of emit and the variable of the worker. The std::string beside the record is a value; the queue's trusted base is that of C78."
  },
  {
   "property": "C80",
   "status": "partial",
   "theorems": [
    "Blackhole.Ostream.C80_lines_partial",
    "Blackhole.Ostream.C80_dev_partial",
    "Blackhole.Ostream.C80_call_partial",
    "Blackhole.Ostream.C80_blocking_partial",
    "Blackhole.Ostream.C80_report_partial",
    "Blackhole.Ostream.C80_terminates_iff",
    "Blackhole.Ostream.C80_terminates_iff_unit",
    "Blackhole.Ostream.C80_fails_terminated",
    "Blackhole.Ostream.C80_fails_caller"
   ],
   "note": "Holds with the default exception mask of the stream. If the program has enabled exceptions on the stream, the report of the error throws out of the log call (C80_fails_caller), and a coloured write can end the process (C80_terminates_iff, C80_terminates_iff_unit for a stream with unitbuf, C80_fails_terminated)."
  },
  {
   "property": "C81",
   "status": "partial",
   "theorems": [
    "Blackhole.Ostream.C81_number",
    "Blackhole.Ostream.C81_unsigned",
    "Blackhole.Ostream.C81_text_partial",
    "Blackhole.Ostream.C81_coloured_partial",
    "Blackhole.Ostream.C81_plain_partial",
    "Blackhole.Ostream.C81_fails_coloured",
    "Blackhole.Ostream.C81_dev_partial",
    "Blackhole.Ostream.C81_fails_dev"
   ],
   "note": "Holds for text without colours, and for everything if the base is decimal, plus signs are off and no width is pending. Otherwise escape sequences (C81_fails_coloured) and the numbers of the development handler (C81_fails_dev) change, and the width is used up; C81_number and C81_unsigned say how numbers are printed for all flags. Locales with digit grouping are not modelled."
  },
  {
   "property": "C82",
   "status": "partial",
   "theorems": [
    "Blackhole.Builder.C82_program",
    "Blackhole.Builder.C82_blocking",
    "Blackhole.Builder.C82_blocking_renews",
    "Blackhole.Builder.C82_blocking_delivers",
    "Blackhole.Builder.C82_fails_no_formatter",
    "Blackhole.Builder.C82_fails_null_sink",
    "Blackhole.Builder.C82_root_partial",
    "Blackhole.Builder.C82_fails_root",
    "Blackhole.Builder.C82_string",
    "Blackhole.Builder.C82_json_partial",
    "Blackhole.Builder.C82_fails_json",
    "Blackhole.Builder.C82_tskv_partial",
    "Blackhole.Builder.C82_fails_tskv",
    "Blackhole.Builder.C82_file_partial",
    "Blackhole.Builder.C82_fails_file",
    "Blackhole.Builder.C82_file_first",
    "Blackhole.Builder.C82_console_partial",
    "Blackhole.Builder.C82_fails_console",
    "Blackhole.Builder.C82_async_partial",
    "Blackhole.Builder.C82_fails_async"
   ],
   "note": "Full for blocking handlers and string formatters, and for the first product of every builder. Later products of the others are described exactly, but are not those of a new builder: the second root logger throws at every call (C82_fails_root), the second TSKV formatter has no timestamp, JSON switches stay on, the second file sink dereferences a null pointer, the second console sink may throw, the second asynchronous sink wraps nothing."
  },
  {
   "property": "C83",
   "status": "partial",
   "theorems": [
    "Blackhole.Builder.Chain.C83_builds_partial",
    "Blackhole.Builder.Chain.C83_only",
    "Blackhole.Builder.Chain.C83_fails_reference"
   ],
   "note": "Holds if intermediate objects are kept by value, or by a reference to what handler, set or add returned; conversely only such chains give a logger (C83_only). A variable bound by reference to what build or mapping returned dangles (C83_fails_reference)."
  },
  {
   "property": "C84",
   "status": "partial",
   "theorems": [
    "Blackhole.Spin.C84_counts",
    "Blackhole.Spin.C84_alive",
    "Blackhole.Spin.C84_gone",
    "Blackhole.Spin.C84_exclusive",
    "Blackhole.Spin.C84_atomic",
    "Blackhole.Spin.C84_whole",
    "Blackhole.Spin.C84_pointer_whole",
    "Blackhole.Spin.C84_section_ends",
    "Blackhole.Spin.C84_returns_alone",
    "Blackhole.Spin.C84_no_deadlock",
    "Blackhole.Spin.C84_fails_waiting"
   ],
   "note": "Everything but the last clause: a section may run the destructors of replaced handlers and filters and the copy constructor of a filter, so a log call waits, spinning, for code of the user in another thread (C84_fails_waiting)."
  },
  {
   "property": "C85",
   "status": "partial",
   "theorems": [
    "Blackhole.Wrapper.C85_exact",
    "Blackhole.Wrapper.C85_own_partial",
    "Blackhole.Wrapper.C85_copy_partial",
    "Blackhole.Wrapper.C85_move_partial",
    "Blackhole.Wrapper.C85_fails_copy",
    "Blackhole.Wrapper.C85_fails_copy_moved",
    "Blackhole.Wrapper.C85_fails_move"
   ],
   "note": "Proved for wrappers themselves, for copies while the original is neither moved from nor destroyed, and for moved wrappers whose texts are all on the heap. Otherwise the code fails: the views of a copy are of the original's attributes (C85_fails_copy, C85_fails_copy_moved), and moving short strings inside a small_vector leaves the views behind (C85_fails_move). C85_exact gives the outcome for every history."
  },
  {
   "property": "C86",
   "status": "proved",
   "theorems": [
    "Blackhole.Durable.C86_prefix",
    "Blackhole.Durable.C86_events",
    "Blackhole.Durable.C86_bytes",
    "Blackhole.Durable.C86_closed",
    "Blackhole.Durable.C86_returned",
    "Blackhole.Durable.C86_stopped",
    "Blackhole.Durable.C86_default_unbounded"
   ],
   "note": "Errors while closing a file are excluded: the library swallows them (C62). By default (no flush section) there is no bound: C86_default_unbounded."
  },
  {
   "property": "C87",
   "status": "proved",
   "theorems": [
    "Blackhole.RegLife.C87_values",
    "Blackhole.RegLife.C87_defined",
    "Blackhole.RegLife.C87_dangling",
    "Blackhole.RegLife.C87_owners",
    "Blackhole.RegLife.C87_nothing_left",
    "Blackhole.RegLife.C87_rule",
    "Blackhole.RegLife.C87_function",
    "Blackhole.RegLife.C87_build",
    "Blackhole.RegLife.C87_builder_dangles",
    "Blackhole.RegLife.C87_fails_temporary",
    "Blackhole.RegLife.C87_fails_blocking"
   ],
   "note": "That builders do not keep their registry alive is shown by C87_fails_temporary and C87_fails_blocking. Factories that change a registry while they are called are not modelled."
  },
  {
   "property": "C88",
   "status": "proved",
   "theorems": [
    "Blackhole.Together.C88_order",
    "Blackhole.Together.C88_kept",
    "Blackhole.Together.C88_whole",
    "Blackhole.Together.C88_rotation",
    "Blackhole.Together.C88_null",
    "Blackhole.Together.C88_fails_default",
    "Blackhole.Together.C88_fails_long",
    "Blackhole.Together.C88_fails_race"
   ],
   "note": "The conditions are needed: C88_fails_default, C88_fails_long, C88_fails_race. Writing errors are left out (C62), as is a hand-over that the operating system splits."
  },
  {
   "property": "C89",
   "status": "proved",
   "theorems": [
    "Blackhole.Race.C89_race_free",
    "Blackhole.Race.C89_ordered",
    "Blackhole.Race.C89_fails_early"
   ],
   "note": "That loggers must be made before they are called is needed: C89_fails_early. Reference counts are atomic and leave no event; destructors of loggers and configurations leave none (C77)."
  },
  {
   "property": "C90",
   "status": "partial",
   "theorems": [
    "Blackhole.Printf.C90_text_partial",
    "Blackhole.Printf.C90_fails_zero_left",
    "Blackhole.Printf.C90_fails_zero_precision",
    "Blackhole.Printf.C90_fails_dot",
    "Blackhole.Printf.C90_fails_empty",
    "Blackhole.Printf.C90_fails_sign",
    "Blackhole.Printf.C90_fails_hash",
    "Blackhole.Printf.C90_fails_long",
    "Blackhole.Printf.C90_fails_word",
    "Blackhole.Printf.C90_fails_hex_float",
    "Blackhole.Printf.C90_fails_null",
    "Blackhole.Printf.C90_fails_twice"
   ],
   "note": "Holds outside of nine kinds of conversions, in which the code prints something else (C90_fails_*): `0` with `-`, `0` with a precision, a dot alone, zero with precision zero, signs of unsigned conversions, `#` of a value that becomes zero by its conversion, `0` with infinity or NaN, `0` with %a, a null pointer. The digits of a floating-point number are a parameter: what the C library writes without a width. Wide characters and long double are not covered."
  },
  {
   "property": "C91",
   "status": "proved",
   "theorems": [
    "Blackhole.Printf.C91_any_format_string",
    "Blackhole.Printf.C91_too_few",
    "Blackhole.Printf.C91_no_position",
    "Blackhole.Printf.C91_mixed",
    "Blackhole.Printf.C91_number_of_text",
    "Blackhole.Printf.C91_text_of_number",
    "Blackhole.Printf.C91_extra"
   ],
   "note": "The rendering of floating-point numbers is a parameter that is assumed to return or throw. Memory exhaustion is not modelled here (C63)."
  },
  {
   "property": "C92",
   "status": "partial",
   "theorems": [
    "Blackhole.FmtStream.C92_stream",
    "Blackhole.FmtStream.C92_manipulators",
    "Blackhole.FmtStream.C92_padded_text",
    "Blackhole.FmtStream.C92_format_int",
    "Blackhole.FmtStream.C92_fails_copy",
    "Blackhole.FmtStream.C92_format_decimal"
   ],
   "note": "A copy of a FormatInt points into the array of the one it was copied from: size and str of the copy are undefined behaviour (C92_fails_copy). pad of a negative number with the fill character 0 puts the zeros before the minus (an example)."
  },
  {
   "property": "C93",
   "status": "partial",
   "theorems": [
    "Blackhole.ArrayWriter.C93_array",
    "Blackhole.ArrayWriter.C93_exact_fit",
    "Blackhole.ArrayWriter.C93_c_str",
    "Blackhole.ArrayWriter.C93_fails_c_str",
    "Blackhole.ArrayWriter.C93_double",
    "Blackhole.ArrayWriter.C93_fails_double",
    "Blackhole.ArrayWriter.C93_words"
   ],
   "note": "c_str throws if the text fills the array (C93_fails_c_str), and a finite floating-point number that would fill it exactly is refused (C93_fails_double): each needs one more element for a NUL."
  },
  {
   "property": "C94",
   "status": "partial",
   "theorems": [
    "Blackhole.SysError.C94_always_partial",
    "Blackhole.SysError.C94_gnu",
    "Blackhole.SysError.C94_xsi",
    "Blackhole.SysError.C94_no_memory",
    "Blackhole.SysError.C94_unknown",
    "Blackhole.SysError.C94_fails_long"
   ],
   "note": "Does not hold for codes of -1000000000 and below with a message of exactly 482 characters: one character too many is written, which fails an assertion, and without memory ends the process (C94_fails_long). For other negative codes ten digits are counted whatever they are, so that the message is dropped from 483 characters on. Memory for the std::string of the description is assumed."
  },
  {
   "property": "C95",
   "status": "partial",
   "theorems": [
    "Blackhole.Wire.C95_tcp",
    "Blackhole.Wire.C95_threads",
    "Blackhole.Wire.C95_file",
    "Blackhole.Wire.C95_file_events",
    "Blackhole.Wire.C95_file_lines",
    "Blackhole.Wire.C95_json_one_line",
    "Blackhole.Wire.C95_fails_tskv",
    "Blackhole.Wire.C95_fails_string",
    "Blackhole.Wire.C95_fails_file"
   ],
   "note": "Does not hold for TSKV and for patterns over TCP, where nothing separates two records (C95_fails_tskv, C95_fails_string), and for patterns in files if a message contains a newline (C95_fails_file). JSON: as in C54, doubles are assumed to be rendered as numbers. Write errors of the file are C62."
  },
  {
   "property": "C96",
   "status": "proved",
   "theorems": [
    "Blackhole.ValueMem.C96_values",
    "Blackhole.ValueMem.C96_safe",
    "Blackhole.ValueMem.C96_throws",
    "Blackhole.ValueMem.C96_no_leak",
    "Blackhole.ValueMem.C96_views",
    "Blackhole.ValueMem.C96_views_exist",
    "Blackhole.ValueMem.C96_view_of_moved",
    "Blackhole.ValueMem.C96_moved_text"
   ],
   "note": "What std::string and boost::variant do is modelled after libstdc++ and Boost; functions are left out, since no constructor makes a value of one (C74). C96_moved_text shows that whether a view survives a move of its value depends on the length of the text."
  },
  {
   "property": "C97",
   "status": "partial",
   "theorems": [
    "Blackhole.FmtPrint.C97_print",
    "Blackhole.FmtPrint.C97_printf_partial",
    "Blackhole.FmtPrint.C97_fails_count",
    "Blackhole.FmtPrint.C97_fails_silent",
    "Blackhole.FmtPrint.C97_stream",
    "Blackhole.FmtPrint.C97_colored_partial",
    "Blackhole.FmtPrint.C97_fails_colour_left",
    "Blackhole.FmtPrint.C97_steps",
    "Blackhole.FmtPrint.C97_threads",
    "Blackhole.FmtPrint.C97_fails_colour_mixed"
   ],
   "note": "The code breaks four parts: print says nothing about a short write (C97_fails_silent), the number that fprintf returns is an int and wraps around (C97_fails_count), print_colored leaves the colour on when it throws (C97_fails_colour_left) and mixes colours of threads (C97_fails_colour_mixed). The rest is proved. A call of the C library on a FILE* is taken as one step (POSIX)."
  },
  {
   "property": "C98",
   "status": "partial",
   "theorems": [
    "Blackhole.StringRef.C98_constructors",
    "Blackhole.StringRef.C98_compare",
    "Blackhole.StringRef.C98_operators",
    "Blackhole.StringRef.C98_total",
    "Blackhole.StringRef.C98_fails_same_order",
    "Blackhole.StringRef.C98_same_order_partial"
   ],
   "note": "All of it is proved but the last sentence: string_view compares characters as signed numbers and StringRef as unsigned ones (C98_fails_same_order), so they agree below 128 only (C98_same_order_partial)."
  },
  {
   "property": "C99",
   "status": "partial",
   "theorems": [
    "Blackhole.LockRace.C99_sinks",
    "Blackhole.LockRace.C99_sinks_replaced",
    "Blackhole.LockRace.C99_stderr",
    "Blackhole.LockRace.C99_stderr_replaced",
    "Blackhole.LockRace.C99_stdout_partial",
    "Blackhole.LockRace.C99_stdout_replaced_partial",
    "Blackhole.LockRace.C99_only_reports",
    "Blackhole.LockRace.C99_tcp",
    "Blackhole.LockRace.C99_dev",
    "Blackhole.LockRace.C99_fails_report",
    "Blackhole.LockRace.C99_fails_dev"
   ],
   "note": "Every step of Lock/Model.lean gives its acquire, release or access; happens-before is defined as in the C++ memory model for mutexes. No race on file sinks (C99_sinks), TCP sinks (C99_tcp), the standard error stream (C99_stderr), and on the standard output if nothing fails (C99_stdout_partial), also while handlers are replaced. The code violates the claim for the standard output: the root logger reports errors there without a mutex (C99_fails_report), and handlers for development and console sinks use different mutexes for it (C99_fails_dev); C99_only_reports shows that nothing else races. The C++ standard excuses both while std::cout is synchronised with C's streams. UDP sinks have no mutex and are left out: what concurrent send_to calls on one socket mean is up to boost::asio."
  },
  {
   "property": "C100",
   "status": "partial",
   "theorems": [
    "Blackhole.JsonRead.C100_reads",
    "Blackhole.JsonRead.C100_iff_partial",
    "Blackhole.JsonRead.C100_exact",
    "Blackhole.JsonRead.C100_fails_nul",
    "Blackhole.JsonRead.C100_one",
    "Blackhole.JsonRead.C100_total",
    "Blackhole.JsonRead.C100_refuses",
    "Blackhole.JsonRead.C100_build",
    "Blackhole.JsonRead.C100_build_refused"
   ],
   "note": "The parser is rapidjson's recursive reader (1.1.0), written down function by function from its source as known, since the submodule is absent; the grammar is a separate inductive specification, UTF-8 is Lean's own. C100_reads, C100_iff_partial and C100_exact: a document is read exactly if the text before the first NUL stands for it; C100_one, C100_refuses, C100_build, C100_build_refused. The code violates the claim for texts with NUL: the rest of the stream is silently ignored (C100_fails_nul). Doubles are a parameter; an escaped second half of a surrogate pair alone is accepted and encoded as it is."
  },
  {
   "property": "C101",
   "status": "proved",
   "theorems": [
    "Blackhole.Flush.C101_attribute",
    "Blackhole.Flush.C101_operations",
    "Blackhole.Flush.C101_text",
    "Blackhole.Flush.C101_silent",
    "Blackhole.Flush.C101_returned",
    "Blackhole.Flush.C101_crash",
    "Blackhole.Flush.C101_threads",
    "Blackhole.Flush.C101_unit"
   ],
   "note": "For a stream whose device works and that has no exceptions enabled (for the other cases see C80). C101_operations ties the operations to the model of C80; C101_text says what they print; C101_returned, C101_crash, C101_threads, C101_unit, C101_attribute (an attribute that ends the process); C101_silent says which calls print nothing."
  },
  {
   "property": "C102",
   "status": "proved",
   "theorems": [
    "Blackhole.Ident.C102_alive",
    "Blackhole.Ident.C102_name",
    "Blackhole.Ident.C102_closed",
    "Blackhole.Ident.C102_moved",
    "Blackhole.Ident.C102_factory"
   ],
   "note": "With the strings of libstdc++: up to 15 characters inside the object. C102_alive for all histories; C102_name, C102_closed, C102_moved and C102_factory say which identity each message has. That a factory-made sink loses its identity is the violation of C47."
  },
  {
   "property": "C103",
   "status": "partial",
   "theorems": [
    "Blackhole.Exhaust.C103_outcome_partial",
    "Blackhole.Exhaust.C103_unchanged",
    "Blackhole.Exhaust.C103_close",
    "Blackhole.Exhaust.C103_log_again",
    "Blackhole.Exhaust.C103_memory",
    "Blackhole.Exhaust.C103_fails_move",
    "Blackhole.Exhaust.C103_fails_assign"
   ],
   "note": "Everything but the moves. The two moves of a logger are declared noexcept although both may allocate: without memory they end the process (C103_fails_move for every state, C103_fails_assign says exactly when). How many allocations the containers make is a parameter."
  },
  {
   "property": "C104",
   "status": "partial",
   "theorems": [
    "Blackhole.Peer.C104_same_emit",
    "Blackhole.Peer.C104_connects",
    "Blackhole.Peer.C104_unreachable",
    "Blackhole.Peer.C104_follows",
    "Blackhole.Peer.C104_stays",
    "Blackhole.Peer.C104_had_address",
    "Blackhole.Peer.C104_udp_made",
    "Blackhole.Peer.C104_udp_fixed",
    "Blackhole.Peer.C104_fails_udp",
    "Blackhole.Peer.C104_fails_udp_first"
   ],
   "note": "All of it for TCP. A UDP sink looks its host up once, in its constructor, and takes the first address only: it never follows its host (C104_fails_udp) and does not try other addresses (C104_fails_udp_first); C104_udp_made and C104_udp_fixed say what it does."
  },
  {
   "property": "C105",
   "status": "partial",
   "theorems": [
    "Blackhole.PackLife.C105_call",
    "Blackhole.PackLife.C105_once_partial",
    "Blackhole.PackLife.C105_facade",
    "Blackhole.PackLife.C105_fails_twice",
    "Blackhole.PackLife.C105_fails_scope"
   ],
   "note": "Holds for the first call with a pack (C105_once_partial) and for the facade (C105_facade). Wrappers and scopes leave references in the pack of the caller, so the second call repeats them (C105_fails_twice) and reads freed memory once a scope is closed (C105_fails_scope). C105_call says for every history what a call shows and exactly when it is defined."
  },
  {
   "property": "C106",
   "status": "proved",
   "theorems": [
    "Blackhole.ProcName.C106_mac",
    "Blackhole.ProcName.C106_name",
    "Blackhole.ProcName.C106_first_use",
    "Blackhole.ProcName.C106_place",
    "Blackhole.ProcName.C106_title",
    "Blackhole.ProcName.C106_freed",
    "Blackhole.ProcName.C106_prints"
   ],
   "note": "Uses of the name are single steps: races between the first use and other threads that change the memory are not modelled. On macOS proc_name is taken to write a C string that fits (C106_mac)."
  },
  {
   "property": "C107",
   "status": "partial",
   "theorems": [
    "Blackhole.Lazy.C107_dev",
    "Blackhole.Lazy.C107_blocking",
    "Blackhole.Lazy.C107_string_others_partial",
    "Blackhole.Lazy.C107_string",
    "Blackhole.Lazy.C107_tskv",
    "Blackhole.Lazy.C107_json",
    "Blackhole.Lazy.C107_queue",
    "Blackhole.Lazy.C107_tskv_alone",
    "Blackhole.Lazy.C107_json_alone",
    "Blackhole.Lazy.C107_tskv_text",
    "Blackhole.Lazy.C107_json_text",
    "Blackhole.Lazy.C107_string_text_partial",
    "Blackhole.Lazy.C107_queue_text",
    "Blackhole.Lazy.C107_fails_string"
   ],
   "note": "The last sentence fails for string formatters: they give the function the writer of the whole record, and one that clears it removes what other placeholders printed (C107_fails_string). For them it is proved if functions append a fixed text (C107_string_text_partial); if they only append, all placeholders that show no function print what they should (C107_string_others_partial). Everything else is proved for all functions."
  },
  {
   "property": "C108",
   "status": "partial",
   "theorems": [
    "Blackhole.RingNest.C108_fails_nested",
    "Blackhole.RingNest.C108_returns_partial",
    "Blackhole.RingNest.C108_queue",
    "Blackhole.RingNest.C108_delivery",
    "Blackhole.RingNest.C108_room",
    "Blackhole.RingNest.C108_fails_exception",
    "Blackhole.RingNest.C108_fails_waiting"
   ],
   "note": "C108_returns_partial: nested calls can return with the policy that drops, and with the one that waits while there is room. C108_fails_exception, C108_fails_waiting (for every state in which the record and those after it have all places) and C108_fails_nested (for every capacity) are the violations. C108_queue, C108_delivery and C108_room hold for all schedules. The queue is that of C78, with its assumptions."
  },
  {
   "property": "C109",
   "status": "partial",
   "theorems": [
    "Blackhole.RingWeak.C109_includes",
    "Blackhole.RingWeak.C109_race_free",
    "Blackhole.RingWeak.C109_once",
    "Blackhole.RingWeak.C109_delivered",
    "Blackhole.RingWeak.C109_exclusive",
    "Blackhole.RingWeak.C109_calls",
    "Blackhole.RingWeak.C109_fails_full"
   ],
   "note": "The last part fails: a thread need not see that the worker has taken records, and then a record is discarded although the queue has room for two and never held more than one (C109_fails_full). Everything else is proved. The queue is the published algorithm with the memory orders of libcds, whose source is not in the repository; views as in C++11 for words that only grow."
  },
  {
   "property": "C110",
   "status": "partial",
   "theorems": [
    "Blackhole.Ring.C110_fails_starved",
    "Blackhole.Ring.C110_fails_fair",
    "Blackhole.Ring.C110_alone_partial",
    "Blackhole.Ring.C110_fails_taking"
   ],
   "note": "C110_alone_partial: at most nine steps from every reachable state in which the worker is not just taking a record out of a cell. C110_fails_taking: while it is, and all other cells are in use, a call that is made goes round in circles until the worker goes on; it is neither accepted nor discarded. C110_fails_starved: nor is there a bound if all threads go on, since another thread can take the place each time (every capacity and policy, any number of rounds); C110_fails_fair: a fair infinite execution in which the call never ends. The queue is the published algorithm, as in C78."
  }
 ]
}