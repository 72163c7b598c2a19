{"id": "C01", "title": "A log call runs exactly the handlers it should, once each, in order", "statement": "A call to root_logger_t::log whose record is rejected by the current filter produces no observable effect: the lazy message supplier is not called and no handler is called. If the filter accepts, the supplier is called exactly once, after the filter, and every handler is called exactly once, in construction order, with one and the same active record.", "quantifier": "every filter predicate, list of handlers, severity, message, lazy supplier, attribute pack and set of open scopes", "why_tests_cant": "Handlers, filters and suppliers are arbitrary callables; a test fixes a few of each.", "anchors": ["src/root.cpp:root_logger_t::consume", "src/record.cpp:record_t::activate"]}
{"id": "C02", "title": "A throwing handler never disturbs the caller or the other handlers", "statement": "Whatever subset of the handlers throws (std::exception or anything else), the log call returns normally, every handler is still called once in order with the same record, and exactly one diagnostic line per throwing handler is printed to standard output, in handler order. An exception thrown by the filter or by the supplier does reach the caller and then no handler has been called.", "quantifier": "every handler list and every throwing behaviour of handlers, filter and supplier", "why_tests_cant": "The throwing subset is exponential in the number of handlers.", "anchors": ["src/root.cpp:root_logger_t::consume"]}
{"id": "C03", "title": "Attribute order: call attributes, then wrappers from the outermost call inwards, then scopes newest first", "statement": "For a call made through any chain of wrappers on a root logger with any scopes open on the calling thread, the record seen by the handlers carries exactly: the attributes passed with the call, then the attributes of each wrapper in the order the call passes through them (the wrapper called first, first), then the open scopes' attributes from the newest to the oldest. Nothing is lost, duplicated or reordered, and severity and message are unchanged.", "quantifier": "every attribute list, wrapper chain depth, and scope stack depth", "why_tests_cant": "Chains and stacks are unbounded.", "anchors": ["src/wrapper.cpp:wrapper_t::log", "src/scope/watcher.cpp:watcher_t::collect", "src/root.cpp:root_logger_t::consume"]}
{"id": "C04", "title": "Scoped attributes follow the lexical scopes of each thread", "statement": "In any interleaving of scope openings and closings by any number of threads, where each thread closes its scopes in reverse order, a record logged by a thread carries exactly the scopes that thread has opened and not yet closed, newest first; other threads' scopes never appear.", "quantifier": "every interleaving of any length of open/close/log by any number of threads", "why_tests_cant": "Interleavings are unbounded in number and length.", "anchors": ["src/scope/watcher.cpp", "src/scope/holder.cpp", "src/root.cpp:thread_manager_t"]}
{"id": "C05", "title": "Moving a logger carries the moving thread's open scopes", "statement": "After move construction or move assignment from a logger that has scopes open on the calling thread, the destination logs with exactly those scopes, later closings unwind them one by one on the destination, and the destination ends with no scope. (Claimed unconditionally this fails: scopes opened on another thread, or on the destination before a move assignment, are lost or leave a dangling binding.)", "quantifier": "every sequence of opens, closes and moves on one thread; every number of scopes open at the move", "why_tests_cant": "The state is a linked list of stack objects bound to a logger object that changes identity in mid history.", "anchors": ["src/root.cpp:root_logger_t(root_logger_t&&)", "src/root.cpp:operator=", "src/scope/watcher.cpp:rebind"]}
{"id": "C06", "title": "Concurrent reconfiguration is atomic for each log call", "statement": "Under any interleaving of log, filter() and move assignment on one logger, each log call uses the handlers of exactly one configuration that was installed at some moment during the call, and a filter that was installed on that same configuration; it never mixes the handlers of one configuration with the filter of another. A completed move assignment is never undone by a concurrent filter() (this last part is false in the code: filter() stores back the pointer it loaded).", "quantifier": "every schedule of any number of threads, any number of operations", "why_tests_cant": "Schedules cannot be enumerated by tests; the lost update needs a precise interleaving.", "anchors": ["src/root.cpp:sync_t::load", "src/root.cpp:sync_t::store", "src/root.cpp:root_logger_t::filter", "src/root.cpp:operator="]}
{"id": "C07", "title": "Record activation", "statement": "A record is inactive exactly until it is activated; severity, message, thread id and attributes never change on activation; formatted() equals the supplied text if the supplier returned one and the message itself otherwise; every handler sees an active record whose timestamp is the activation time.", "quantifier": "every record content, supplier result (including empty text) and non-epoch clock reading", "why_tests_cant": "Universally quantified over text and clock values.", "anchors": ["src/record.cpp"]}
{"id": "C08", "title": "A captured record is an owned, equal copy that survives its source and any number of moves", "statement": "Capturing a record into an owned buffer and moving that buffer any number of times (construction or assignment, into any existing buffers) yields a view equal to the original record at capture time (message, formatted text, severity, timestamp, thread id, attributes in order, with lazily computed attributes replaced by the text they produced), even if the storage behind the original record is destroyed or overwritten and the moved-from buffers are destroyed. No view ever refers to storage outside the live buffer. Every block of memory belongs to exactly one live buffer: none is leaked or freed twice, and none is left when all buffers are destroyed.", "quantifier": "every record, every sequence of moves, every later contents of foreign storage", "why_tests_cant": "Dangling views often read plausible stale bytes in a test run.", "anchors": ["src/recordbuf.hpp:recordbuf_t", "src/recordbuf.hpp:owned_pair"]}
{"id": "C09", "title": "The asynchronous sink delivers accepted events in order, at most once, unmodified", "statement": "In every schedule, the sequence of events received by the wrapped sink is a prefix of the sequence of events accepted by the queue; events of one producer keep their order; no event is delivered twice, invented or altered.", "quantifier": "every number of producers, queue capacity, schedule and overflow policy", "why_tests_cant": "Schedules cannot be enumerated.", "anchors": ["src/sink/asynchronous.p.cpp:emit", "src/sink/asynchronous.p.cpp:run"]}
{"id": "C10", "title": "Overflow policies", "statement": "With the drop policy an emit call never blocks, and the event is discarded only if the queue was full at that moment. With the wait policy no event is ever discarded by emit: the call returns only once the event is accepted. In both cases the number of queued events never exceeds exp2(factor).", "quantifier": "every schedule, capacity and event", "why_tests_cant": "Needs all schedules around the full boundary.", "anchors": ["src/sink/asynchronous.p.cpp:emit", "src/sink/asynchronous.p.cpp:drop_overflow_policy_t", "src/sink/asynchronous.p.cpp:wait_overflow_policy_t"]}
{"id": "C11", "title": "Destroying the asynchronous sink drains the queue", "statement": "When the destructor returns, every event accepted before the destructor began has been delivered to the wrapped sink. (False in the code: an event accepted between the consumer's failed dequeue and its test of the stop flag is lost. The true part: it holds in every schedule in which the consumer does not have a failed dequeue pending when the stop flag is set.)", "quantifier": "every schedule ending with destruction", "why_tests_cant": "The loss needs a two-instruction window.", "anchors": ["src/sink/asynchronous.p.cpp:run", "src/sink/asynchronous.p.cpp:~asynchronous_t"]}
{"id": "C12", "title": "Asynchronous sink construction parameters", "statement": "Construction succeeds exactly when the factor is in [2; 20], and then the capacity is 2^factor; any other factor and any overflow policy name other than \"drop\" and \"wait\" is rejected with invalid_argument. The overflow policy chosen on the builder is the one the built sink uses (false: the builder discards it, and drop() && selects wait).", "quantifier": "every factor value and policy name, every sequence of builder calls", "why_tests_cant": "The domain is all 64-bit values, all strings and all builder call sequences.", "anchors": ["src/sink/asynchronous.p.cpp:exp2", "src/sink/asynchronous.p.cpp:overflow_policy_factory_t::create", "src/sink/asynchronous.cpp"]}
{"id": "C13", "title": "Attribute values keep their type and numeric value", "statement": "An attribute constructed from any built-in integer type reads back with the same mathematical value as a signed or unsigned 64-bit integer according to the signedness of its type; reading it as any other type throws bad_cast; a view of an owned value reads the same as the value; capturing a view into an owned value and viewing it again reads the same for every non-lazy type.", "quantifier": "every value of every supported type and every requested type", "why_tests_cant": "64-bit domains.", "anchors": ["src/attribute.cpp", "include/blackhole/attribute.hpp", "src/recordbuf.hpp:into_owned_t"]}
{"id": "C14", "title": "The file sink appends every message as one line, in order", "statement": "For any sequence of emits, and with any flusher and rotation policy, the bytes handed to the opened streams, concatenated in order of opening, are exactly the messages, each followed by one newline, in emit order; nothing is dropped, duplicated or interleaved.", "quantifier": "every sequence of messages (any bytes), every flusher, every rotation behaviour", "why_tests_cant": "Unbounded histories.", "anchors": ["src/sink/file.cpp:emit", "src/sink/file.hpp:backend_t::write"]}
{"id": "C15", "title": "Flush every N events", "statement": "With a positive threshold N the stream is flushed after the N-th, 2N-th, ... write since it was opened and at no other time, so that fewer than N events are ever left unflushed after a write; with threshold zero a stream is not flushed explicitly during its first 2^64 - 2 writes.", "quantifier": "every threshold and every number of writes", "why_tests_cant": "Unbounded histories and counters.", "anchors": ["src/sink/file/flusher/repeat.hpp"]}
{"id": "C16", "title": "Flush every N bytes", "statement": "With a positive byte threshold N the number of bytes written since the last explicit flush is always less than N after a write, and a write that does not bring the running count to N does not flush. After a flush the remainder modulo N is carried over.", "quantifier": "every threshold, every sequence of write sizes (while counters do not overflow 64 bits; wrap-around stated separately)", "why_tests_cant": "Unbounded histories.", "anchors": ["src/sink/file/flusher/bytecount.hpp", "src/sink/file.hpp:backend_t::write"]}
{"id": "C17", "title": "Rotation by inode", "statement": "With the stat rotation policy, a write goes to a newly opened stream exactly when the path's current inode differs from the inode recorded when the current stream was opened, or the path does not exist; otherwise the same stream is reused; every message is written exactly once to the stream current after the check.", "quantifier": "every sequence of writes and external renames/removals/recreations of the file between operations", "why_tests_cant": "Unbounded file system histories.", "anchors": ["src/sink/file/rotate/stat.hpp", "src/sink/file.cpp:backend", "src/sink/file.cpp:create_backend"]}
{"id": "C18", "title": "Data size strings", "statement": "A flush threshold string made of a decimal number that fits in 64 bits and one of the suffixes (none, B, kB, MB, GB, KiB, MiB, GiB) denotes that number times the suffix multiplier (taken modulo 2^64); any string that is not of this form is rejected.", "quantifier": "every string", "why_tests_cant": "Infinite domain; the modular wrap is an untested corner.", "anchors": ["src/sink/file.cpp:parse_dunit"]}
{"id": "C19", "title": "Escaped literals in string patterns are reproduced exactly", "statement": "For every text, doubling each brace and using the result as a pattern produces a formatter whose output is exactly that text for every record.", "quantifier": "every text, every record", "why_tests_cant": "Infinite domain.", "anchors": ["src/formatter/string/parser.cpp:parse_literal", "src/formatter/string.cpp:string_t::format"]}
{"id": "C20", "title": "Patterns tokenise as written", "statement": "For every sequence of literal texts and placeholders, the pattern obtained by printing it is parsed back to the same sequence (adjacent literals joined), so the formatter output is the concatenation, in pattern order, of the literal texts and the rendered placeholders.", "quantifier": "every sequence of literals and placeholder names/specs", "why_tests_cant": "Infinite domain.", "anchors": ["src/formatter/string/parser.cpp", "src/formatter/string.cpp"]}
{"id": "C21", "title": "Malformed patterns are rejected", "statement": "A pattern with a lone '}', an unterminated placeholder or an invalid character in a placeholder name is rejected with an error whose position lies within the pattern; after an error the parser yields nothing more. (False in part: a pattern that ends in a lone '{' and one with an unterminated spec are accepted.)", "quantifier": "every pattern", "why_tests_cant": "Infinite domain.", "anchors": ["src/formatter/string/parser.cpp", "src/formatter/string/error.cpp"]}
{"id": "C22", "title": "Placeholder lookup: first match wins, missing required attribute is an error, optional falls back", "statement": "A generic placeholder prints the first attribute with its name in record order; if there is none, a required placeholder throws and the sink receives nothing, and an optional one prints its default.", "quantifier": "every record and every pattern", "why_tests_cant": "Infinite domain of attribute packs.", "anchors": ["src/formatter/string.cpp:visitor_t"]}
{"id": "C23", "title": "The leftover placeholder prints every attribute once", "statement": "The leftover placeholder prints each user attribute exactly once, in record order, each rendered by the configured item pattern, with the separator between consecutive items and nowhere else, and prints nothing for a record without attributes.", "quantifier": "every record, separator and item pattern", "why_tests_cant": "Infinite domain.", "anchors": ["src/formatter/string.cpp:evaluator_t"]}
{"id": "C24", "title": "Rendering of string attributes", "statement": "A string attribute is rendered in full. (False in the code: rendering stops at the first NUL byte, and a view that is not NUL-terminated is read past its end. The true part: a NUL-terminated view without embedded NUL is rendered exactly.)", "quantifier": "every string attribute and the memory that follows it", "why_tests_cant": "Over-reads are invisible unless the following memory is controlled.", "anchors": ["src/formatter/string.cpp:view_visitor", "src/formatter/json.cpp:view_visitor"]}
{"id": "C25", "title": "TSKV values cannot break the line structure", "statement": "In a TSKV line, the value of the message and of every string attribute can be recovered exactly from the output: values contain no raw tab, newline, CR, NUL or backslash-ambiguity, and unescaping inverts escaping.", "quantifier": "every byte string", "why_tests_cant": "Infinite domain.", "anchors": ["src/formatter/tskv.cpp:write_escaped_val", "src/formatter/tskv.cpp:add"]}
{"id": "C26", "title": "A TSKV record is one line whose fields can be recovered", "statement": "Splitting a formatted TSKV line at tabs yields the header followed by exactly one key=value field per constant, timestamp, built-in and attribute that is not removed, in order; splitting each field at its first unescaped '=' recovers key and value. (False when a key or a constant contains a tab, newline or a trailing backslash, which are not escaped.)", "quantifier": "every record and configuration", "why_tests_cant": "Infinite domain.", "anchors": ["src/formatter/tskv.cpp:format", "src/formatter/tskv.cpp:write_escaped_key", "src/formatter/tskv.cpp:add_constants"]}
{"id": "C27", "title": "TSKV removal and renaming", "statement": "A removed field never appears and every field not removed appears exactly once under its configured name. (False for the thread field, which ignores removal and renaming.)", "quantifier": "every configuration and record", "why_tests_cant": "Infinite domain.", "anchors": ["src/formatter/tskv.cpp"]}
{"id": "C28", "title": "JSON formatter: each field appears once at its routed place under its configured name", "statement": "The JSON tree contains message, lwp, thread, process, severity, timestamp and every attribute, each at the location selected by the routing table (or the default location) and under its renamed name, in order; routing looks at the original name; nothing else is added.", "quantifier": "every routing, renaming and record in which no route passes through a non-object field", "why_tests_cant": "Infinite domain of trees.", "anchors": ["src/formatter/json.cpp"]}
{"id": "C29", "title": "JSON unique option keeps the first occurrence of each attribute name", "statement": "With unique set, among the record's attributes exactly the first occurrence of each name is emitted, in order; without it all are. (Uniqueness of the keys of the resulting object is not implied: attributes named like built-in fields or renamed to the same name still collide.)", "quantifier": "every attribute pack", "why_tests_cant": "Infinite domain.", "anchors": ["src/formatter/json.cpp:attributes"]}
{"id": "C30", "title": "UTC calendar conversion is correct", "statement": "The built-in gmtime yields, for every non-negative time whose year fits the int that holds it, the proleptic Gregorian date, time of day and weekday of that instant, and the day of the year.", "quantifier": "every non-negative 64-bit time", "why_tests_cant": "Tests sample dates; leap-year arithmetic must hold for all.", "anchors": ["src/util/time.hpp:gmtime"]}
{"id": "C31", "title": "Timestamp patterns expand as documented", "statement": "A strftime pattern with the %f extension is rendered as the concatenation of the strftime rendering of the surrounding pieces and the six-digit zero-padded microseconds for each %f. (False when %f is preceded by an escaped percent, and for texts of 1024 or more characters.)", "quantifier": "every pattern, time and microsecond value below one million", "why_tests_cant": "Infinite domain.", "anchors": ["src/datetime/generator.linux.cpp"]}
{"id": "C32", "title": "Portable timestamp generator renders zero-padded fields", "statement": "Each directive of the portable generator prints its field zero-padded to its documented width with the documented value, and literal text is preserved in order. (False around %% and unknown directives: text before it is emitted after it; false for years after 9999, which are undefined behaviour, and before 1900.)", "quantifier": "every pattern and calendar value", "why_tests_cant": "Infinite domain.", "anchors": ["src/datetime/generator.other.cpp"]}
{"id": "C33", "title": "Configuration navigation", "statement": "Reading a configuration value through any path of keys and indices returns the value at that path if it exists, none if any step is missing, and otherwise a type-mismatch error that names the offending path; options propagate none and never dereference a missing node. (False for keys and strings that contain NUL, which are cut there.)", "quantifier": "every JSON document and path", "why_tests_cant": "Infinite domain.", "anchors": ["src/config/json.hpp", "src/config/option.cpp"]}
{"id": "C34", "title": "Registry-built loggers match their configuration", "statement": "A logger built by name has one handler per entry of that name's list, in order, each made by the factory registered last for its type (\"blocking\" when no type is given); an unregistered type is rejected; a missing name gives a logger with no handlers.", "quantifier": "every registration sequence and configuration", "why_tests_cant": "Infinite domain.", "anchors": ["src/registry.cpp", "src/handler/blocking.cpp:from"]}
{"id": "C35", "title": "Blocking handler: one rendering, every sink, in order", "statement": "Handling a record renders it once and gives every sink the same bytes in configured order; if rendering throws no sink is called; if a sink throws, the sinks before it have received the bytes and those after it have not.", "quantifier": "every formatter and list of sinks", "why_tests_cant": "Arbitrary callables.", "anchors": ["src/handler/blocking.cpp:handle"]}
{"id": "C36", "title": "Console colours", "statement": "The console sink writes the message bytes followed by a newline and nothing else when the stream is not a terminal or the colour is the default one; otherwise the message is enclosed between the colour sequence and the reset sequence. The colour of a severity is the one set last for it, falling back to the mapping in force before.", "quantifier": "every message, severity and sequence of colour settings", "why_tests_cant": "Infinite domain.", "anchors": ["src/sink/console.cpp", "src/termcolor.cpp"]}
{"id": "C37", "title": "Console filter", "statement": "A record whose filter verdict is deny leaves the stream untouched; neutral and accept both print it. The severity filter denies exactly the severities below its threshold.", "quantifier": "every severity and threshold", "why_tests_cant": "Whole integer domain.", "anchors": ["src/sink/console.cpp:emit", "src/filter/severity.cpp"]}
{"id": "C38", "title": "Console lines from concurrent threads never intermix", "statement": "For every schedule of concurrent emits, the stream content is a concatenation of whole lines, one per emit, in some order consistent with each thread's own order.", "quantifier": "every schedule and number of threads", "why_tests_cant": "Schedules cannot be enumerated.", "anchors": ["src/sink/console.cpp:emit"]}
{"id": "C39", "title": "Syslog priority", "statement": "The priority passed to syslog is the configured one for the severity when 0 <= severity < number of priorities and LOG_ERR otherwise, negative severities included. Configured numbers are taken modulo 2^32. A message below 2 GiB is passed on up to its first NUL.", "quantifier": "every severity and priority list", "why_tests_cant": "Whole integer domain.", "anchors": ["src/sink/syslog.cpp:emit"]}
{"id": "C40", "title": "TCP sink connection state", "statement": "The TCP sink writes each message in full to a connected socket or throws; after a failure it holds no socket and the next emit connects again; bytes of different messages are never mixed.", "quantifier": "every sequence of emits and network failures", "why_tests_cant": "Unbounded failure histories.", "anchors": ["src/sink/socket/tcp.cpp"]}
{"id": "C41", "title": "Compile-time patterns format like run-time patterns", "statement": "For every pattern accepted by the compile-time parser, formatting with as many arguments as placeholders gives the same text as substituting the arguments for {} and unescaping doubled braces; patterns with a lone brace are rejected.", "quantifier": "every pattern and argument list", "why_tests_cant": "Infinite domain.", "anchors": ["include/blackhole/extensions/metaformat.hpp"]}
{"id": "C42", "title": "Facade calls are lazy and pass attributes", "statement": "Through the facade, arguments are formatted only if the record passes the filter; a trailing attribute list becomes the record's attributes and is not formatted; the pattern given is the record's message.", "quantifier": "every argument list, filter and pattern", "why_tests_cant": "Infinite domain.", "anchors": ["include/blackhole/extensions/facade.hpp", "include/blackhole/extensions/facade.inl.hpp"]}
{"id": "C43", "title": "String views", "statement": "Indexing and substr return the corresponding characters or throw out_of_range, never reading outside the view; equality is equality of contents; ordering is a strict total order consistent with equality.", "quantifier": "every view, position and count", "why_tests_cant": "Infinite domain.", "anchors": ["include/blackhole/stdext/string_view.hpp"]}
{"id": "C44", "title": "Severity rendering", "statement": "A numeric severity placeholder prints the signed decimal value; a mapped one prints the configured name when 0 <= severity < number of names and the decimal number otherwise. (False for negative severities in the factory-made mapping, which prints 2^64 + severity.)", "quantifier": "every severity and map", "why_tests_cant": "Whole integer domain.", "anchors": ["src/formatter/string.cpp", "src/formatter/json.cpp:severity"]}
{"id": "C45", "title": "Integer rendering and padding", "statement": "An integer is rendered as its exact decimal (or hexadecimal) digits, so that parsing the digits gives the integer back; a width pads to exactly max(width, length) characters with the fill character on the side given by the alignment, keeping the digits contiguous and unchanged.", "quantifier": "every 64-bit integer, width, fill, alignment", "why_tests_cant": "64-bit domains.", "anchors": ["src/format.cpp", "include/blackhole/extensions/format.hpp"]}
{"id": "C46", "title": "File sink configuration", "statement": "A file sink built by any sequence of builder calls flushes by the policy of the last flush_every call (none: no explicit flushing), with byte thresholds converted to bytes modulo 2^64, and follows renames exactly if rotation was requested. A file sink made from a configuration requires a path; an unsigned flush means events, a string flush means bytes; rotate type stat enables rotation and any other type string is rejected.", "quantifier": "every sequence of builder calls, every configuration document", "why_tests_cant": "Unbounded call sequences and configuration documents.", "anchors": ["src/sink/file.cpp:builder", "src/sink/file.cpp:factory", "include/blackhole/sink/file.hpp:binary_unit"]}
{"id": "C47", "title": "Syslog identity stays in force", "statement": "While a syslog sink is alive, the identity and options its constructor gave to openlog stay in force for its messages. (False: the factory destroys a moved-from sink, whose destructor calls closelog, before it returns; and destroying one of two sinks closes the connection of the other.)", "quantifier": "every history of constructing, moving, emitting to and destroying syslog sinks", "why_tests_cant": "Needs all object histories; the effect is on process-wide libc state.", "anchors": ["src/sink/syslog.cpp:syslog_t", "src/sink/syslog.cpp:factory"]}
{"id": "C48", "title": "Socket sink configuration", "statement": "A TCP or UDP sink made from a configuration uses the configured host and port; both are required. (False for ports above 65535, which are reduced modulo 65536 instead of being rejected.)", "quantifier": "every configuration document", "why_tests_cant": "Whole 64-bit domain of ports.", "anchors": ["src/sink/socket/tcp.cpp:factory", "src/sink/socket/udp.cpp:factory"]}
{"id": "C49", "title": "Format strings expand as documented", "statement": "A format string of literal text with doubled braces and of replacement fields with documented specifications expands to its pieces in order: text unchanged and each field rendered from its own argument or from the next one; a missing argument, an unbalanced brace, a specification that does not suit its argument and a mix of numbered and automatic fields are errors. (False for numbers beyond 2^32, which can wrap, and for an empty specification before an alignment character.)", "quantifier": "every format string, argument list and specification", "why_tests_cant": "Infinite domain.", "anchors": ["src/format.cpp:BasicFormatter::format", "src/format.cpp:parse_nonnegative_int", "include/blackhole/extensions/format.hpp"]}
{"id": "C50", "title": "Empty strings print nothing", "statement": "A string argument given by pointer and size prints exactly its characters whatever follows them in memory; an empty one prints nothing. (False for empty ones: a size of zero means that the text ends at the next NUL, so an empty part of a longer text prints what follows it, and a default-constructed view is an error.)", "quantifier": "every string and the memory that follows it", "why_tests_cant": "The memory behind an empty view is accidental in tests.", "anchors": ["src/format.cpp:write_str", "src/formatter/string.cpp:visitor_t"]}
{"id": "C51", "title": "The extensions of the leftover placeholder may come in either order", "statement": "The leftover placeholder takes an item pattern, a separator, both or neither, in either order, followed by a specification; the result does not depend on the order. (False: with both given, only the pattern before the separator is accepted; the order shown in the documentation is rejected.)", "quantifier": "every separator, item pattern and specification", "why_tests_cant": "Infinite domain; the test suite only has the order that works.", "anchors": ["src/formatter/string/grammar.cpp", "src/formatter/string/parser.cpp"]}
{"id": "C52", "title": "Text in fields", "statement": "A text argument, a boolean and a character are printed in a field: at most as many characters as the precision allows, padded with the fill character to exactly the width if they are shorter, on the left side unless the alignment says right or centre; a type letter for numbers is an error.", "quantifier": "all texts, fill characters, widths, precisions and alignments", "why_tests_cant": "a unit test tries a few widths; the claim is about every combination", "anchors": ["src/format.cpp: visit_char, write_str", "include/blackhole/extensions/format.hpp: BasicWriter::write_str, fill_padding"]}
{"id": "C53", "title": "A configured string formatter is the one made from its pattern", "statement": "The formatter made from a configuration prints every record exactly as the formatter made from the configured pattern, with severities named as configured; a pattern that cannot be parsed, or members of other types, are errors; so is a missing pattern. (False for a missing pattern: it is undefined behaviour.)", "quantifier": "all configurations, patterns, lists of names and records", "why_tests_cant": "tests load one configuration; the claim is about all of them", "anchors": ["src/formatter/string.cpp: factory<string_t>::from"]}
{"id": "C54", "title": "JSON output is one line of JSON that reads back as the tree", "statement": "Whatever the configuration and the record (texts with quotes, backslashes, newlines, control characters), the formatted text is valid JSON without white space, reading it gives exactly the tree that was built, and it contains no control character except the newline at the end, which is there exactly if it was asked for.", "quantifier": "all configurations, records and trees of any depth", "why_tests_cant": "Infinite domain of trees and texts.", "anchors": ["src/formatter/json.cpp: json_t::format, builder::build, stream_t"]}
{"id": "C55", "title": "JSON builder and factory do what was asked", "statement": "After any sequence of calls a JSON builder makes a formatter with the last value of each setting; a field is routed to the least pointer whose last list names it, otherwise to the last default; a configuration stands for the calls written in it, and mutations other than timestamp and severity are errors.", "quantifier": "all sequences of calls, all configurations", "why_tests_cant": "Infinite domain of call sequences.", "anchors": ["src/formatter/json.cpp: builder<json_t>, factory<json_t>::from"]}
{"id": "C56", "title": "The default timestamp is the record's time in UTC", "statement": "Printed by the default pattern, the timestamp of every record is the date and the time of day in UTC of its creation, with six digits of microseconds, by the string formatter with its own conversion as well as by the others; different microseconds have different texts. (False before 1970.)", "quantifier": "every record and time", "why_tests_cant": "Leap years, carries and padding must hold for all times.", "anchors": ["src/formatter/string.cpp:243-260", "src/util/time.hpp: gmtime", "src/datetime/generator.linux.cpp"]}
{"id": "C57", "title": "Local timestamps show the local time and its offset", "statement": "With the local format (l) a timestamp shows the wall-clock time of the process's zone, and %z its offset from UTC. (False in summer: the zone's standard time is used; false for %z, which has the wrong sign, and in UTC is a variable never written.)", "quantifier": "every record, time and zone", "why_tests_cant": "Tests run in one zone.", "anchors": ["src/util/time.hpp: localtime", "src/formatter/string.cpp:243-252"]}
{"id": "C58", "title": "%s in a timestamp pattern is the Unix time", "statement": "The conversion %s prints the seconds since the epoch of the record. (False in UTC for processes in other zones: the fields are taken for local time.)", "quantifier": "every record, time and zone", "why_tests_cant": "Tests run in one zone.", "anchors": ["src/datetime/generator.linux.cpp:26-31"]}
{"id": "C59", "title": "No format string crashes the formatter", "statement": "Formatting any format string whatsoever with any arguments a caller can pass ends with a text or with a format error: it always ends, and never has undefined behaviour.", "quantifier": "every format string and every list of arguments", "why_tests_cant": "A fuzzer samples; the claim is about every string.", "anchors": ["src/format.cpp:BasicFormatter::format", "src/format.cpp:parse_nonnegative_int", "include/blackhole/extensions/format.hpp:BasicWriter::write_int"]}
{"id": "C60", "title": "The asynchronous sink makes progress", "statement": "Whatever the producers do, every accepted event reaches the wrapped sink within 3*capacity+2 turns of the worker thread, which never blocks; once destruction has begun the worker ends within a bounded number of turns plus three for each event still accepted. A producer waiting for a full queue has no such guarantee: it can be overtaken without end.", "quantifier": "every schedule, capacity, policy and number of producers", "why_tests_cant": "Liveness is about all infinite schedules.", "anchors": ["src/sink/asynchronous.p.cpp:run", "src/sink/asynchronous.p.cpp:emit", "src/sink/asynchronous.p.cpp:~asynchronous_t"]}
{"id": "C61", "title": "What a crash can take from a log file", "statement": "Whenever the process dies, also in the middle of an emit, the files hold a beginning of the acknowledged lines in order, followed at most by a part of the line being written. With a flush every N events fewer than N acknowledged events are lost, with a flush every N bytes fewer than N bytes, and they are always the last ones; destroying the sink loses nothing.", "quantifier": "every history of emits, every crash point, every way the stream hands over its buffer, every rotation", "why_tests_cant": "Crash points cannot be enumerated.", "anchors": ["src/sink/file.hpp:backend_t::write", "src/sink/file.cpp:backend", "src/sink/file/flusher/repeat.hpp", "src/sink/file/flusher/bytecount.hpp"]}
{"id": "C62", "title": "Write errors of the file sink", "statement": "A write error (a full disk, say) is reported by the emit in which it occurs, and once writing is possible again later messages are written. (False: after an error the stream refuses everything, so that every later emit throws; only rotation to a new file ends this.)", "quantifier": "every history and every point of failure", "why_tests_cant": "Error points cannot be enumerated.", "anchors": ["src/sink/file.hpp:backend_t::write", "src/sink/file.cpp:ofstream_factory_t::create"]}
{"id": "C63", "title": "The writer's buffer is a text of any length", "statement": "Whatever is written through a fresh writer, by whichever of its operations and in pieces of whatever sizes, and however the allocator answers: the text read back is exactly the characters of the operations that did not throw since the last clear; an operation throws only if memory is refused, and then changes nothing; no byte outside of the storage and no unwritten byte is touched. Moving a writer carries its text along. (A writer that was moved from, or that is given its own text, may be used further.)", "quantifier": "every sequence of operations, every piece size, every pattern of allocation failures, every point of a move", "why_tests_cant": "The storage moves from inside the object to the heap at 500 bytes and grows by half at a time; tests meet few of the boundaries and no allocation failures.", "anchors": ["include/blackhole/extensions/format.hpp:Buffer", "include/blackhole/extensions/format.hpp:MemoryBuffer", "include/blackhole/extensions/format.hpp:BasicMemoryWriter", "include/blackhole/extensions/writer.hpp"]}
{"id": "C64", "title": "The configured registry makes what a document describes", "statement": "With registry::configured(), every configuration entry of a documented type (console, with or without a severity filter; file; null; tcp; udp; syslog; asynchronous around any of these, including another asynchronous one) gives exactly the sink described by its members; an entry with a formatter and sinks gives the blocking handler with them, in order, whether or not it names its type; a document with an array of such entries builds the logger with exactly these handlers. A type that is not registered is rejected with an error naming it, also below asynchronous sinks and also for the development handler. Every entry is either made or rejected with an exception.", "quantifier": "every document, every logger name, every nesting depth of asynchronous sinks, every number of handlers and sinks", "why_tests_cant": "configurations nest without bound; a test tries some documents of a fixed depth", "anchors": ["src/essentials.cpp essentials", "src/registry.cpp registry::configured, default_registry_t", "src/sink/asynchronous.cpp factory<sink::asynchronous_t>::from", "src/handler/blocking.cpp factory<handler::blocking_t>::from", "src/sink/console.cpp factory<sink::console_t>::from", "src/sink/null.cpp"]}
{"id": "C65", "title": "Every accepted log call is one line in every configured file", "statement": "Take a logger built from a configuration document. After any sequence of log calls through the facade (with values, attribute lists, wrappers and scoped attributes), each file named in the document holds exactly one line per call that the logger's filter accepted, in call order: the text that the handler's formatter gives for a record with the call's severity, formatted message, time, thread and attributes. Rejected calls leave nothing. A console sink prints the same texts, subject to its own filter. A line is missing only if that handler's formatter threw, an earlier sink of the same handler threw, or the file could not be opened; other handlers never matter, and no such failure stops later calls. Each handler whose call ends with an exception puts one line about it on the standard output, in the order of the handlers.", "quantifier": "every document, every sequence of calls, every filter, every attribute, every behaviour of the file system, every number of handlers and sinks", "why_tests_cant": "the whole pipeline has unboundedly many histories; tests check single calls with mocks in place of the neighbours", "anchors": ["src/registry.cpp builder_t::build", "include/blackhole/extensions/facade.hpp logger_facade::log", "src/root.cpp root_logger_t::consume", "src/handler/blocking.cpp blocking_t::handle", "src/sink/file.cpp file_t::emit", "src/sink/console.cpp console_t::emit"]}
{"id": "C66", "title": "Widths and precisions from arguments", "statement": "A width or a precision that is a nested field is taken from the arguments: the format string expands as if the number were written out, the field taking its own argument first, then that of the width, then that of the precision. A missing argument, an argument that is not an integer, a negative one and one beyond the range of int are format errors and nothing is printed.", "quantifier": "every format string with nested fields and every argument list", "why_tests_cant": "nested fields multiply the combinations of positions, types and values; the claim is about every one", "anchors": ["src/format.cpp:BasicFormatter::format", "src/format.cpp:parse_arg_index"]}
{"id": "C67", "title": "Log calls on several threads never break or lose each other's lines", "statement": "When any number of threads log, through the same logger or several, and the handlers of loggers are replaced meanwhile, then at any moment a file sink's files hold whole lines, one per emit that was done, followed by the beginning of at most one more line; what one thread contributed is a beginning of what its calls that found the sink's handler have to say, in the order of its calls. When all calls have returned (which every fair schedule reaches) the files hold exactly one line for every accepted call of every thread that found the handler, if no sink fails and the formatter gives a text. The same holds for what console sinks print to the standard output and the standard errors, if nothing fails. Reports of the logger about failing handlers can come into the middle of a line, but even then no character is lost or doubled: the characters that each thread put on a stream are, in their order, the beginning of the lines and reports that its calls have to print, and all of them in the end.", "quantifier": "all numbers of threads, programs of log calls, schedules at the granularity of single characters, handlers with any number and order of sinks, formatters, filters and answers of the file system", "why_tests_cant": "Tests run a handful of schedules; a lock that is missing or held too shortly shows only under particular interleavings.", "anchors": ["src/sink/file.cpp: file_t::emit", "src/sink/file.hpp: backend_t::write", "src/sink/console.cpp: console_t::emit, the static mutex", "src/root.cpp: root_logger_t::consume", "src/handler/blocking.cpp: blocking_t::handle"]}
{"id": "C68", "title": "The development handler prints one whole, readable block per record", "statement": "For every record from 1970 on, the handler for development prints to the standard output: the time in UTC with microseconds, a letter for the severity (D, I, W, E, and T for every other), thread and process, the formatted message, then each attribute in order on its own line with a name cut and padded to 16 characters, and a newline. On a terminal the same is seen after removing the colour sequences, and the last colour sequence is always the reset. What several threads print through such handlers is never mixed. Not covered: a throwing attribute function leaves the line unfinished, and console sinks use another mutex, so that their lines can come into the middle of a record.", "quantifier": "all records, attribute values, terminals or not, numbers of threads and schedules at the granularity of single characters", "why_tests_cant": "The text depends on arbitrary records; the mixing depends on the schedule of threads.", "anchors": ["src/handler/dev.cpp: dev_t::dev_t, dev_t::handle, view_visitor", "src/termcolor.cpp: operator<<", "src/sink/console.cpp: the static mutex"]}
{"id": "C69", "title": "A faulty format string is refused with the message of its first fault", "statement": "For every format string that consists of well formed pieces and then possibly a fault (a single closing brace, a field without a number, a field never closed, text behind a type, a fill or a precision without its number), and for every list of arguments: formatting gives the message of the first thing wrong, in the order of the string (a field without argument, positions mixed with automatic numbering, a specification not suited to its argument, then the fault at the end), and prints nothing but that; what is accepted has positions throughout or nowhere, an argument for each field and suitable specifications.", "quantifier": "all sequences of well formed pieces with any final fault of the listed kinds, all argument lists", "why_tests_cant": "Which of several faults is reported depends on their order in an arbitrary string.", "anchors": ["src/format.cpp: BasicFormatter::format, parse_arg_index, parse_arg_name, require_numeric_argument, check_sign", "include/blackhole/extensions/format.hpp: FormatterBase::get_arg, next_arg"]}
{"id": "C70", "title": "Messages of several threads never mix on a connection or in a datagram", "statement": "However many threads emit to one TCP sink, in whatever order they are scheduled and whatever resolving, connecting and writing give, at every moment what a connection has received is whole messages of emits that returned, then at most a beginning of one more message; each thread's messages come in its order, an emit throws exactly if it would when the same emits are made one after the other, and no thread waits for ever. Every emit to a UDP sink sends its whole message as one datagram or throws and sends nothing.", "quantifier": "all numbers of threads, all message lists, all schedules, all behaviours of the network", "why_tests_cant": "Interleavings with broken connections cannot be enumerated, and tests see only those the scheduler happens to produce.", "anchors": ["src/sink/socket/tcp.cpp: tcp_t::emit, reconnect", "src/sink/socket/udp.cpp: udp_t::emit"]}
{"id": "C71", "title": "Floating point numbers are written with their sign and in their field", "statement": "Whatever texts and floating point numbers are written to one message one after the other, they come out in that order, each number as its sign (a minus for a negative one, minus zero and NaN included; else what the specification asks for) and the digits the C library gives for conversion, precision and '#', padded with the fill character to the width and placed as the alignment says, with numbers on the right by default; infinity and NaN are the words inf and nan, in capitals for a capital conversion; a conversion other than a, e, f, g and their capitals is refused.", "quantifier": "all texts, all 64-bit patterns, all specifications, all sequences of writes, all C libraries whose numbers do not begin with a space", "why_tests_cant": "The place of a number in the buffer, the padding made by the C library and by the code, and the buffer's growth interact; tests try short numbers at the start of an empty buffer.", "anchors": ["include/blackhole/extensions/format.hpp: BasicWriter::write_double, write_str, fill_padding, grow_buffer, MemoryBuffer::grow", "src/format.cpp: CharTraits<char>::format_float"]}
{"id": "C72", "title": "Asynchronous sinks over a file or a terminal", "statement": "For asynchronous sinks nested to any depth over a sink at the end, and any number of logging threads: the sink at the end is used as by a single thread, it is given accepted records only, each at most once, in the order in which the outermost sink accepted them (for each thread, the order in which it logged them), and if the inner sinks wait when full none is left out; with no error of the file system a file at the end consists of exactly one line per record given. When all destructors have returned, everything accepted before destruction began is in the file. (Violated in three ways, each proved: a record accepted while a worker is about to conclude that nothing is left is lost at destruction; an error of the sink at the end ends the process instead of reaching the logging thread or the error log; an inner sink that discards loses records which a waiting outer sink has accepted.)", "quantifier": "every nesting depth, capacity and overflow policy of each sink, every schedule of logging threads, workers and destructors, every behaviour of the file system", "why_tests_cant": "the order, the losses and the contents of the file depend on the interleaving of arbitrarily many threads and on the depth of nesting; tests run single sinks on a few schedules", "anchors": ["src/sink/asynchronous.p.cpp: asynchronous_t::emit, run, ~asynchronous_t", "src/sink/asynchronous.cpp: factory<asynchronous_t>::from", "src/sink/file.cpp: file_t::emit", "src/sink/console.cpp: console_t::emit"]}
{"id": "C73", "title": "Callbacks that use the library again", "statement": "While a call runs, it runs code of the user: filters, suppliers of lazy messages, functions of lazy attributes, filters of sinks, handlers and sinks of the user. These may call the library again (log, replace the filter, assign loggers), with any logger, to any depth and on any number of threads: they are run without any lock of the library, nobody waits for ever, every thread can come back from all its calls without anybody making another one, a nested call has ended before the outer one goes on, and every call that ends, nested or not, asked the filter of one configuration once and gave the record to every handler of this configuration one after the other, also if some of them throw. A call that reads the configuration of a logger or the filter of a configuration finds what was stored last, by whichever thread, in a callback or not. (Violated for five kinds of callbacks that run under a lock, each proved: the colour function of a console sink on a terminal, attribute functions in the development handler, copy constructor and destructor of a filter, destructors of handlers and sinks of a replaced configuration. If one of these logs to the same place the thread waits for itself for ever.)", "quantifier": "every number of threads, loggers and configurations, every list of handlers and sinks, every behaviour of the callbacks (calls, answers, exceptions, to any depth) and every interleaving", "why_tests_cant": "the nesting depth, the answers of the callbacks and the interleavings are unbounded; tests log from one place at a time", "anchors": ["src/root.cpp: root_logger_t::consume, filter, operator=, sync_t::load, sync_t::store, inner_t::apply", "src/handler/blocking.cpp: blocking_t::handle", "src/handler/dev.cpp: dev_t::handle", "src/sink/console.cpp: console_t::emit", "src/sink/file.cpp: file_t::emit", "src/sink/socket/tcp.cpp: tcp_t::emit"]}
{"id": "C74", "title": "Arguments of attributes", "statement": "Whatever is written as the value of an attribute and compiles reads back as what was meant: numbers of every built-in type with their value and as signed, unsigned or floating point, truth values, and texts in any of the usual forms (string literal, array of characters, pointer to characters, std::string, string view) as that text; and it can be read as no other type. (Violated for pointers to characters, which are stored as `true`, and for arrays of characters that are longer than their text, which are stored with the NUL and the garbage behind it; both proved for all texts. The documented lazily evaluated function values cannot be made.)", "quantifier": "every argument type and every value or text, for attributes given with the call and for those kept in scopes and wrappers", "why_tests_cant": "which constructor is chosen depends on the type of the argument, and the texts are unbounded; the tests use literals and std::string", "anchors": ["include/blackhole/attribute.hpp: value_t, view_t", "src/attribute.cpp: value_t::value_t, view_t::view_t, get"]}
{"id": "C75", "title": "Arguments of messages", "statement": "A message with format arguments is its format string with each field replaced by the argument it means: the one at its number, the first one of its name, or the next one; however many arguments there are and of whatever types, no value is lost, swapped or read as another type. Integers of every built-in type are written with their value, objects of user types as what they print, pointers as their address in hexadecimal. Names and automatic fields cannot be used together. (Violated for objects that convert to an integer, such as atomic counters: they are written modulo 2^32, also if they can print themselves.)", "quantifier": "every list of arguments of any length, named or not, every format string made of text and fields, every value of every type", "why_tests_cant": "calls of up to 15 arguments, of 16 and of more are stored in three ways, each with its own search; names, numbers and texts are unbounded; the tests use a few short calls", "anchors": ["include/blackhole/extensions/format.hpp: MakeValue, NamedArg, ArgList, IsConvertibleToInt", "src/format.cpp: ArgMap::init, BasicFormatter::get_arg, BasicFormatter::format, FormatterBase::do_get_arg"]}
{"id": "C76", "title": "Sinks under an asynchronous sink that log again", "statement": "A sink wrapped by an asynchronous sink may, while it handles a record, log into the same asynchronous sink. The calls return, the nested records are delivered after and in the same order as all others, none that was accepted is lost when the sink is destroyed, and destruction ends once the wrapped sink stops logging. With the policy that drops, a nested call always returns within two steps of its own thread. (Violated with the default policy, which waits: a nested call that finds the queue full waits for itself for ever, and so do all others and the destructor. A wrapped sink that logs in each of its calls keeps the destructor from ever returning.)", "quantifier": "every schedule of producers, consumer, nested calls and destructor, every queue capacity, both policies", "why_tests_cant": "whether the queue is full at the moment of a nested call depends on the schedule; the deadlock needs a full queue and the endless destruction an unbounded run", "anchors": ["src/sink/asynchronous.p.cpp: asynchronous_t::emit, asynchronous_t::run, asynchronous_t::~asynchronous_t, wait_overflow_policy_t::overflow"]}
{"id": "C77", "title": "Handlers live as long as somebody logs through them", "statement": "Loggers may be assigned, moved, given filters and destroyed while other threads log. The handlers and the filter of a configuration are never used after they are destroyed, are destroyed exactly once, and live exactly as long as an existing logger has the configuration or a call is working with it: a log call that has begun keeps the handlers it works with until it returns, and when all calls have returned only the configurations of existing loggers are left, none when all loggers are gone. Lock sections apart (C84), no call waits for another: whatever the other threads were doing when they stopped, every call can return by its own steps.", "quantifier": "every schedule of any number of threads that construct, use, filter, assign, move and destroy any number of loggers, calls that are rejected or end by an exception included", "why_tests_cant": "a use after free needs a particular schedule between the load of the pointer and the last handler; leaks and double frees need whole histories", "anchors": ["src/root.cpp: root_logger_t::consume, root_logger_t::filter, root_logger_t::operator=, root_logger_t::root_logger_t(root_logger_t&&), sync_t::load, sync_t::store"]}
{"id": "C78", "title": "The queue inside the asynchronous sink neither loses, doubles, mixes nor reorders records", "statement": "With any number of threads logging into an asynchronous sink at once, step by step as the lock-free array queue in it works: every record that a call got a place for is handed to the wrapped sink complete, once, and in the order in which the places were taken; no two threads ever write the same cell and none writes the cell that the worker reads; a record is discarded only if the queue was full within the call; as long as the sink exists the accepted records can be delivered and blocked calls can return; and seen from outside the sink behaves as with an ideal queue of the same capacity, whose properties (C09 to C11, C60) it therefore has - also when the copy of some record cannot be made.", "quantifier": "every schedule of the single memory accesses of any number of producers, the worker and the destructor, every capacity 2^k with k >= 1, both overflow policies, spurious failures of compare-and-swap, failures of copies", "why_tests_cant": "a lock-free queue goes wrong in interleavings of single loads and stores around the wrap of the array, which tests hit by luck", "anchors": ["src/sink/asynchronous.hpp: asynchronous_t, queue_type", "src/sink/asynchronous.p.cpp: asynchronous_t::emit, asynchronous_t::run, asynchronous_t::~asynchronous_t"]}
{"id": "C79", "title": "Behind an asynchronous sink the wrapped sink reads what the call was given, whatever becomes of the caller's storage", "statement": "A record handed to an asynchronous sink is a set of views into the caller's storage. Whatever the threads do afterwards, and even if that storage is changed or freed as soon as the call has returned, every record that the wrapped sink is given shows exactly what the views showed when the call was made: message, text, severity, timestamp, thread and attributes in order, lazy attributes as they printed within the call, together with its formatted message; the records come in the order in which the calls got their places; and no string, view or buffer is used that does not exist any more, also if copies fail or the wrapped sink throws. When the sink is destroyed, no buffer and no allocated memory of a record is left.", "quantifier": "every schedule of the single steps of any number of producers, the worker and the destructor, every change of the callers' storage that is not made under a running call, every capacity 2^k with k >= 1, both overflow policies, failing copies and a throwing wrapped sink", "why_tests_cant": "a view that outlives its storage usually still shows the old bytes in a test, and the moves through the cells only go wrong for certain lengths of strings and certain interleavings", "anchors": ["src/sink/asynchronous.p.cpp: asynchronous_t::emit, asynchronous_t::run", "src/sink/asynchronous.hpp: asynchronous_t::value_type", "src/recordbuf.hpp: recordbuf_t"]}
{"id": "C80", "title": "A failing standard stream never disturbs the program that logs", "statement": "Whatever the device behind standard output does, a log call with handlers that print there returns normally, every handler is called, the process goes on, and what is printed is a beginning of what should be printed, all of it if the device takes it.", "quantifier": "every sequence of emits by console sinks and the development handler, every list of handlers, every moment and kind of device failure, every state and exception mask of the stream, every colour", "why_tests_cant": "a full disk or a closed terminal cannot be provoked at every single write in a test, and the two ways out (an exception from the report of an error, a throwing destructor during unwinding) need a failure at one particular write", "anchors": ["src/sink/console.cpp: console_t::emit", "src/termcolor.cpp: termcolor_t::write, scope_t", "src/root.cpp: root_logger_t::consume", "src/handler/blocking.cpp: blocking_t::handle", "src/handler/dev.cpp: dev_t::handle"]}
{"id": "C81", "title": "What is printed to a standard stream does not depend on the formatting flags that the program has set on it", "statement": "Console sinks and the development handler print the same characters whatever base, width, fill, sign and alignment the program has set on std::cout or std::cerr, and leave these settings as they are.", "quantifier": "every formatting state of the stream, every colour, severity and text, every record for the development handler", "why_tests_cant": "unit tests print to streams with default flags; the flags are set elsewhere in the program, at any time", "anchors": ["src/termcolor.cpp: operator<<", "src/sink/console.cpp: console_t::emit", "src/handler/dev.cpp: dev_t"]}
{"id": "C82", "title": "Each product of a builder is what the calls on the builder say, whatever was done with the builder before", "statement": "Whatever calls are made on a builder, in lvalue or rvalue form and however often it is moved between variables, build() gives an object with the last value of each setting and all added handlers and sinks in order; after build() the builder is like a new one; only a builder that was moved away must not be used.", "quantifier": "every kind of builder (root logger, blocking and development handlers, string, JSON and TSKV formatters, file, console and asynchronous sinks), every history of calls, builds and moves, every number of variables", "why_tests_cant": "tests call a few settings once and build once; what is left in a builder after build(), and after a build() that throws, depends on how each constructor takes its arguments", "anchors": ["src/root.cpp: builder<root_logger_t>", "src/handler/blocking.cpp: builder<blocking_t>, blocking_t::handle", "src/handler/dev.cpp: builder<dev_t>", "src/formatter/string.cpp: builder<string_t>", "src/formatter/json.cpp: builder<json_t>", "src/formatter/tskv.cpp: builder<tskv_t>", "src/sink/file.cpp: builder<file_t>, create_backend", "src/sink/console.cpp: builder<console_t>", "src/sink/asynchronous.cpp: builder<asynchronous_t>"]}
{"id": "C83", "title": "A chain of partial_builder calls builds the logger it describes, however it is split into statements", "statement": "If the calls of a chain describe a list of handlers, each with its formatters and sinks, the chain gives a root logger with exactly these handlers, in order, whether it is written as one statement or split into any number of statements; it throws exactly if a pattern of a string formatter does not parse.", "quantifier": "every list of handler descriptions, every split into statements, every way to bind the intermediate objects, every set of patterns that parse", "why_tests_cant": "the number of chains and splits is unbounded, and a reference into a destroyed temporary usually seems to work in a test", "anchors": ["include/blackhole/builder.hpp: partial_builder"]}
{"id": "C84", "title": "Configuration changes of a root logger are seen whole, and calls wait only for each other's short sections", "statement": "Threads that log, set filters, assign and move root loggers see pointers and filters whole at any interleaving of their memory accesses: no two are ever in sections of the same lock, what log calls work with is what they would work with if each section was a single step, and no filter or pointer is half old and half new. The count of owners of a configuration is at every moment the number of pointers that loggers and unfinished calls have to it: a configuration in use is never destroyed, and one that was destroyed is never used again. From every situation each call can still return; a call returns by its own steps alone if nobody else stays in a section; a section takes at most four steps of the thread that is in it, and never waits for anything but code of the user.", "quantifier": "every schedule of single memory accesses of any number of threads, loggers and calls", "why_tests_cant": "a torn pointer or filter needs a preemption between two machine instructions, a deadlock a particular order of lock acquisitions", "anchors": ["src/root.cpp: root_logger_t::sync_t::load, root_logger_t::sync_t::store, root_logger_t::inner_t::apply, root_logger_t::consume, root_logger_t::filter, root_logger_t::operator=", "src/spinlock.linux.hpp: spinlock_t"]}
{"id": "C85", "title": "A wrapper shows its attributes for as long as it lives, and so do its copies and what it is moved to", "statement": "A wrapper that is constructed and then neither moved from nor destroyed adds the attributes it was given to every record, whatever happens to other wrappers. A copy of a wrapper, and a wrapper made by moving one, add the attributes of the original, independently of what happens to the original afterwards.", "quantifier": "every history of constructor calls, copies, moves and destructions of wrappers with any attributes, both kinds of containers and any sizes of the short-string buffer", "why_tests_cant": "whether a view dangles depends on where strings and elements are kept, hence on lengths, numbers, capacity and the library; a dangling view mostly still shows the old bytes", "anchors": ["include/blackhole/wrapper.hpp: wrapper_t", "src/wrapper.cpp: wrapper_t::wrapper_t, wrapper_t::log", "include/blackhole/attributes.hpp: attributes_t, attribute_list", "src/attribute.cpp: view_t::view_t"]}
{"id": "C86", "title": "How much a crash can take from a file behind an asynchronous sink", "statement": "For a file sink behind an asynchronous one, whenever and wherever the process dies (between steps, inside a write of the worker, or because of an error of the file), the files hold a beginning of the accepted lines in the order of acceptance. With a flush every n events at most the last n + 2^factor accepted lines are missing; with a flush every n bytes at most the last 2^factor + 1 lines and fewer than n bytes before them; with the waiting policy every call that returned has had its line accepted. When the destructor has returned, the files hold exactly what the worker took from the queue, which for a stop that does not hit the window of C11 includes everything accepted before it.", "quantifier": "every schedule of threads and worker, every moment and place of death, every answer of the operating system except an error while a file is closed, every factor, policy, rotation and flush threshold, all messages", "why_tests_cant": "the moment of death and the amount that a stream has handed over cannot be chosen in a test, and the bound must hold for all of them together with every schedule of the queue", "anchors": ["src/sink/asynchronous.p.cpp: asynchronous_t::emit, asynchronous_t::run, asynchronous_t::~asynchronous_t", "src/sink/file.cpp: file_t::emit", "src/sink/file.hpp: backend_t::write", "src/sink/file/flusher/repeat.hpp", "src/sink/file/flusher/bytecount.hpp"]}
{"id": "C87", "title": "How long registries, their functions and builders can be used", "statement": "A function got from a registry makes what the last registration of its type before that moment makes, however often it is copied, whatever is registered afterwards, and even when the registry is gone, as long as that itself asks no registry that is gone; no factory is called after its end, and every factory is destroyed with the last registry entry or function for it. A builder looks types up in its registry when it builds, so registrations after it was made count, and what it builds is what C34 says of them. A program over registries, functions and builders is defined if and only if it uses nothing after its end, where a builder, and a function for a factory that refers to a registry (as the library's blocking handler), use that registry at every call: a builder of a temporary registry must not outlive it.", "quantifier": "every sequence of creating and destroying registries, registering, looking up, copying, dropping and calling functions, making builders and building; every user factory, including those that ask registries; every configuration", "why_tests_cant": "a dangling reference often works in a test; owners are shared between registries and functions in ways that only all histories together cover", "anchors": ["src/registry.cpp: default_registry_t::add, default_registry_t::sink, default_registry_t::handler, builder_t::build, builder_t::handler", "include/blackhole/registry.hpp: registry_t, builder_t", "src/handler/blocking.cpp: factory<blocking_t>::from", "src/essentials.cpp: essentials"]}
{"id": "C88", "title": "Several file sinks on one path", "statement": "Any number of file sinks, in one process or in several, may have the same path, while other programs rename, remove and replace it. Nothing that is in a file is lost or overwritten; what a sink has put in a file and still holds for it are the lines of its calls for that file, each once and in order. If the sinks flush after every line and messages are shorter than the size at which a stream hands text over by itself, every file consists of whole lines; with the default flush policy, and with longer messages, lines of different sinks run into each other. A sink that looks for rotation writes each line to a file that the path has named since the call began, unless the path changes between its opening the file and its noting the inode: then it may write to the old file for ever. A sink without rotation writes everything to one file.", "quantifier": "every number of sinks, every interleaving of their calls with each other and with changes of the path, every moment at which a stream hands text over, all messages, all rotation and flush policies", "why_tests_cant": "the outcomes depend on interleavings of several processes between single system calls", "anchors": ["src/sink/file.cpp: file_t::emit, file_t::backend, file_t::create_backend, ofstream_factory_t::create", "src/sink/file.hpp: backend_t::write", "src/sink/file/rotate/stat.hpp: stat_rotate_t", "src/sink/file/flusher/repeat.hpp: repeat_flusher_t::update"]}
{"id": "C89", "title": "No data races in the root logger", "statement": "Threads that log through root loggers, replace their filters, move-construct loggers from them and move-assign them, in any number and in any interleaving, never access a part of a logger or of its configuration (the two words of the configuration pointer, the two words of the filter, the handlers) at the same time, one of them writing: of two such accesses one happens before the other, by the order of one thread, by a lock given back and then taken, or by a logger having been made before it was called. Only calling a logger whose constructor has not returned is a race.", "quantifier": "every number of threads and loggers, every schedule of single memory accesses, all calls", "why_tests_cant": "a data race need not show in any run of a test, and its absence is a statement about all interleavings", "anchors": ["src/root.cpp: sync_t::load, sync_t::store, inner_t::apply, root_logger_t::consume, root_logger_t::filter, root_logger_t::operator=", "include/blackhole/root.hpp: root_logger_t"]}
{"id": "C90", "title": "sprintf prints what C's sprintf prints", "statement": "For every format string made of text (with %% for a percent sign) and directives for integers, characters, strings, floating-point numbers and pointers (d, i, u, o, x, X, c, s, a, A, e, E, f, F, g, G, p), with any flags in any order, widths and precisions given as numbers or by *, the lengths hh, h, l, ll, j, z and t, and either all or no positions (%2$s), and for all arguments of the types C asks for, fmt::sprintf returns exactly what the C standard says sprintf prints.", "quantifier": "all format strings of that grammar, all arguments", "why_tests_cant": "flags, widths, precisions, lengths, conversions and values combine without end, and each combination has its own rule in the standard", "anchors": ["src/format.cpp: PrintfFormatter::format, parse_header, parse_flags, get_arg, WidthHandler, PrecisionHandler, ArgConverter, CharConverter, PrintfArgFormatter", "include/blackhole/extensions/format.hpp: sprintf, BasicWriter::write_int, BasicWriter::prepare_int_buffer"]}
{"id": "C91", "title": "No format string crashes sprintf", "statement": "For every format string and every list of arguments, whether they match it or not, fmt::sprintf returns a text or throws a format error: it never reads or writes outside of its data and it ends. Too few arguments, a position without an argument, positions mixed with directives that have none, a text for a number and a number for a text are format errors that say so; arguments too many are ignored.", "quantifier": "all format strings, all lists of arguments", "why_tests_cant": "a format string is arbitrary input, and undefined behaviour need not show when it happens", "anchors": ["src/format.cpp: PrintfFormatter::format, parse_header, parse_flags, get_arg, ArgConverter, PrintfArgFormatter", "include/blackhole/extensions/format.hpp: sprintf, BasicWriter::write_int, BasicWriter::prepare_int_buffer"]}
{"id": "C92", "title": "Integers written with << or FormatInt come out as decimal numerals", "statement": "For every value of every integer type: a writer's operator<< appends its decimal numeral; the manipulators bin, oct, hex and hexu append it in their base, with a minus for a negative value; pad appends it padded on the left, or for a text on the right, to exactly the width given; FormatInt gives the numeral by its str, c_str, data and size, and format_decimal writes it where it is told and moves the pointer behind it. None of these writes outside of its buffer.", "quantifier": "all integer types, all their values (also the smallest), all widths and fill characters, all texts before them", "why_tests_cant": "a digit loop can be wrong for single values, such as the smallest one, and a buffer one element too small shows only for the longest numeral", "anchors": ["include/blackhole/extensions/format.hpp: BasicWriter::operator<<, write_decimal, append_int, bin, oct, hex, hexu, pad, FormatInt, format_decimal, internal::format_decimal"]}
{"id": "C93", "title": "A writer over an array of the caller never writes outside of it, and uses all of it", "statement": "For every array, whatever its size and contents, and every sequence of writes of text, characters and fields into a fmt::ArrayWriter over it: a write whose characters fit behind those already there puts them there and changes nothing else in the array; any other write throws and changes nothing; nothing outside of the array is touched, and str and data give what was written since the last clear. c_str gives the same text with a NUL behind it.", "quantifier": "all arrays, all sequences of writes, all texts, all finite and other floating-point numbers", "why_tests_cant": "the boundary lies at every possible combination of array size and texts, and a write one element too far need not show", "anchors": ["include/blackhole/extensions/format.hpp: BasicArrayWriter, internal::FixedBuffer, Buffer::append, Buffer::push_back, Buffer::resize, BasicWriter::c_str, BasicWriter::write_double", "src/format.cpp: FixedBuffer::grow"]}
{"id": "C94", "title": "A system error always has a description", "statement": "For every error code, every message, whatever the C library says about the code and wherever memory runs out: constructing a fmt::SystemError with them or passing them to fmt::report_system_error does not fail, and the description is the message, a colon and the complete text of the C library; or, if there is no text or not enough memory for it, the message, a colon and 'error' with the number, or only the latter if the whole would not fit 500 characters.", "quantifier": "all error codes, all messages, all answers of strerror_r (GNU and XSI, of any length), all allocations that fail", "why_tests_cant": "failing allocations and long system texts cannot be produced at will, and the boundary of 500 characters depends on both lengths", "anchors": ["src/format.cpp: format_error_code, safe_strerror, format_system_error, SystemError::init, report_error, report_system_error", "include/blackhole/extensions/format.hpp: SystemError"]}
{"id": "C95", "title": "A reader can tell the records on a connection or in a file apart", "statement": "Records that are formatted as JSON, with or without a newline after each, and sent over TCP or written to a file can be read back: a reader that takes JSON values one after another from what a connection received finds, in order, exactly the records whose emit wrote to this connection and returned; and from what the files hold after a crash at any point exactly the first so many records that were written. What is left of a record that was cut off is never taken for a record. For other formatters, what is written to a file can be read back by lines.", "quantifier": "all records, all configurations of the formatter, all behaviours of the network (errors after any number of bytes, reconnections), all interleavings of threads, all crash points and all moments at which the stream hands bytes over", "why_tests_cant": "an error after a certain number of bytes or a crash at a certain moment cannot be produced at will, and whether a cut record can be mistaken for a whole one depends on every possible cut", "anchors": ["src/formatter/json.cpp: json_t::format", "src/sink/socket/tcp.cpp: tcp_t::emit", "src/sink/file.cpp: file_t::emit", "src/formatter/tskv.cpp: tskv_t::format", "src/formatter/string.cpp: string_t::format"]}
{"id": "C96", "title": "Attribute values behave like values", "statement": "An attribute value holds what was last put into it, whatever is done with other values: copies are independent, a value that was moved from is a valid value again (an empty text or the same number), assigning a value to itself does nothing. A copy or an assignment that runs out of memory throws and has changed nothing; only copies of texts that are too long to be kept in the string object can throw. No history of constructions, copies, moves, assignments and destructions reads memory that is gone, frees memory twice or leaks. A view of a value shows its contents as long as the value itself is not written, moved or destroyed.", "quantifier": "every history of operations on any number of values with any contents, every pattern of failing allocations, every size of the small string buffer and both ways of moving blocks between strings", "why_tests_cant": "histories are unbounded and a failing allocation at a given point cannot be provoked; a use of freed memory usually goes unnoticed", "anchors": ["src/attribute.cpp: value_t::value_t, value_t::operator=, value_t::~value_t, value_t::construct", "src/attribute.cpp: view_t::view_t(const value_t&)", "src/attribute.hpp: value_t::inner_t", "include/blackhole/attribute.hpp: value_t, view_t"]}
{"id": "C97", "title": "Printing to a stream", "statement": "fmt's print, printf, fprintf and print_colored give a stream exactly the text that format or sprintf returns for the same arguments. If the format string is wrong for its arguments, they throw and the stream is as it was before, colours included. The caller learns whether the stream has taken the text: printf and fprintf return the number of characters written, or a negative number if not all were. Text printed in a colour is shown in that colour and nothing else is. Threads that print to the same stream do not mix their texts or their colours. print to a standard stream in good state writes the text, and throws only what the program has asked the stream for.", "quantifier": "every format string, every list of arguments, every state of the stream and every number of characters that each call of the C library takes; every number of threads, calls and every schedule", "why_tests_cant": "formats and arguments are unbounded; short writes and interleavings of threads cannot be provoked at every point; a text of 2^32 characters is not tried", "anchors": ["src/format.cpp: fmt::print, fmt::print_colored, fmt::fprintf", "include/blackhole/extensions/format.hpp: printf, Color"]}
{"id": "C98", "title": "String references are ordered like their texts", "statement": "fmt's StringRef shows the characters it was made from: those of a C string up to its NUL, all of those of a std::string. compare and the operators ==, !=, <, <=, > and >= depend on the texts only, not on where they lie in memory; they agree with each other, with equality of the texts and with the order of dictionaries, which is total; and they read no memory outside of the texts. The library's own string_view orders the same texts in the same way.", "quantifier": "all pairs and triples of texts with any bytes and lengths, anywhere in memory", "why_tests_cant": "all texts are infinitely many; an order that is not transitive shows for a few triples only", "anchors": ["include/blackhole/extensions/format.hpp: BasicStringRef", "include/blackhole/stdext/string_view.hpp: operator<"]}
{"id": "C99", "title": "Threads that log never race on a sink", "statement": "However many threads log through however many loggers at once, and whatever fails, two accesses to the state of a file sink (its open stream, its counters) or of a TCP sink (its connection) by different threads are always ordered by the mutex of that sink, so there is no data race. The same holds for the standard streams among all console sinks, and among all handlers for development.", "quantifier": "all processes, handlers, sinks, log calls with any replies of the environment, also while handlers are replaced; all TCP messages and networks; all records of handlers for development; all schedules of any number of threads", "why_tests_cant": "A data race is undefined behaviour on some schedule that a test will hardly meet, and a run without visible harm does not show that there is none.", "anchors": ["src/sink/file.cpp:file_t::emit", "src/sink/console.cpp:console_t::emit", "src/sink/socket/tcp.cpp:tcp_t::emit", "src/handler/dev.cpp:dev_t::handle", "src/root.cpp:root_logger_t::consume"]}
{"id": "C100", "title": "Configuration texts mean what they say", "statement": "A configuration text that follows the JSON grammar (RFC 8259, with comments wherever white space may stand and with a comma allowed after the last element) gives exactly the document that it stands for: every value, every string with its escapes decoded to UTF-8, every integer of 64 bits exactly, all members in order. Every other text is refused with std::invalid_argument that names an offset within the text and a reason, and builds no logger. No text has two meanings.", "quantifier": "all texts, all documents, at any depth of nesting, whatever the conversion of numbers to doubles", "why_tests_cant": "The texts and their nesting are unbounded: tests try some documents and some errors, not every way in which comments, escapes, commas and numbers can meet.", "anchors": ["src/config/json.cpp:factory<json_t>::initialize", "src/config/json.hpp:json_t", "include/blackhole/registry.hpp:registry_t::builder"]}
{"id": "C101", "title": "What log calls printed survives the death of the process", "statement": "When a log call returns, everything that its handlers printed to a standard stream, and the reports of the logger about handlers that threw, has left the process, behind everything that was printed to the stream before. If the process dies at any point of a history of log calls, what the calls that had returned printed is on the device in full, and of the call in progress there is a beginning of what it would have printed. The handler for development has each line on the device before it evaluates the attribute of the next.", "quantifier": "all handlers and console sinks, texts, records and formatting flags, all histories of log calls of several threads, all points at which the process can die, whatever parts of its buffer the stream writes out in between", "why_tests_cant": "A crash can come between any two operations on the stream and its buffer may be written out at any time; tests end normally, and then the buffers are written out anyway.", "anchors": ["src/sink/console.cpp:console_t::emit", "src/handler/dev.cpp:dev_t::handle", "src/handler/blocking.cpp:blocking_t::handle", "src/root.cpp:root_logger_t::consume"]}
{"id": "C102", "title": "The identity of the system log is always alive", "statement": "However syslog sinks are constructed, moved, assigned, used and destroyed, the system logger never reads an identity that is gone: for each message it reads the name of the process, or the empty text after the sink with that name was moved, or it uses a name of its own. The name is in force from a construction until the next destruction of any sink; sinks made by the factory never send a message under it.", "quantifier": "all names of processes, all histories of constructing, moving, assigning, using and destroying syslog sinks, with short and long names", "why_tests_cant": "The C library keeps a pointer into the string of a sink; whether it is alive depends on the whole history of all sinks, and reading freed memory rarely fails a test.", "anchors": ["src/sink/syslog.cpp:syslog_t::syslog_t", "src/sink/syslog.cpp:syslog_t::~syslog_t", "src/sink/syslog.cpp:syslog_t::emit", "src/sink/syslog.cpp:factory<sink::syslog_t>::from", "src/procname.cpp:procname"]}
{"id": "C103", "title": "Running out of memory leaves loggers and scopes as they were", "statement": "Wherever memory runs out in whatever history, making a logger, opening a scope and a log call either do what they should or throw; after an exception every thread has the scopes on every logger it had before, and the next log call carries them. Closing a scope and destroying a logger need no memory and never fail. Moving a logger either works or throws as well.", "quantifier": "all histories of making, moving, destroying loggers, opening and closing scopes and logging by any threads, and all sets of allocations that fail in them", "why_tests_cant": "Which allocation fails is not under the control of a test, there are several in each operation, and a scope that stays linked after a failed constructor shows only in a later record.", "anchors": ["src/scope/watcher.cpp:watcher_t::watcher_t", "src/scope/watcher.cpp:watcher_t::~watcher_t", "src/scope/holder.cpp:holder_t::holder_t", "src/root.cpp:root_logger_t::root_logger_t", "src/root.cpp:root_logger_t::operator=", "src/root.cpp:root_logger_t::consume"]}
{"id": "C104", "title": "Socket sinks send to the addresses of their host", "statement": "A TCP sink connects to the first of the addresses its host has at that moment that accepts a connection, and throws exactly if there is none. When the host moves, at most the emit whose write fails is lost: the next one connects to an address the host has by then; as long as writing works the messages stay on the connection. A UDP sink sends to an address of its host as well.", "quantifier": "all histories of emits, addresses of the host, resolver and network failures between them", "why_tests_cant": "The addresses of a host change while a program runs, and which of several addresses accept connections is beyond a test.", "anchors": ["src/sink/socket/tcp.cpp:connect", "src/sink/socket/tcp.cpp:do_connect", "src/sink/socket/tcp.cpp:tcp_t::emit", "src/sink/socket/udp.cpp:udp_t::udp_t", "src/sink/socket/udp.cpp:udp_t::emit"]}
{"id": "C105", "title": "A pack of attributes can be given to several calls", "statement": "The attributes in a record are those of the lists in the caller's pack, of the wrappers and of the open scopes of that call, whatever the pack was used for before; through the facade this is so for every call.", "quantifier": "all histories of making and ending lists and wrappers, opening and closing scopes, making packs and logging with them, of any length", "why_tests_cant": "A pack collects references that dangle only after the right history of calls and scopes, and reading them often goes unnoticed.", "anchors": ["include/blackhole/attributes.hpp:attribute_pack", "src/root.cpp:root_logger_t::consume", "src/wrapper.cpp:wrapper_t::log", "src/scope/watcher.cpp:watcher_t::collect", "include/blackhole/extensions/facade.hpp:logger_facade::log"]}
{"id": "C106", "title": "The name of the process in the log", "statement": "On Linux, `{process:s}` in a pattern and the identity of a new system log sink are the last part of the path that the process was started with, as long as the program leaves the memory of its arguments alone and does not set program_invocation_short_name. Whatever that pointer is at the first use decides for ever: setting it later changes nothing. If the program overwrites the name in place with a title, patterns show the whole title and the system log as much of it as the first name was long. If the memory of the name is freed, the next use is undefined. On macOS they are the name that the system tells at the first use, or the decimal number of the process if it tells none, whatever happens later.", "quantifier": "all paths, contents of memory and histories of uses, changes of memory and changes of the pointer", "why_tests_cant": "The name is computed once per process, so a test sees one value of one process, before anything changed it.", "anchors": ["src/procname.cpp:procname", "src/formatter/string.cpp:visitor_t, ph::process<name>", "src/sink/syslog.cpp:syslog_t::syslog_t"]}
{"id": "C107", "title": "Functions of lazy attributes: when they are called and what they can change", "statement": "The value of an attribute can be a function that is called with a writer. A string formatter calls it once for every placeholder that shows the attribute, in the order of the pattern, and never if none does; a TSKV formatter once for each attribute, also for removed ones; a JSON formatter once for each attribute, with unique names only for the first of a name; a handler for development once for each attribute; an asynchronous sink once for each attribute when the record is put into its queue, and never again; so a blocking handler calls it for its formatter and once more for each asynchronous sink that takes the record. An exception of a function ends the formatting: no further function is called. Whatever the functions do and whatever state they share, the rest of the record is printed as if each of them had given a fixed text.", "quantifier": "all records, patterns, configurations of formatters, states of the program and functions: with a state, with exceptions, reading and replacing what is in the writer", "why_tests_cant": "Tests use functions that append a fixed text; what others see and destroy depends on the formatter and on the attributes beside them.", "anchors": ["src/formatter/string.cpp:view_visitor, evaluator_t, visitor_t", "src/formatter/tskv.cpp:add_attributes", "src/formatter/json.cpp:apply, attributes", "src/recordbuf.hpp:into_owned_t, recordbuf_t::recordbuf_t", "include/blackhole/attribute.hpp:view_t::function_type", "include/blackhole/extensions/writer.hpp:writer_t"]}
{"id": "C108", "title": "Functions of attributes that run while an asynchronous sink takes their record", "statement": "An asynchronous sink calls the functions of lazy attributes while the call has its place in the queue already. Such a function may log to the same sink, as often as it likes and to any depth, or throw, and the sink goes on working: the wrapped sink gets every record that has a place, in the order of the places, a nested record after the one whose function logged it; nested calls return; an exception costs only the record it belongs to. While functions run, nothing from their record on is delivered, and at most as many further records as the queue has places, less one, get a place. (Violated by exceptions: nothing behind the record is ever delivered and the destructor hangs; and by the default policy, which waits: when the record and those after it fill the queue, a nested call never returns, and neither does any other. A function that logs as many records as the queue has places is enough.)", "quantifier": "all capacities, policies, numbers of threads, schedules, depths of nesting and points at which functions throw", "why_tests_cant": "Whether a call hangs depends on how full the queue is at the moment of a nested call, and whether records are lost on later histories of any length.", "anchors": ["src/sink/asynchronous.p.cpp:asynchronous_t::emit, asynchronous_t::run", "src/recordbuf.hpp:into_owned_t", "src/root.cpp:root_logger_t::consume"]}
{"id": "C109", "title": "The queue of the asynchronous sink on memory that is not sequentially consistent", "statement": "Also if loads return old values, as the memory orders of the queue allow: the threads that log and the worker never access a record in the queue without one access happening before the other; the wrapped sink receives the records that were accepted, complete, in order and each once; every call is accepted, discarded or throws; and with the policy to drop, a record is discarded only if the queue was full within the call.", "quantifier": "all capacities, policies, numbers of threads, schedules, failing copies, and values returned by loads that are no older than what the thread knows", "why_tests_cant": "Which old values a load returns depends on the processor and on timing; tests on x86 see almost none of them.", "anchors": ["src/sink/asynchronous.hpp:asynchronous_t::queue", "src/sink/asynchronous.p.cpp:asynchronous_t::emit, asynchronous_t::run"]}
{"id": "C110", "title": "A log call through an asynchronous sink that discards does not wait for other threads", "statement": "With the overflow policy that discards, a log call returns after a bounded number of its own steps, whatever the other threads, the worker included, do: whether they go on or stand still wherever they are.", "quantifier": "all capacities, all schedules, all reachable states of the queue and of all threads, at which all but one thread stop", "why_tests_cant": "A thread that stands still in the few instructions between two accesses is a matter of the scheduler; tests cannot stop a thread there, and a call that waits only until the scheduler goes on looks merely slow.", "anchors": ["src/sink/asynchronous.p.cpp:asynchronous_t::emit, drop_overflow_policy_t", "src/sink/asynchronous.hpp:asynchronous_t::queue"]}
