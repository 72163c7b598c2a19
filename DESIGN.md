# Formal model of blackhole in Lean 4

The subject is the C++ logging library in `/repo` (3Hren/blackhole, 1.x line).
The code is read as text; nothing in `/repo` is built or run.
The model and its theorems live in `/verif/lean/Verif`.

## Layout

Every area has up to four modules:

* `Verif/<Area>/Model.lean` - the functions of the code, each with a citation `file:lines`.
* `Verif/<Area>/Spec.lean` - the English property as a small definition that does not mention the model.
* `Verif/<Area>/Lemmas.lean` - helper lemmas.
* `Verif/<Area>/Props.lean` - the property theorems, with a concrete witness (`example`) beside each.

`MANIFEST.json` maps each property of `properties.jsonl` to its theorems.
`seeded/LOG.jsonl` records the wrong programs the theorems were tried against.
The script that wrote it logged only the edits that broke a theorem of the named claim. The edits that did not were added
afterwards from the outputs that were kept: they carry an `outcome` field, and a `note` saying whether a later run of the
same edit was caught. Outputs of some early batches were not kept, so the log may lack some of their survivors, and the
share of caught edits in it is not a rate of detection.

## Trusted base

* Lean 4.33.0's kernel.
* Axioms: at most `propext`, `Classical.choice`, `Quot.sound` (checked by `#print axioms`; the list per theorem is in AXIOMS.md).
* The reading of the C++ text. Each definition cites the lines it models, and says where it simplifies.
* Outside code, which is a parameter of the model or is given the contract written here:
  * user callables: filters, handlers, sinks, formatters, lazy suppliers and lazy attributes;
  * `std::mutex`, spinlocks and `std::atomic` give atomic sections and sequential consistency (for the spinlocks of the root logger, atomic sections are proved from single accesses: C84);
  * `cds::container::VyukovMPSCCycleQueue` (submodule absent from the checkout) is a bounded FIFO with atomic `enqueue_with`/`dequeue_with` in `Async`; `Ring` has its array and its single memory accesses instead, after the published algorithm (D. Vyukov's bounded queue in the form of libcds), and proves that this is the contract (C78);
  * rapidjson (submodule absent): `Pointer` parsing, `GetWithDefault`, `AddMember` (no search for duplicates), the compact `Writer` and the recursive `Reader` (version 1.1.0, with comments and trailing commas; `Verif/JsonRead/Model.lean`) are modelled from their documented behaviour (`Verif/Json/Model.lean`, first part); the rendering of doubles is a parameter; lengths are not cut to 32 bits;
  * the C++ rules of overload resolution, as far as `Attr/Args.lean` and `FmtArgs/Overload.lean` state them (LP64);
  * Boost.Spirit.Qi: the grammars are modelled as PEG matching, Qi's documented semantics;
  * `snprintf` for floating point values without a width gives non-empty text that does not begin with a space (its digits are a parameter); the overlapping `std::copy` in `write_double` moves characters as `memmove` does;
  * Boost.Variant/Optional/Asio, iostreams, `strftime`, `mktime`, `stat`, `syslog`, sockets.
* Bytes are modelled by Lean `Char` (every theorem holds for all characters, so for all bytes).

Undefined behaviour (assertion failure, empty `optional::get`, read past a view, dangling reference) is a
distinct outcome in the model, never a default value.

## What is modelled and what is not

Modelled, function by function (the citations are in the definitions):

| Code | Model |
|---|---|
| `src/root.cpp`, `src/wrapper.cpp`, `src/scope/*`, `src/record.cpp`, `include/blackhole/{root,wrapper,logger,record,message}.hpp` | `Root`, `Scope`, `RootConc` (concurrent calls), `Spin` (the same, access by access), `Exhaust` (without memory), `PackLife` (packs of references), `Race` (what happens before what), `Lifetime` (reference counts), `Wrapper` (copies and moves of wrappers), `Lock`, `Reenter` (callbacks that call the library), `Rec` |
| `src/attribute.cpp`, `src/attribute.hpp`, `include/blackhole/{attribute,attributes}.hpp` | `Attr`, `ValueMem` (values as objects in memory) |
| `src/recordbuf.hpp` | `RecordBuf` |
| `src/sink/asynchronous*.{cpp,hpp}` | `Async`, `Ring` (the queue in it), `RingWeak` (the same on weak memory), `AsyncMem` (the memory of the records in it), `Chain` (over other sinks), `AsyncReenter` (a wrapped sink that logs again), `RingNest` (functions of attributes that log again), `Durable` (over a buffered file, with crashes) |
| `src/sink/file.*`, `src/sink/file/*` | `File` (`Model`: logic, `Disk`: stream buffers and write errors, `Factory`: configuration), `Together` (several sinks on one path) |
| `src/sink/console.*`, `src/termcolor.cpp`, `src/filter/{severity.cpp,zen.hpp}` | `Console`, `Ostream`, `Flush` (buffers and crashes) |
| `src/sink/syslog.*`, `src/sink/socket/*`, `src/sink/null.cpp` | `Syslog`, `Ident` (its name in memory), `Socket`, `Peer` (addresses), `Essentials` |
| `src/handler/blocking.*`, `src/handler/dev.cpp` | `Registry`, `Pipeline`, `Shared` (several threads), `LockRace` (their accesses to the sinks), `Dev`, `Ostream` |
| `src/registry.cpp`, `src/essentials.cpp`, `src/config/{json.hpp,json.cpp,option.cpp}` | `Registry`, `RegLife` (who owns what), `Essentials`, `Config`, `JsonRead` (the parser of texts) |
| `src/formatter/string.cpp`, `src/formatter/string/*` | `Pattern` (grammar, parser, tokens), `StringFmt` |
| `src/formatter/{json,tskv}.cpp` | `Json`, `Tskv`, `Lazy` (all formatters, with functions of lazy attributes that have a state) |
| `src/datetime/generator.{linux,other}.cpp`, `src/util/time.hpp` | `Date`, `DateOther`, `Time` |
| `src/format.cpp`, `include/blackhole/extensions/format.hpp` (the part that `format`, `sprintf`, `MemoryWriter::write`, `operator<<` of a writer, `FormatInt`, `ArrayWriter`, `SystemError`, `StringRef`, `print`, `fprintf` and `print_colored` run) | `Fmt`, `FmtArgs`, `Printf`, `FmtStream`, `FmtPrint`, `StringRef`, `Buffer`, `ArrayWriter`, `Double`, `SysError` |
| `include/blackhole/extensions/{facade,facade.inl,metaformat,writer}.hpp` | `Facade`, `MetaFormat`, `Rec` |
| `include/blackhole/stdext/string_view.hpp` | `StringView` |
| `src/procname.cpp` | `ProcName` (`Model`: Linux, `Mac`: macOS) |
| `include/blackhole/builder.hpp` and the builders of all areas as objects | `Builder` |

Not modelled:

* which double rapidjson makes of a number in a configuration text (a parameter of `JsonRead`);
* of fmt: wide strings, how a `long double` is written, Windows;
* the name of the process is a parameter of all areas but `ProcName`;
* `src/datetime/stream.hpp` (passes characters on, used by nobody), `src/spinlock.*.hpp` (taken or not taken in one step) and `std::mutex` (atomic sections), `src/hack/addressof.hpp`, `src/memory.hpp`, `src/util/{deleter,optional,unimplemented}.hpp` (library replacements);
* C++ features without behaviour of their own: forward declarations, virtual destructors, explicit instantiations (`src/{handler,logger}.cpp`, `src/formatter/mod.cpp`, `src/config/{factory,node}.cpp`, `src/scope/manager.cpp`);
* memory exhaustion outside of `Buffer`, `Double` and `Exhaust` (loggers and scopes); weak memory orders outside of the queue of asynchronous sinks (`RingWeak`; `Spin` and the models above it run on sequentially consistent memory; C89 shows that the root logger has no data races, for which the C++ standard then promises sequential consistency; that promise itself is not modelled); macOS branches (except the timestamp generator for other systems, `DateOther`, and the name of the process, `ProcName.Mac`).

## Plan per property

| Property | Model | Proof |
|---|---|---|
| C01, C02, C07 | `Root`: `consume` over abstract callables that append to an event trace and may throw | induction over the handler list |
| C03 | `Root`/`Wrapper`: chain of wrappers as a list, scopes as a linked list | induction over the chain and the list |
| C04, C05 | `Scope`: heap of watcher objects, managers as per-thread pointers, `open/close/move` steps | representation invariant by induction over the history; `Scope/Exact`: a program without moves is defined exactly if it obeys a stack discipline per thread (`C04_exact`) |
| C06 | `RootConc`: small-step machine, one step per lock section | invariant over all reachable states; a concrete schedule for the lost update |
| C08 | `RecordBuf`: heap with addresses, views as (place, length), moves allocate and free; the choices the standard and boost leave open (short string capacity, elements inside the object or in a block, reuse or swap of blocks on assignment, contents of a moved-from pack) are a parameter `Lib` of every theorem | refinement to a value snapshot; every block of the heap has exactly one owner, by induction over the operations |
| C09-C11 | `Async`: small-step machine of producers, consumer, destructor over a bounded queue | history invariant; concrete schedule for the shutdown loss |
| C12 | `Async`: builder and factory functions | case analysis over all factors and names |
| C13 | `Attr`: variants, constructors over `BitVec` widths | algebraic laws |
| C14-C17 | `File`: state machine over streams, flushers and a file-system oracle | induction over histories |
| C18 | `DUnit`: the parser, with failure outcomes | characterisation theorem against a grammar spec |
| C19-C21 | `Pattern`: the hand-written parser as a state machine with positions | round trips, rejection theorems |
| C22-C24, C44 | `StringFmt`: token visitors over records | functional correctness against a small spec |
| C25-C27 | `Tskv`: escaping and line building | inverse function, field splitting |
| C28, C29 | `Json`: tree building, routing, renaming | refinement to a list of placed fields |
| C30 | `Time`: `gmtime` arithmetic | correctness against a day-counting calendar |
| C31 | `Date`: tokenizer of the Linux generator | round trip; `Date/Exact`: unique cut of every pattern at its marks, and what is printed |
| C56, C57, C58 | `Date`: the callers of the generator, over a C library given by its documented behaviour | composition of C20, C30 and C31 |
| C59 | `Fmt` as for C49, with undefined behaviour as an outcome of every step | each parsing step is defined and leaves no more text than it got; induction on what is left |
| C32 | `DateOther`: portable generator and its parser | per-directive theorems, order |
| C33 | `Config`: nodes, options, cursors | agreement with path lookup |
| C34, C35 | `Registry`, `Blocking` | induction over registrations and configuration lists |
| C36-C38 | `Console`, `Termcolor`, `Filter` | equations; invariant over schedules |
| C39 | `Syslog` | case analysis |
| C46 | `File/Factory` | last-call specification, path lookup |
| C47 | `Syslog`: object histories and the process-wide connection | induction over histories; factory as witness |
| C48 | `Socket`: factory | path lookup |
| C40 | `Socket`: connection state machine with a network oracle | induction over histories |
| C41 | `MetaFormat`: literal splitting | agreement with a reference substitution |
| C42 | `Facade`: overload selection and laziness | on top of `Root` |
| C43 | `StringView` | equations |
| C45 | `Fmt`: digit generation and padding of the bundled cppformat | equality with `Nat.toDigits`, reading back |
| C49 | `Fmt`: the parser of format strings | print/parse round trip, rejection theorems |
| C51 | `Pattern`: the grammar of the leftover placeholder | print/parse round trip; what is accepted is of that form (`Pattern/Accept`); witness for the other order |
| C52 | `Fmt`: text arguments | functional correctness against `textField` |
| C54 | `Json`: the writer | a reader of JSON texts inverts it |
| C55 | `Json`: builder and factory | induction over calls; equivalence of configurations and calls |
| C53 | `StringFmt`: the factory | equivalence with the formatter made from the pattern; witness for a missing pattern |
| C50 | `Fmt`: string arguments with the memory behind them | case analysis |
| C60 | `Async`: the same transition system, counting the turns of the worker | a measure that goes down with every turn of the worker and never goes up otherwise |
| C61 | `File/Disk`: streams with buffers, an oracle for every call on a stream, crash as an outcome of each call | invariant: files and buffer together are the acknowledged lines, and the buffer lies within the last ones counted by the flusher |
| C62 | `File/Disk` as for C61 | evaluation of one emit; induction over the continuation |
| C63 | `Verif/Buffer`: storage inside of the object and on the heap with explicit bounds, grow, append, push_back, resize, reserve, clear, move; allocation failures as an oracle | representation invariant by induction over the operations; violations by direct computation from the invariant |
| C64 | `Essentials`: the registrations of `essentials`, the factories over the models of each area, the asynchronous factory recursive over the size of its node | `Describes` says by the values in the document which sink they describe (recursive for asynchronous sinks); induction over it, then over the lists of sinks and handlers; rejection by case analysis; negation with an incomplete entry |
| C65 | `Pipeline`: the models of the facade, the root logger, blocking handlers, the three formatters, file and console sinks composed over a sequence of calls | induction over the calls with the per-call lemma: the root calls every handler once with the accepted record or none (C01, C02, C42), a handler gives its text to its sinks in order until one throws; files by C14, configuration by C64, patterns by C20/C53; `Pipeline/Formats.lean` has the texts of JSON and TSKV, `Pipeline/Reports.lean` the lines about failed handlers |
| C66 | `Fmt/Dynamic.lean`: format strings with nested fields, their expansion | induction over the pieces; the stages of a specification with an arbitrary continuation |
| C67 | `Lock/Model.lean`: threads, mutexes, emits in small steps; `Shared/Model.lean`: log calls as such programs | invariant of the machine for all schedules (`Lock/Lemmas.lean`), termination measure (`Lock/Progress.lean`), simulation by programs without failures (`Lock/Plain.lean`); refinement to C14 and C65; `Shared/Snapshots.lean` and `Shared/Replaced.lean`: each call finds its own handlers; `Shared/Others.lean`: other sinks; witness for the error reports in `Shared/Cases.lean`; `Shared/Characters.lean`: the streams character by character when sinks fail |
| C68 | `Dev/Model.lean`: the tokens as pieces of text; `Dev/Threads.lean`: jobs on the lock machine | `Dev/Props.lean` (expansion through C49/C52/C56, relation between painted and plain pieces), `Lock/Text.lean` (texts under one mutex are never mixed; under two they can be) |
| C69 | `Fmt/Model.lean` (format, parseArg, parseSpec) | `Fmt/Errors.lean`: the list of complaints of a specification about an argument, independent of the parser; induction over the pieces |
| C70 | `Socket/Threads.lean`: emits as actions on the lock machine, one for each byte | `Lock/Serial.lean` (emits of one kind under one mutex), refinement to C40 in `Socket/ThreadsProps.lean` |
| C71 | `Double/Model.lean`: the function on the writer's buffer, character by character, with the C library's digits as a parameter | the buffer's array followed through every write (`Double/Lemmas.lean`, `Place.lean`, `Write.lean`), `Double/Props.lean` |
| C72 | a chain of asynchronous sinks as a recursive state; the worker of one is producer 0 of the next and takes the steps of the call itself | invariant by induction over schedules and over the depth, using the invariants of C09–C11 for each sink and C14 for the file |
| C73 | threads as stacks of user code and library calls over the locks, with exceptions and RAII | invariant by induction over executions: what a stack holds is determined by its top; a well-founded measure gives the way back; a relation between remaining instructions and future events gives completeness |
| C74 | the constructors, the argument types and C++ overload resolution as a ranking | case distinction over the types, C13 for the integers, lists for the texts |
| C75 | `MakeValue` with the overload resolution of its constructors and of its functions `type`, packed and unpacked `ArgList`, `ArgMap`, the argument part of the format loop | the two stores refine a list of arguments (induction over slots), the map refines a search of that list, induction over the pieces of the format string, whose faults are listed from left to right (`Errors`, `Dynamic`); case distinction over the types of arguments (`OverloadProps`) |
| C76 | `Async` with a consumer that stays inside the wrapped sink and makes calls of its own there | invariants by induction over schedules (conservation and order, nothing nested left at exit, a stuck state that every step keeps, always something to deliver), induction over the capacity for the reachable deadlock and over the queue for the end of destruction |
| C77 | `Lifetime`: explicit reference counts, one step for each copy, move and release of a pointer and for each look into the object | the count is the number of holders (invariant by induction over schedules, with pointers in transit as a parameter) |
| C78 | `Ring`: the array with sequence numbers, every shared access a step, records written and read in two steps | invariant over schedules (positions between dequeue and enqueue have different cells), simulation of `Async`, ranking functions for progress, an invariant for the place that is lost; infinite fair executions (`Ring.Fair`): delivery is inevitable by induction over the places before it; the destructor returns by a measure that every step of the worker lowers |
| C79 | `AsyncMem`: the steps of `Ring` run the constructors, moves and destructors of `RecordBuf` at addresses of cells, temporaries and the worker's variable; foreign storage changes between steps | invariant over schedules that ties the ideal contents of the queue to the abstract buffers of C08, plus the invariant of C78; nothing is left after the destructor |
| C80 | `Ostream`: `std::ostream` with state, exception mask, `unitbuf` and a device that fails at arbitrary points; colours, console sink, blocking and development handlers and the catch clauses of the root logger on top | induction over operations and jobs; case analysis for the exact condition of `std::terminate`; witnesses |
| C81 | `Ostream`: formatting state of the stream; insertion of text, numbers, `bool`; `write` | the printed text as a function of the formatting state, for all states; equality with C36 and C68 for plain ones; witnesses |
| C82 | `Builder`: builders as data with calls and a `build` that moves out, variables with null pointers | products as a function of the history, by induction over it; programs with moves by simulation; witnesses |
| C83 | `Builder/Chain`: the class templates as one type of objects, calls that return values or references, temporaries that die at the end of a statement | grammar of chains, simulation in both directions |
| C84 | `Spin`: lock, two words, reference count, unlock as single steps of every thread | simulation by `RootConc` (a step shows when the lock is given back), progress by a measure; counts by an invariant over loggers and threads (`Spin/Counts`) |
| C85 | `Wrapper`: objects, strings and containers with addresses; construct, copy, move, destroy | refinement of a specification without addresses (who holds what the views look at) |
| C86 | `Durable`: the queue of `Async` in front of the buffered file sink of `File/Disk` | invariant over schedules (files + buffers + hand + queue = accepted lines), with the policies' invariants of C61 |
| C87 | `RegLife`: registries, factories with counts of owners, functions, builders; factories as scripts that ask registries | refinement of a specification without owners (tables of values), with the invariant that counts are the numbers of holders; definedness characterised exactly |
| C88 | `Together`: any number of sinks that take turns between the calls of the operating system and the stream; append mode; streams that hand over at any time; a path that changes at any time | invariants by induction over runs; the failures by concrete runs, the last for every number of further calls |
| C89 | `Race`: the trace of locks and word accesses of `Spin`, and happens-before as in the C++ standard | invariant by induction over the schedule: whoever may access a word next knows of all earlier accesses to it; the need of the hypothesis by a concrete run |
| C90 | `Printf`: the parser, converters and visitors of `PrintfFormatter`; `write_double` from `Double` | refinement to a specification of C's directives: parser lemmas for each part of a directive, digits by the lemmas of `Fmt`, floating-point numbers by C71, induction over the pieces; negations by concrete calls |
| C91 | `Printf` | bounds of each parser step, the buffer of `write_int` by the lemmas of `Fmt`; the errors by the parser lemmas of C90 |
| C92 | `FmtStream`: writes to the end of a text, the array of `FormatInt` as memory with addresses | digits by the lemmas of `Fmt`; induction over the digits for the array; negation by a concrete copy |
| C93 | `ArrayWriter`: the buffer of `Buffer` with the array of the caller inside and a `grow` that throws | invariant of buffer and page by induction over the calls; numbers by running `write_double` on it |
| C94 | `SysError`: the loop over buffer sizes, the writes with failing allocations, `noexcept` | invariant of `Buffer` for the writes; induction over the doublings of the buffer; digits by the lemmas of `Fmt`; negation for all such codes and messages |
| C95 | no model of its own: `Json`, `Socket` and `File.Disk`; the reader is a separate specification | reading does not depend on what follows, by induction over the depth; hence no strict beginning of an object is a value; induction over the records; C40, C54, C61, C70 |
| C96 | `ValueMem`: objects, blocks with an owner and a size, strings with small buffers, allocations that fail, views as addresses | invariant (each block has one owner) and refinement of a map from values to contents, by induction over the history; frame lemmas for views |
| C97 | `FmtPrint`: a `FILE*` that takes a part of each call, calls of fmt as sequences of calls of the C library, threads that take turns between them; over `FmtArgs`, `Printf` and `Ostream` | case analysis; a small terminal that shows colours; induction over the schedule; the failures for all formats that throw and all short writes |
| C98 | `StringRef`: references into blocks of memory, reading outside is an outcome | induction over the common length, against the order of lists of Lean's library |
| C99 | Lock: threads and mutexes step by step; LockRace: the acquire, release and access events of the steps | happens-before over the trace; invariant: whoever holds a mutex knows all earlier accesses under it |
| C100 | JsonRead: the reader behind src/config/json.cpp with error codes and offsets | soundness and completeness against an inductive grammar, by induction on the derivation and on the recursion of the parser |
| C101 | Flush: a stream with a buffer that is written out at any time, on top of Ostream | invariant of device and buffer by induction over the steps; every log call ends with a flush |
| C102 | Ident: sinks with the storage of their strings, the pointer of openlog | invariant over all histories: the storage behind the pointer belongs to a live sink, since every destructor takes the pointer away |
| C103 | Exhaust: the operations of Scope with their allocations, each answered by an oracle | the invariant of Scope, and that a thread with open scopes has its node in the map of thread-specific pointers, for all histories and oracles |
| C104 | Peer: the emits of both sinks with addresses instead of numbers, and a network that is another one at each call | C104_same_emit ties it to the model of C40; induction over histories |
| C105 | PackLife: lists of attributes as objects with a lifetime, packs as lists of references | what earlier calls left in a pack, by induction over histories; witnesses for all packs, wrappers and scopes |
| C106 | ProcName: memory as blocks of characters, the pointer of the C library, the static view | what is shown for all histories, by induction; the case of a title overwritten in place; `{process:s}` from C20; macOS: the static array holds the name from the first use on |
| C107 | Lazy: functions with a state that replace what is in the writer; the three formatters, the copy for queues and the handlers for development and blocking with them, every call noted | calls by induction over patterns and attributes; texts by refinement to the formatters of C20, C25 and C27 with a record in which the functions have been called |
| C108 | RingNest: the queue of C78 with calls that functions make while a call has its place | refinement to C78; an invariant that no step leaves for the waiting call; a schedule for every capacity by induction; the nested call and the worker alone suffice to return |
| C109 | RingWeak: Ring with views: each thread has what it knows at least of each word, each releasing store carries the view of its thread, loads return any value that is not older | C78's invariant is kept by stale loads, because words only grow; ownership of cells passes along stores and loads, by induction over schedules; every schedule of Ring is one of RingWeak |
| C110 | `Ring` (the queue of C78), only one producer runs | the next cell is free or the queue is full and looks so, by C78's invariant, then case analysis over where the call is; for the failure an invariant over any number of steps |

## Known disagreements between the code and the properties

Each is proved in the model (negation with a concrete witness) and the true part is kept as a `_partial` theorem.
The list is completed as the proofs are written.

* C05: moves do not rebind scopes of other threads; move assignment drops the destination's own scopes.
* C06: `filter()` can undo a concurrent move assignment (`src/root.cpp:140-148`).
* C11: the consumer tests `stopped` after a failed dequeue (`src/sink/asynchronous.p.cpp:126-132`), so an event can be lost at shutdown.
* C12: `builder<asynchronous_t>` ignores its overflow policy, and `drop() &&` selects `wait` (`src/sink/asynchronous.cpp:41-56`).
* C21: a trailing `{` and unterminated specs are accepted; `{process:` and others at the end of the pattern violate an assertion (`src/formatter/string/parser.cpp`).
* C24: strings are rendered as C strings (`src/formatter/string.cpp:84-86`).
* C26, C27: keys and constants are not fully escaped in TSKV; the thread field ignores removal and renaming.
* C28: a route through a field overwrites it, a route onto a field or an invalid pointer violates an assertion, and `/` (documented as the root) is a member with an empty name (`src/formatter/json.cpp:183-193`).
* C29: attributes named like built-in fields still make duplicate keys; README.md says that the last duplicate is kept, the code keeps the first in record order.
* C30: times before 1970 are taken for 64-bit unsigned ones (`src/util/time.hpp:12`).
* C31, C32: `%%` is mishandled by both timestamp generators.
* C32: years above 9999 are written in front of a buffer, years before 1900 are garbage (`src/datetime/generator.other.cpp:45-55, 86-92`).
* C31: 1024 or more characters of text disappear (`src/datetime/generator.linux.cpp:20-24`).
* C56: before 1970 the microseconds are negative and printed as 64-bit unsigned (`src/formatter/string.cpp:238-240`).
* C57: `localtime` subtracts the zone's standard offset and stores it with the wrong sign (`src/util/time.hpp:85-92`); `gmtime` does not store it at all.
* C39: a message of 2 GiB or more is read past its end or cut, because its length becomes an `int` (`src/sink/syslog.cpp:59`).
* C41: `formatter<N>::format` has a run-time `if` whose branches are both instantiated, so a call needs one more argument for every doubled brace than the pattern has fields (`include/blackhole/extensions/metaformat.hpp:185-197`); there is no `operator<<` for `bool`, which is written as `1` or `0` where the run-time formatter writes `true` or `false`.
* C42: `write_all` gets `pattern.data()` and reads up to the next NUL, beyond the end of a view into a longer string (`include/blackhole/extensions/facade.inl.hpp:19-23`); the overload for compile-time patterns passes an empty message, and a trailing attribute list compiles there and is lost (`include/blackhole/extensions/facade.hpp:119-133`).
* C58: `%s` passes UTC fields to `mktime`, which takes them for local time (`src/datetime/generator.linux.cpp:26-31`).
* C62: the stream of the file sink throws on `badbit` and nobody clears it, so one write error silences the sink until the file is rotated (`src/sink/file.cpp:84-105`, `src/sink/file.hpp:41-47`); an error of the implicit close at rotation is told to nobody.
* C33: keys and strings are cut at NUL (C strings of rapidjson).
* C47: the syslog factory destroys a moved-from sink, whose destructor closes the connection (`src/sink/syslog.cpp:25-27, 70, 81`).
* C48: ports are reduced modulo 65536.
* C44: negative severities print as unsigned in factory-made mappings (`src/formatter/string.cpp:388-394`); `{severity:s}` throws for a severity without a name.
* C51: `{...:{, :s}{{name}={value}:p}s}`, the order shown in README.md, is rejected: the rule of the pattern is tried first and matches the separator (`src/formatter/string/grammar.cpp`).
* C53: a configuration without `pattern` dereferences an empty optional (`src/formatter/string.cpp:380`).
* C49: `parse_nonnegative_int` misses wraps (`src/format.cpp:270-286`); `{:}` looks at the character behind the brace (`src/format.cpp:1071-1104`).
* C50: a string argument of size 0 is taken for a C string (`src/format.cpp:788-810`).
* C28: in a pointer that begins with `#` the characters `!$&'()*+,;=:@?`, which may stand in the fragment of a URI, violate an assertion unless they are written as percent codes (RapidJSON; C28_fails_fragment).
* C28: a number in a route can make an array: a later route through a name replaces the array with an object (C28_fails_mixed), an element that only fills a gap cannot take fields, which violates an assertion (C28_fails_filler), and `-` is a new place for every field (C28_fails_append).
* C12, C64: the factory of the asynchronous sink dereferences an empty optional when `factor` or `overflow` is not there.
* C63: a moved-from buffer of more than 500 characters keeps its size without its text, and appending a buffer to itself reads freed memory after growth.
* C67: reports of errors in handlers go to the standard output with no lock, and can come into the middle of a sink's line.
* C68: the development handler and the console sinks have separate mutexes, and an exception leaves an unfinished line (`src/handler/dev.cpp`).
* C71: `{:*<9}` of a floating point number is padded with spaces (the C library pads and only leading spaces are replaced); `{:^600}` prints unwritten memory, because `grow_buffer` moves only the text that counts already and the digits stand behind it (`include/blackhole/extensions/format.hpp:566-583, 2494-2502`); infinity and NaN are padded like text; a number of 2^31 characters makes the loop grow the buffer until there is no memory (2513-2515).
* C72: an exception of the sink under an asynchronous one leaves the worker thread and ends the process
  (`src/sink/asynchronous.p.cpp:138-141`), where a synchronous sink's exception is reported by the root logger; a sink
  inside a chain that discards loses records that the waiting outermost sink has accepted; the loss of C11 can happen at
  every depth.
* C73: the colour function of a console sink (`src/sink/console.cpp:99-103`), attribute functions in the development handler
  (`src/handler/dev.cpp:184-193`), copy constructors and destructors of filters (`src/root.cpp:140-146, 178-180`) and the
  destructors of a replaced configuration (`src/root.cpp:61-68`) run under a lock; if they log to the same place, the thread
  waits for itself for ever. Sinks under an asynchronous sink are the subject of C76.
* C74: there is no constructor from `const char*`, so a pointer converts to `bool`; the constructor for literals also takes
  any `char x[N]` and keeps `N - 1` characters; `value_t` has no constructor for the function type that its documentation
  lists (`include/blackhole/attribute.hpp:46-60, 110-142, 234-276`).
* C75: `MakeValue` stores an object that converts to an integer as an `int`, so `std::atomic<std::uint64_t>` and enumerators
  of wide enumerations are written modulo 2^32 (`include/blackhole/extensions/format.hpp`, `IsConvertibleToInt`, lines 1105-1109). By design of fmt,
  `int8_t` and `uint8_t` are written as characters, and a field with a name cannot follow `{}` or come before it.
* C76: with the policy that waits, which is the default, a sink under an asynchronous sink that logs to it again while the
  queue is full waits for itself for ever, and everybody else with it (`src/sink/asynchronous.p.cpp:105-119, 133-137`); one
  that logs in each of its calls keeps the loop that waits for an empty queue going and the destructor never returns
  (`src/sink/asynchronous.p.cpp:85-88, 126-132`).
* C78: the record is copied inside the lambda given to the queue, after its place is claimed. If the copy throws
  (`src/sink/asynchronous.p.cpp:105-107`), the place is never filled: the worker waits for it for ever, later records are
  accepted until the queue is full and never delivered, and the destructor does not return.
* C80: with exceptions enabled on `std::cout`, the report of a handler's exception (`src/root.cpp:194-198`) throws out of the log call and
  the remaining handlers are not called; a coloured write whose text fails throws from the destructor of the colour scope during unwinding
  (`src/termcolor.cpp:19-21`), which ends the process.
* C81: colours are printed with `operator<<` (`src/termcolor.cpp:81-83`), so `std::hex` or a pending width changes the escape sequences; the
  development handler prints its numbers the same way (`src/handler/dev.cpp:59-80, 143-145`).
* C82: `build()` moves out of the builder's data and puts nothing back: a second root logger has an empty filter (`src/root.cpp:228-231`), a
  second TSKV formatter has no timestamp (`src/formatter/tskv.cpp:325-327`), a second file sink has null policies
  (`src/sink/file.cpp:202-209`), a second console sink has an empty colour mapping (`src/sink/console.cpp:166-168`), a second asynchronous
  sink wraps nothing, even if the first `build()` threw (`src/sink/asynchronous.cpp:54-56`). `build()` of the JSON builder is `const` and
  moves all the same, except for the two switches (`src/formatter/json.cpp:500-502`).
* C83: `partial_builder::build` and `mapping` return references into the object they are called on (`include/blackhole/builder.hpp:89-92,
  136-144`), which is mostly a temporary.
* C84: `sync_t::store` gives up the replaced configuration, and `apply` the replaced filter, while the spinlock is held
  (`src/root.cpp:66-67, 90-91, 144`): destructors of handlers, sinks and filters run there (an asynchronous sink joins its thread), and
  every other thread that logs through the logger spins meanwhile. A destructor that itself logs through the logger never returns.
* C85: `wrapper_t` has implicit copy and move constructors (`include/blackhole/wrapper.hpp:10-13`), which copy the views member by
  member: a copy's views are of the original's attributes, and dangle once that is destroyed or its short strings are moved; those of a
  moved wrapper dangle if it keeps short strings inside a `small_vector`.
* C86: without a `flush` section the default policy flushes every 2^64 - 1 events, so a crash takes everything that the stream has not
  handed over by itself (`src/sink/file.cpp:35-37`); behind an asynchronous sink, an error of the file ends the process
  (`src/sink/asynchronous.p.cpp:135-141`), and the queue is lost with it.
* C87: a builder keeps a reference to its registry and does not own it (`src/registry.cpp:54-57`), as do the library's factories that need
  other components (`include/blackhole/handler/blocking.hpp:30-36`): `auto b = registry::configured()->builder<json_t>(in);` compiles, and
  `b.build("root")` is then undefined.
* C88: sinks with the same path know nothing of each other. With the default flush policy (`src/sink/file.cpp:172`) each stream hands
  over whenever its buffer is full, in the middle of a line (`C88_fails_default`); a message of 1024 bytes or more reaches the file
  before its newline even with `flush: 1`, because `write` and `put` are two calls (`src/sink/file.hpp:42-43`, `C88_fails_long`; 1024
  is the constant of the GNU library and is not modelled). The inode to compare with is that of the path some time after the file was
  opened, not that of the open file (`src/sink/file.cpp:144-145`, `src/sink/file/rotate/stat.hpp:23-28`): if the path is replaced in
  between, the sink writes to the old file for ever (`C88_fails_race`).
* C90: `sprintf` differs from C's in what it does with the flag `0` (`-` and a precision do not override it, `src/format.cpp:998-1002`), a
  dot without a number (no precision instead of zero, 983-992), zero with precision zero (`0` instead of nothing), the flags `+` and space
  of unsigned conversions (a sign, `include/blackhole/extensions/format.hpp:2300-2309`), and `#` (decided before the conversion,
  `src/format.cpp:995-996`). An `int` printed with `%ld` is not extended: -1 gives 4294967295 (385-392). A `char` printed with
  `%Ld` is printed as a number and again as a character (515-537). The flag `0` puts zeros behind `inf` and `nan` (996-1000; C pads
  with spaces) and before the `0x` of `%a` (C puts them behind it). A null pointer is `0x0` (glibc: `(nil)`; C leaves it open).
* C92: `FormatInt` has the copy constructor that the compiler writes. It copies the pointer to the first digit, which
  points into the array of the original; `size` and `str` of the copy subtract pointers into different arrays
  (`C92_fails_copy`). `pad(-5, 4, '0')` writes `00-5`.
* C93: `c_str` of an `ArrayWriter` whose text fills its array throws (`C93_fails_c_str`), and a floating-point number
  whose text would fill the array exactly is refused, because `snprintf` needs room for a NUL (`C93_fails_double`).
* C94: `format_error_code` counts the digits of the code as an `unsigned` number: ten for every negative code, although
  codes of a billion and more below zero have eleven characters. With a message of 482 characters the description has 501
  and the assertion behind it fails (`C94_fails_long`).
* C95: TSKV and patterns put nothing between two records on a TCP connection; in a file, a message with a newline that is
  formatted with a pattern looks like two records.
* C75: an object that both prints itself and converts to a number is written as a truncated `int`, not as what it prints; integers of 128 bits have no overload and are written modulo 2^32; a `char32_t` is written as a number; `unsigned char*` does not compile although `const unsigned char*` and arrays of `unsigned char` do (`include/blackhole/extensions/format.hpp:978-981, 1064-1066, 1094-1107`; `C75_fails_types`, `C75_overloads`).
* C96 (not a violation of it): `view_t::operator!=` is declared (`include/blackhole/attribute.hpp:299`) and defined nowhere, so a program that uses it does not link.
* C97: `print` ignores what `fwrite` returns, so the caller does not learn of a full disk (`C97_fails_silent`).
* C97: `fprintf` returns `static_cast<int>(size)`: -1 after 2^32 - 1 characters that were all written (`C97_fails_count`).
* C97: `print_colored` sets the colour before it formats; if the format string is wrong, the exception leaves the terminal
  in that colour (`C97_fails_colour_left`). Two threads can print both texts in one colour (`C97_fails_colour_mixed`).
* C98: `StringRef` orders bytes from 128 on after the others, `string_view` before them (`C98_fails_same_order`).
* C99: the root logger prints its reports to `std::cout` without any mutex, and handlers for development and console sinks
  have different mutexes for it, so these accesses are not ordered (`C99_fails_report`, `C99_fails_dev`). That is a data race
  if the program has called `std::ios::sync_with_stdio(false)`.
* C100: a NUL in a configuration stream ends the text: whatever follows is ignored without an error (C100_fails_nul), although the stream is documented to be read until its end.
* C103: the move constructor and the move assignment of `root_logger_t` are declared `noexcept` but allocate: the one a new
  `sync_t`, both a node for the thread-specific pointer. Without memory the process ends (`C103_fails_move`, `C103_fails_assign`).
* C104: a UDP sink resolves its host once, in the constructor, and keeps the first address for ever (`C104_fails_udp`,
  `C104_fails_udp_first`); the TCP sink resolves it at every connection and tries all addresses.
* C105: `log` puts references to the lists of wrappers and scopes into the caller's pack: a pack that is used again repeats them
  (`C105_fails_twice`) and dangles once a scope is closed or a wrapper is gone (`C105_fails_scope`).
* C106: a title written over the name in place is shown whole by formatters, but cut to the length of the first name in the system log; a name in memory that is freed later is read all the same.
* C107: string formatters give the function of a lazy attribute the writer of the whole record: one that clears it removes what was
  printed before (`C107_fails_string`). TSKV formatters call the functions of removed attributes, too.
* C108: the copy of a record is made in its place in the queue. A function of an attribute that throws then stops the asynchronous sink
  for ever (`C108_fails_exception`); one that logs to the same sink can wait for itself for ever (`C108_fails_waiting`,
  `C108_fails_nested`). The function is called there even if the formatter does not show the attribute.
* C109: a call need not see that the worker has taken records, because the queue loads the dequeue position with relaxed order. With the
  policy to drop, a record is then discarded although the queue has room and was never full (`C109_fails_full`).
* C110: the queue is not lock-free. While the worker stands between taking a record and giving its cell back, and all other
  cells are in use, a call of the policy that discards neither gets a place nor discards its record; it goes round in circles
  until the worker runs again (`C110_fails_taking`). Nor is there a bound while all threads go on: another thread can take the
  place each time (`C110_fails_starved`), for ever in a fair execution (`C110_fails_fair`).
