import Verif.Base

/-!
# Callbacks that use the library again

What a log call locks and when it runs code of the user: the filter (and its copy constructor and destructor), the supplier
of a lazy message, the formatter with the attribute functions it calls, the filter and the colour function of a console
sink, and handlers and sinks that the user wrote. Each of these may call the library again, on the same thread and to any
depth. A thread is therefore a stack: user code at the bottom, above it a library call it made, above it a callback of this
call, and so on. Threads are interleaved step by step.

Simplifications: what is logged is left out (see `Verif.Root`), as are the scopes; loggers and configurations exist all the
time; a reference count only decides whether the destructor of a configuration runs when a pointer to it is dropped, so this
destructor is a callback that may do nothing; asynchronous sinks are not included (their queue has no mutex, see
`Verif.Async`).
-/

namespace Blackhole.Reenter

/-- The locks of the library (src/root.cpp:47, 95, src/sink/file.hpp:62, src/sink/console.cpp:100,
src/handler/dev.cpp:31). -/
inductive Mutex where
  /-- The spinlock of the `sync_t` of a logger (src/root.cpp:47-48). -/
  | pointer (logger : Nat)
  /-- The spinlock of an `inner_t` (src/root.cpp:95). -/
  | config (c : Nat)
  /-- src/sink/console.cpp:34 -/
  | console
  /-- src/handler/dev.cpp:31 -/
  | dev
  /-- The mutex of a file sink (src/sink/file.hpp:62) or of a TCP sink (src/sink/socket/tcp.hpp:22). -/
  | sink (k : Nat)
  deriving DecidableEq, Repr

/-- Code of the user (called in src/root.cpp:72-201). -/
inductive Who where
  /-- The program itself. -/
  | main
  /-- The copy constructor of the filter (src/root.cpp:178-180). -/
  | copyFilter
  /-- src/root.cpp:187 -/
  | filter (f : Nat)
  /-- The supplier of a lazy message (src/root.cpp:188). -/
  | message
  /-- A formatter with the functions of lazy attributes (src/handler/blocking.cpp:29). -/
  | format
  /-- The filter of a console sink (src/sink/console.cpp:91). -/
  | sinkFilter
  /-- The colour function of a console sink (src/sink/console.cpp:101). -/
  | colour
  /-- A sink of the user (src/handler/blocking.cpp:33). -/
  | sink
  /-- A handler of the user (src/root.cpp:193). -/
  | handler
  /-- The functions of lazy attributes in the handler for development (src/handler/dev.cpp:178). -/
  | devAttribute
  /-- The destructor of a filter that is replaced (src/root.cpp:144). -/
  | dropFilter
  /-- The destructors of the handlers, sinks and the filter of a configuration that is replaced (src/root.cpp:67). -/
  | dropConfig
  /-- The destructors at the end of `consume` (src/root.cpp:201): that of the copy of the filter, and those of a configuration
  that nobody else uses any more; the latter also at the end of `operator=` (src/root.cpp:137). -/
  | dropCopy
  deriving DecidableEq, Repr

/-- Kinds of sinks, by their locks (src/sink/console.cpp:90-109, src/sink/file.cpp:152-157,
src/sink/socket/tcp.cpp:121-134). -/
inductive SinkKind where
  /-- On a terminal or not. -/
  | console (tty : Bool)
  /-- A file or TCP sink with its own mutex. -/
  | locked (k : Nat)
  /-- Syslog, UDP and null sinks have no mutex (src/sink/syslog.cpp, src/sink/socket/udp.cpp, src/sink/null.cpp). -/
  | plain
  | custom
  deriving DecidableEq, Repr

/-- Kinds of handlers (src/handler/blocking.cpp:26-35, src/handler/dev.cpp:184-193). -/
inductive HandlerKind where
  | blocking (sinks : List SinkKind)
  | dev
  | custom
  deriving DecidableEq, Repr

/-- `root_logger_t::inner_t` (src/root.cpp:72-96); `handlers` is `const`. -/
structure Cfg where
  filter : Nat
  handlers : List HandlerKind
  deriving DecidableEq, Repr

/-- What a library call has still to do (src/root.cpp:41-201). -/
inductive Instr where
  | lock (m : Mutex)
  | unlock (m : Mutex)
  | user (w : Who)
  /-- Something that may fail by an exception but calls nobody. -/
  | io
  /-- `return source` in `consume` (src/root.cpp:58, 177). -/
  | load (l : Nat)
  /-- `return inner.filter` (src/root.cpp:179). -/
  | copy (c : Nat)
  /-- With the copy of a filter (src/root.cpp:186-187). -/
  | ask (f : Nat) (handlers : List HandlerKind)
  /-- After the filter said yes (src/root.cpp:188-199). -/
  | deliver (handlers : List HandlerKind)
  | handle (i : Nat)
  /-- The end of the `try` block of handler `i` (src/root.cpp:194-198). -/
  | caught (i : Nat)
  /-- The body of the `catch` clause. -/
  | report (i : Nat)
  /-- After the filter of a console sink said yes (src/sink/console.cpp:99-108). -/
  | emit (tty : Bool)
  /-- `return source` in `filter` (src/root.cpp:58, 141). -/
  | loadFilter (l f : Nat)
  /-- `inner.filter = std::move(fn)` (src/root.cpp:144). -/
  | setFilter (c f : Nat)
  /-- `return source` in `operator=` (src/root.cpp:58, 127). -/
  | loadAssign (dst src : Nat)
  /-- `source = std::move(value)` (src/root.cpp:67). -/
  | store (l c : Nat)
  /-- The call ends by an exception. -/
  | rethrow
  deriving DecidableEq, Repr

/-- `emit` of a sink: src/sink/console.cpp:90-109, src/sink/file.cpp:152-157, src/sink/socket/tcp.cpp:121-134. -/
def SinkKind.code : SinkKind → List Instr
  | .console tty => [.user .sinkFilter, .emit tty]
  | .locked k => [.lock (.sink k), .io, .unlock (.sink k)]
  | .plain => [.io]
  | .custom => [.user .sink]

/-- The two branches at src/sink/console.cpp:99-108. -/
def emitCode : Bool → List Instr
  | true => [.lock .console, .user .colour, .io, .unlock .console]
  | false => [.lock .console, .io, .unlock .console]

/-- `handle` (src/handler/blocking.cpp:26-35, src/handler/dev.cpp:184-193). -/
def HandlerKind.code : HandlerKind → List Instr
  | .blocking sinks => .user .format :: sinks.flatMap SinkKind.code
  | .dev => [.lock .dev, .user .devAttribute, .io, .unlock .dev]
  | .custom => [.user .handler]

/-- The loop over the handlers from number `i` on (src/root.cpp:191-199). -/
def loop : Nat → List HandlerKind → List Instr
  | _, [] => []
  | i, h :: hs => .handle i :: (h.code ++ .caught i :: loop (i + 1) hs)

/-- What an exception outside of the handlers leaves to be done when no lock is held (src/root.cpp:175-201): the copy
of the filter is destroyed, and the exception leaves the call. -/
def leave : List Instr → List Instr
  | [] => [.rethrow]
  | .user .dropCopy :: is => .user .dropCopy :: leave is
  | _ :: is => leave is

/-- What an exception leaves to be done when no lock is held (src/root.cpp:191-199): inside a handler, whose end comes
before the beginning of the next one, the `catch` clause is next. -/
def discard : List Instr → List Instr
  | [] => [.rethrow]
  | .user .dropCopy :: is => .user .dropCopy :: leave is
  | .handle _ :: is => leave is
  | .caught i :: is => .report i :: is
  | _ :: is => discard is

/-- What an exception leaves to be done (src/root.cpp:57, 66, 90): a lock that is held is released first
(`std::lock_guard`; a call never holds two). -/
def unwind : List Instr → List Instr
  | [] => [.rethrow]
  | .unlock m :: is => .unlock m :: discard is
  | .lock _ :: is => discard is
  | .user .dropCopy :: is => .user .dropCopy :: leave is
  | .handle _ :: is => leave is
  | .caught i :: is => .report i :: is
  | _ :: is => unwind is

/-- The calls a program can make (src/root.cpp:98-201). -/
inductive Api where
  | log (l : Nat)
  | filter (l f : Nat)
  | assign (dst src : Nat)
  deriving DecidableEq, Repr

/-- The beginning of `consume` (src/root.cpp:176-177), `filter` (140-141) and `operator=` (121-127). -/
def Api.code : Api → List Instr
  | .log l => [.lock (.pointer l), .load l]
  | .filter l f => [.lock (.pointer l), .loadFilter l f]
  | .assign dst src => if dst = src then [] else [.lock (.pointer src), .loadAssign dst src]

/-- A frame of a stack (src/root.cpp:98-201): user code, or a library call with its number and what it has still to
do. -/
inductive Frame where
  | usr (w : Who)
  | lib (n : Nat) (is : List Instr)
  deriving DecidableEq, Repr

/-- How user code ends (src/root.cpp:187-193): normally or with "yes", with "no", or by an exception. -/
inductive Reply where
  | yes | no | throws
  deriving DecidableEq, Repr

/-- What happens (kept for the statements), with the thread and the number of the call (src/root.cpp:98-201). -/
inductive What where
  | called (a : Api)
  /-- The call has read the pointer of this logger and goes on with this configuration. -/
  | chose (l c : Nat)
  /-- The call has read this filter of the configuration, of which it makes its copy. -/
  | copied (c f : Nat)
  /-- The filter of the configuration is this one now. -/
  | replaced (c f : Nat)
  /-- The pointer of the logger is this configuration now. -/
  | stored (l c : Nat)
  /-- The filter has answered. -/
  | verdict (f : Nat) (r : Reply)
  | handling (i : Nat)
  | handled (i : Nat)
  | failed (i : Nat)
  | returned
  | threw
  deriving DecidableEq, Repr

/-- An event with its thread and call (src/root.cpp:98-201). -/
structure Ev where
  thread : Nat
  call : Nat
  what : What
  deriving DecidableEq, Repr

/-- All threads, locks, loggers and configurations (src/root.cpp:41-101). -/
structure State where
  /-- The stack of every thread, its top first. -/
  stack : Nat → List Frame
  holder : Mutex → Option Nat
  /-- The pointer `inner` of every logger. -/
  cells : Nat → Nat
  cfgs : Nat → Cfg
  /-- The number of the next call. -/
  next : Nat
  trace : List Ev

/-- A function changed at one place, as the states of src/root.cpp:41-201 change. -/
def upd {α β : Type} [DecidableEq α] (f : α → β) (a : α) (b : β) : α → β := fun x => if x = a then b else f x

/-- All threads are in the program (src/root.cpp:98-106); loggers and configurations are arbitrary. -/
def State.init (cells : Nat → Nat) (cfgs : Nat → Cfg) : State :=
  { stack := fun _ => [.usr .main], holder := fun _ => none, cells := cells, cfgs := cfgs, next := 0, trace := [] }

/-- Thread `t` has another stack now (src/root.cpp:98-201). -/
def State.put (s : State) (t : Nat) (frames : List Frame) : State := { s with stack := upd s.stack t frames }

/-- An event is noted (src/root.cpp:98-201). -/
def State.say (s : State) (t n : Nat) (w : What) : State := { s with trace := s.trace ++ [⟨t, n, w⟩] }

/-- Destructors do not throw (src/root.cpp:62, 108, 122, `noexcept`). -/
def Who.mayThrow : Who → Bool
  | .dropFilter | .dropConfig | .dropCopy => false
  | _ => true

/-- How a library call goes on after user code that it ran (src/root.cpp:187-199). -/
def resume (r : Reply) (is : List Instr) : List Instr :=
  match r with
  | .yes => is
  | .throws => unwind is
  | .no =>
    match is with
    | .deliver _ :: is => is
    | .emit _ :: is => is
    | is => is

/-- The next step of call `n` of thread `t`, whose next instruction is `i` (src/root.cpp:41-201); `is` and `rest` are
what is below it. -/
def State.exec (s : State) (t n : Nat) (fails : Bool) (i : Instr) (is : List Instr) (rest : List Frame) : State :=
  let go (s : State) (is : List Instr) : State := s.put t (.lib n is :: rest)
  match i with
  | .lock m =>
    match s.holder m with
    | none => go { s with holder := upd s.holder m (some t) } is
    | some _ => s
  | .unlock m => go (if s.holder m = some t then { s with holder := upd s.holder m none } else s) is
  | .user w => s.put t (.usr w :: .lib n is :: rest)
  | .io => go s (if fails then unwind is else is)
  | .load l => go (s.say t n (.chose l (s.cells l)))
      (.unlock (.pointer l) :: .lock (.config (s.cells l)) :: .copy (s.cells l) :: is)
  | .copy c =>
    go (s.say t n (.copied c (s.cfgs c).filter)) (.user .copyFilter :: .unlock (.config c) :: .ask (s.cfgs c).filter (s.cfgs c).handlers :: is)
  | .ask f hs => go s (.user (.filter f) :: .deliver hs :: .user .dropCopy :: is)
  | .deliver hs => go s (.user .message :: loop 0 hs ++ is)
  | .handle i => go (s.say t n (.handling i)) is
  | .caught i => go (s.say t n (.handled i)) is
  | .report i => go (s.say t n (.failed i)) is
  | .emit tty => go s (emitCode tty ++ is)
  | .loadFilter l f => go (s.say t n (.chose l (s.cells l))) (.unlock (.pointer l) :: .lock (.config (s.cells l)) :: .setFilter (s.cells l) f :: .user .dropFilter :: .unlock (.config (s.cells l)) :: .lock (.pointer l) :: .store l (s.cells l)
      :: .user .dropConfig :: .unlock (.pointer l) :: is)
  | .setFilter c f => go ({ s with cfgs := upd s.cfgs c { s.cfgs c with filter := f } }.say t n (.replaced c f)) is
  | .loadAssign dst src => go (s.say t n (.chose src (s.cells src))) (.unlock (.pointer src) :: .lock (.pointer dst) :: .store dst (s.cells src)
      :: .user .dropConfig :: .unlock (.pointer dst) :: .user .dropCopy :: is)
  | .store l c => go ({ s with cells := upd s.cells l c }.say t n (.stored l c)) is
  | .rethrow => (s.say t n .threw).put t rest

/-- A step of thread `t` if it is in the library (src/root.cpp:41-201). A thread that waits for a lock stays where it
is. -/
def State.tick (s : State) (t : Nat) (fails : Bool) : State :=
  match s.stack t with
  | .lib n [] :: rest => (s.say t n .returned).put t rest
  | .lib n (i :: is) :: rest => s.exec t n fails i is rest
  | _ => s

/-- User code on thread `t` makes a call (src/root.cpp:98-176). -/
def State.call (s : State) (t : Nat) (a : Api) : State :=
  match s.stack t with
  | .usr w :: rest => ({ s with next := s.next + 1 }.say t s.next (.called a)).put t (.lib s.next a.code :: .usr w :: rest)
  | _ => s

/-- The answer of a filter (src/root.cpp:187). -/
def State.note (s : State) (t n : Nat) (r : Reply) : Who → State
  | .filter f => s.say t n (.verdict f r)
  | _ => s

/-- User code on thread `t` ends (src/root.cpp:187-193); the program itself does not. -/
def State.ret (s : State) (t : Nat) (r : Reply) : State :=
  match s.stack t with
  | .usr w :: .lib n is :: rest =>
    if r = .throws ∧ w.mayThrow = false then s else (s.note t n r w).put t (.lib n (resume r is) :: rest)
  | _ => s

/-- What a schedule may do next (src/root.cpp:98-201). -/
inductive Cmd where
  | call (t : Nat) (a : Api)
  | ret (t : Nat) (r : Reply)
  | tick (t : Nat) (fails : Bool)
  deriving DecidableEq, Repr

/-- One command of a schedule (src/root.cpp:98-201). -/
def State.step (s : State) : Cmd → State
  | .call t a => s.call t a
  | .ret t r => s.ret t r
  | .tick t fails => s.tick t fails

/-- Any interleaving of any number of threads, with any behaviour of the callbacks (src/root.cpp:98-201). -/
def State.run (s : State) (cs : List Cmd) : State := cs.foldl State.step s

end Blackhole.Reenter
