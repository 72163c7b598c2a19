import Verif.Essentials.Model
import Verif.Facade.Model

/-!
# From a log call to the sinks

Puts the areas together: a call of the facade (`Facade`), the root logger with its filter and handlers (`Root`), blocking
handlers (`Registry`), formatters (`StringFmt`, `Json`, `Tskv`) and sinks (`File`, `Console`), for a sequence of calls.
The calls come one after the other; concurrent ones are in `RootConc`.
-/

namespace Blackhole.Pipeline

open Essentials (Formatter)
open Root (HOut)

/-- What stays the same while the process runs (parameters of src/formatter/string.cpp, src/formatter/json.cpp and
src/formatter/tskv.cpp): `env` without its `lwp`, the rendering of time, the shortest representation of doubles for
JSON, and what functions among attributes write. -/
structure Process where
  env : Rec.Env
  clock : StringFmt.Clock
  dtoa : Nat → Str
  eval : Nat → Except Nat Str

/-- The text of a record or an attribute is a view into a string or a literal (simplification
(include/blackhole/record.hpp, include/blackhole/attribute.hpp): always one that is followed by a NUL). -/
def viewOf (s : Str) : Rec.View := .at s ['\x00']

/-- The value of an attribute as a formatter reads it (src/attribute.hpp:18-25). -/
def valueOf (p : Process) : Attr.View → Rec.Value
  | .null => .null
  | .bool b => .bool b
  | .sint v => .sint v.toInt
  | .uint v => .uint v.toNat
  | .double bits => .double bits.toNat
  | .string s => .string (viewOf s)
  | .function id => .function (p.eval id)

/-- The record as a formatter reads it: `formatted`, `severity`, `timestamp`, `tid`, `attributes`
(src/record.cpp:40-74). -/
def recordOf (p : Process) (r : Root.Rec) : Rec.Record :=
  { message := viewOf r.formatted, severity := r.severity, timestamp := r.timestamp, tid := r.tid,
    pack := r.attributes.map fun l => l.map fun a => (viewOf a.1, valueOf p a.2) }

/-- `formatter_t::format` of the library's formatters, on thread `lwp` (called in src/handler/blocking.cpp:29). -/
def render (p : Process) (lwp : Nat) (r : Rec.Record) : Formatter → Except Rec.Exc Str
  | .json d => Json.format { p.env with lwp } p.clock p.dtoa d r
  | .string f => f.format { p.env with lwp } p.clock r
  | .tskv d => Tskv.format { p.env with lwp } p.clock d r

/-- A sink at work (src/essentials.cpp:28-34). Asynchronous sinks, sockets and syslog have their own areas; here is
only kept what they were given. -/
inductive Sink where
  | file (path : Str) (s : File.Sink)
  | console (s : Console.Sink) (printed : Str)
  | null
  | other (s : Essentials.Sink) (given : List Str)

/-- A sink as it comes from its factory (src/handler/blocking.cpp:78-97). -/
def start : Essentials.Sink → Sink
  | .file path s => .file path s
  | .console s => .console s []
  | .null => .null
  | s => .other s []

/-- What one `emit` of one sink meets (src/handler/blocking.cpp:33): the answers of the file system and the text of
its error; whether the stream is a terminal; how the `emit` of another kind of sink ends. -/
structure Reply where
  file : File.Oracle
  what : Str
  tty : Bool
  other : HOut

/-- `sink_t::emit` (src/handler/blocking.cpp:33). -/
def Sink.emit (rep : Reply) (severity : Int) (text : Str) : Sink → Sink × HOut
  | .file path s =>
    match s.emit rep.file text with
    | (s, .ok) => (.file path s, .ok)
    | (s, _) => (.file path s, .throwStd rep.what)
  | .console s printed => (.console s (printed ++ s.output rep.tty severity text), .ok)
  | .null => (.null, .ok)
  | .other s given => (.other s (given ++ [text]), rep.other)

/-- The loop over the sinks (src/handler/blocking.cpp:31-34), starting with sink number `j`: an exception ends it. -/
def emitAll (reps : Nat → Reply) (severity : Int) (text : Str) : Nat → List Sink → List Sink × HOut
  | _, [] => ([], .ok)
  | j, s :: rest =>
    match s.emit (reps j) severity text with
    | (s, .ok) =>
      match emitAll reps severity text (j + 1) rest with
      | (rest, o) => (s :: rest, o)
    | (s, o) => (s :: rest, o)

/-- `blocking_t` (src/handler/blocking.hpp:13-15). -/
structure Handler where
  formatter : Formatter
  sinks : List Sink

/-- `blocking_t::handle` (src/handler/blocking.cpp:26-35). Exceptions of users' functions need not be derived from
`std::exception`. -/
def Handler.handle (p : Process) (lwp : Nat) (reps : Nat → Reply) (h : Handler) (r : Rec.Record) :
    Except UB (Handler × HOut) :=
  match render p lwp r h.formatter with
  | .error (.ub u) => .error u
  | .error (.fmt (.ub u)) => .error u
  | .error (.fmt (.format m)) => .ok (h, .throwStd m)
  | .error (.logic m) => .ok (h, .throwStd m)
  | .error (.user _) => .ok (h, .throwOther)
  | .ok text =>
    match emitAll reps r.severity text 0 h.sinks with
    | (sinks, o) => .ok ({ h with sinks }, o)

/-- A log call through the facade (include/blackhole/extensions/facade.hpp:94-159): where and when it is made, on
which logger, with which filter set, what it logs, and what the sinks meet meanwhile (by the number of the handler and
of the sink). -/
structure Call where
  world : Scope.World
  thread : Nat
  lwp : Nat
  logger : Nat
  now : Int
  filter : Root.Filter
  lg : Root.Logger
  severity : Int
  pattern : Facade.Pattern
  args : List (Facade.FArg FmtArgs.Passed)
  replies : Nat → Nat → Reply

/-- A handler as the root logger calls it (src/root.cpp:193, src/handler/blocking.cpp:26-35). (If formatting is
undefined behaviour, so is the whole call: `apply`.) -/
def Handler.root (p : Process) (c : Call) (i : Nat) (h : Handler) : Root.Handler := fun _ r =>
  match h.handle p c.lwp (c.replies i) (recordOf p r) with
  | .ok (_, o) => o
  | .error _ => .throwOther

/-- Handlers with their numbers (src/root.cpp:191). -/
def roots (p : Process) (c : Call) : Nat → List Handler → List Root.Handler
  | _, [] => []
  | i, h :: hs => h.root p c i :: roots p c (i + 1) hs

/-- The changes to the sinks by the handler calls of a log call (src/root.cpp:191-199). -/
def apply (p : Process) (c : Call) : List (Nat × Root.Rec) → List Handler → Except UB (List Handler)
  | [], hs => .ok hs
  | (i, r) :: rest, hs =>
    match hs[i]? with
    | none => .error .outOfBounds
    | some h =>
      match h.handle p c.lwp (c.replies i) (recordOf p r) with
      | .error u => .error u
      | .ok (h, _) => apply p c rest (hs.set i h)

/-- What the call finds (src/root.cpp:176-201). -/
def Call.env (p : Process) (c : Call) (hs : List Handler) : Root.Env :=
  { world := c.world, thread := c.thread, logger := c.logger, inner := ⟨c.filter, roots p c 0 hs⟩, now := c.now }

/-- One log call (include/blackhole/extensions/facade.hpp:94-159, src/root.cpp:176-201). -/
def step (p : Process) (hs : List Handler) (c : Call) : Except Facade.Failure (List Handler) :=
  match Facade.log p.env.fd (c.env p hs) c.lg c.severity c.pattern c.args with
  | .error f => .error f
  | .ok res =>
    match apply p c (Root.calls res.trace) hs with
    | .error u => .error (.ub u)
    | .ok hs => .ok hs

/-- A sequence of log calls (include/blackhole/extensions/facade.hpp:94-159, src/root.cpp:176-201). -/
def run (p : Process) : List Handler → List Call → Except Facade.Failure (List Handler)
  | hs, [] => .ok hs
  | hs, c :: cs =>
    match step p hs c with
    | .error f => .error f
    | .ok hs => run p hs cs

/-- A handler as it comes from the configuration (src/handler/blocking.cpp:20-24); there are only blocking ones. -/
def Handler.start : Registry.Handler Essentials.Sink Formatter Empty → Handler
  | .blocking fmt sinks => ⟨fmt, sinks.map Pipeline.start⟩
  | .custom h => nomatch h

end Blackhole.Pipeline
