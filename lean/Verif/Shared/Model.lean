import Verif.Lock.Model
import Verif.Pipeline.Model

/-!
# Log calls on several threads

Threads of a process call a logger at the same time. Filtering, formatting of the message and rendering by the formatter
work on the thread's own data and on things that do not change (src/root.cpp:175-200, src/handler/blocking.cpp:27-29), so
the threads meet only in the sinks: each file sink has its mutex (src/sink/file.cpp:155), all console sinks together have
one (src/sink/console.cpp:34). The root logger reports errors of handlers on the standard output, without a mutex
(src/root.cpp:193-198). Between locking and unlocking everything is done in small steps, which the steps of other
threads can come between.

Simplifications: here the logger's handlers are not replaced meanwhile; `Snapshots.lean` has calls that each find their own
handlers. Sinks other than files and consoles
have their own areas; here their emits are one step each. A call that throws (its message cannot be formatted) is followed
by the next one of its thread.
-/

namespace Blackhole.Shared

open Pipeline (Process Call Handler Reply)
open Root (HOut)

/-- What the threads share (src/sink/console.cpp:82-84, src/handler/blocking.cpp:22-23): the two standard streams, and
the sinks, by the numbers of handler and sink. -/
inductive Place where
  | stream (s : Console.Stream)
  | sink (i j : Nat)
  deriving DecidableEq, Repr

/-- The mutexes: the static one in src/sink/console.cpp:34 and the ones of the sinks (src/sink/file.hpp:62). -/
inductive Mutex where
  | console
  | sink (i j : Nat)
  deriving DecidableEq, Repr

/-- A file sink with the outcome of its last attempt to get the backend (src/sink/file.cpp:127-157,
src/sink/console.cpp:99-108); what was printed to a stream; what another sink was given. -/
inductive Obj where
  | file (s : File.Sink) (out : File.Outcome)
  | stream (printed : Str)
  | other (given : List Str)

/-- What a sink meets, and the severity and the text that it is given (src/handler/blocking.cpp:33). Reports of errors
have nothing of this. -/
abbrev What := Option (Reply × Int × Str)

/-- One emit (src/handler/blocking.cpp:33). -/
abbrev Emit := Lock.Op Place Mutex What Obj
/-- One emit with the report of its exception (src/root.cpp:192-198). -/
abbrev Task := Lock.Task Place Mutex What Obj

/-- `backend(filename)` in `file_t::emit` (src/sink/file.cpp:156). -/
def getBackend (o : File.Oracle) : Obj → Obj
  | .file s _ => .file (s.getBackend o).1 (s.getBackend o).2
  | x => x

/-- An action on the backend (src/sink/file.cpp:152-157); there is none if an exception came before. -/
def onBackend (f : File.Sink → File.Sink) : Obj → Obj
  | .file s .ok => .file (f s) .ok
  | x => x

/-- A write to the stream begins (src/sink/file.cpp:152-157). -/
def beginWrite (s : File.Sink) : File.Sink :=
  match s.backend with
  | none => s
  | some _ => { s with streams := File.mapLast (fun st => { st with ops := st.ops ++ [.write []] }) s.streams }

/-- One more character of a write (src/sink/file.cpp:152-157). -/
def extend (c : Char) : File.SOp → File.SOp
  | .write bytes => .write (bytes ++ [c])
  | .flush => .flush

/-- One character of `stream->write(message)` or `stream->put('\n')` (src/sink/file.hpp:42-43). -/
def putChar (c : Char) (s : File.Sink) : File.Sink :=
  match s.backend with
  | none => s
  | some _ => { s with streams := File.mapLast (fun st => { st with ops := File.mapLast (extend c) st.ops }) s.streams }

/-- `flusher->update(...)` and `stream->flush()` (src/sink/file.hpp:44-46). -/
def commit (nwritten : Nat) (s : File.Sink) : File.Sink :=
  match s.backend with
  | none => s
  | some b =>
    let (flusher, doFlush) := b.flusher.update nwritten
    { s with backend := some { b with flusher := flusher },
             streams := File.mapLast (fun st => { st with ops := st.ops ++ (if doFlush then [.flush] else []) }) s.streams }

/-- The emit of a file sink ends by an exception (src/sink/file.cpp:84-98, 152-157). -/
def threw : Obj → Bool
  | .file _ out => out != .ok
  | _ => false

/-- One character to a standard stream (src/sink/console.cpp:99-108). -/
def print (c : Char) : Obj → Obj
  | .stream printed => .stream (printed ++ [c])
  | x => x

/-- What the root logger says about an exception (src/root.cpp:194-198). -/
def reportText : HOut → Str
  | .ok => []
  | .throwStd what => ch! "logging core error occurred: " ++ what ++ ch! "\n"
  | .throwOther => ch! "logging core error occurred: unknown\n"

/-- The report of an exception on the standard output, without a mutex (src/root.cpp:194-197). -/
def report (o : HOut) : Emit :=
  { res := .stream .stdout, lock := none, what := none, steps := (reportText o).map print,
    failed := fun _ => false }

/-- `file_t::emit` (src/sink/file.cpp:152-157) with `backend_t::write` (src/sink/file.hpp:41-47). -/
def fileEmit (i j : Nat) (rep : Reply) (severity : Int) (text : Str) : Task :=
  { res := .sink i j, lock := some (.sink i j), what := some (rep, severity, text),
    steps := getBackend rep.file :: onBackend beginWrite :: (text ++ ['\n']).map (fun c => onBackend (putChar c))
      ++ [onBackend (commit (text.length + 1))],
    failed := threw, rescue := [report (.throwStd rep.what)] }

/-- `console_t::emit` (src/sink/console.cpp:90-109) of a record that its filter does not deny. -/
def consoleEmit (k : Console.Sink) (rep : Reply) (severity : Int) (text : Str) : Task :=
  { res := .stream k.stream, lock := some .console, what := some (rep, severity, text),
    steps := (k.output rep.tty severity text).map print, failed := fun _ => false, rescue := [] }

/-- A sink of another kind gets the text (src/handler/blocking.cpp:33). -/
def take (text : Str) : Obj → Obj
  | .other given => .other (given ++ [text])
  | x => x

/-- `emit` of a sink of another kind (socket, system log, queue), taken as one step (include/blackhole/sink.hpp:31). -/
def otherEmit (i j : Nat) (rep : Reply) (severity : Int) (text : Str) : Task :=
  { res := .sink i j, lock := some (.sink i j), what := some (rep, severity, text), steps := [take text],
    failed := fun _ => rep.other != .ok, rescue := [report rep.other] }

/-- `emit` of sink `j` of handler `i`. A console sink whose filter denies the record does not lock
(src/sink/console.cpp:91-97); the null sink does nothing. -/
def emits (i j : Nat) (rep : Reply) (severity : Int) (text : Str) : Pipeline.Sink → List Task
  | .file _ _ => [fileEmit i j rep severity text]
  | .console k _ => if k.filter severity = .deny then [] else [consoleEmit k rep severity text]
  | .null => []
  | .other _ _ => [otherEmit i j rep severity text]

/-- The loop over the sinks (src/handler/blocking.cpp:31-34), starting with sink number `j`. -/
def emitAll (i : Nat) (reps : Nat → Reply) (severity : Int) (text : Str) : Nat → List Pipeline.Sink → List Task
  | _, [] => []
  | j, s :: rest => emits i j (reps j) severity text s ++ emitAll i reps severity text (j + 1) rest

/-- `blocking_t::handle` (src/handler/blocking.cpp:26-35): the emits, one after the other; only the report of the error if
rendering throws. Exceptions of users' functions need not be derived from `std::exception`. -/
def handle (p : Process) (c : Call) (i : Nat) (h : Handler) (r : Rec.Record) : Except UB (List Task) :=
  match Pipeline.render p c.lwp r h.formatter with
  | .error (.ub u) => .error u
  | .error (.fmt (.ub u)) => .error u
  | .error (.fmt (.format m)) => .ok [(report (.throwStd m)).alone]
  | .error (.logic m) => .ok [(report (.throwStd m)).alone]
  | .error (.user _) => .ok [(report .throwOther).alone]
  | .ok text => .ok (emitAll i (c.replies i) r.severity text 0 h.sinks)

/-- What the handler calls of a log call do (src/root.cpp:191-199). -/
def handleAll (p : Process) (hs : List Handler) (c : Call) : List (Nat × Root.Rec) → Except UB (List (List Task))
  | [] => .ok []
  | (i, r) :: rest =>
    match hs[i]? with
    | none => .error .outOfBounds
    | some h =>
      match handle p c i h (Pipeline.recordOf p r) with
      | .error u => .error u
      | .ok g =>
        match handleAll p hs c rest with
        | .error u => .error u
        | .ok gs => .ok (g :: gs)

/-- One log call (src/root.cpp:176-201). Which handlers it calls, and with what, does not depend on how they end
(C02), so they are asked here in their initial state. -/
def logCall (p : Process) (hs : List Handler) (c : Call) : Except Facade.Failure (List (List Task)) :=
  match Facade.log p.env.fd (c.env p hs) c.lg c.severity c.pattern c.args with
  | .error f => .error f
  | .ok res =>
    match handleAll p hs c (Root.calls res.trace) with
    | .error u => .error (.ub u)
    | .ok gs => .ok gs

/-- The log calls of a thread (src/root.cpp:176-201). -/
def program (p : Process) (hs : List Handler) : List Call → Except Facade.Failure (List (List Task))
  | [] => .ok []
  | c :: cs =>
    match logCall p hs c with
    | .error f => .error f
    | .ok gs =>
      match program p hs cs with
      | .error f => .error f
      | .ok rest => .ok (gs ++ rest)

/-- Before the first call (src/handler/blocking.cpp:20-24): the sinks as they are, and nothing printed. -/
def start (hs : List Handler) : Place → Obj
  | .stream _ => .stream []
  | .sink i j =>
    match hs[i]? with
    | none => .other []
    | some h =>
      match h.sinks[j]? with
      | some (.file _ s) => .file s .ok
      | _ => .other []

/-- All threads, mutexes and sinks (src/root.cpp:191-199). -/
abbrev State := Lock.State Place Mutex What Obj

/-- The process (src/root.cpp:176-201): its threads, each with its log calls, under a schedule. -/
def run (programs : Nat → List (List Task)) (hs : List Handler) (schedule : List Nat) : State :=
  (Lock.State.init programs (start hs)).run schedule

end Blackhole.Shared
