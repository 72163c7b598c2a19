import Verif.Ostream.DevLemmas

/-!
# The buffer of a standard stream and a process that dies

`Verif.Ostream` says what a device takes in the end. Here the characters go to the buffer of the stream first
(`std::basic_streambuf`), and are lost if the process dies before they are written out. The operations are those that
`Verif.Ostream` models: the console sink (src/sink/console.cpp:90-109), the handler for development (src/handler/dev.cpp) and the
reports of the root logger (src/root.cpp:194-198).

Simplifications: undefined behaviour of the handler for development is treated as an exception that it throws; the device works and no exceptions are enabled on the stream. The buffer may be written out, in part or in
full, whenever the implementation likes.
-/

namespace Blackhole.Flush

open Ostream Rec

/-- A stream with its buffer (of the standard library, used in src/sink/console.cpp:99-108, src/handler/dev.cpp:184-193 and
src/root.cpp:195, 197). -/
structure Buf where
  /-- What has left the process. -/
  device : Str
  /-- What is in the buffer. -/
  pending : Str
  format : Format
  /-- `unitbuf`. -/
  unit : Bool

/-- `rdbuf()->pubsync()` (`std::endl` in src/sink/console.cpp:103, 107 and src/root.cpp:195, 197). -/
def Buf.flush (b : Buf) : Buf := { b with device := b.device ++ b.pending, pending := [] }

/-- The implementation writes out so many characters of the buffer (`overflow` of the standard library, for the streams of
src/sink/console.cpp:99-108). -/
def Buf.spill (b : Buf) (k : Nat) : Buf := { b with device := b.device ++ b.pending.take k, pending := b.pending.drop k }

/-- What an operation does to the buffer (of the standard library, used in src/sink/console.cpp:99-108,
src/handler/dev.cpp:59-160 and src/root.cpp:195, 197). -/
def Buf.take (b : Buf) : Op → Buf
  | .raw t => { b with pending := b.pending ++ t }
  | .fmt f => { b with pending := b.pending ++ f b.format, format := { b.format with width := 0 } }
  | .flush => b.flush

/-- One operation with its sentry, which flushes a stream that has `unitbuf` (of the standard library, for `std::cerr`,
src/sink/console.cpp:133). -/
def Buf.run (b : Buf) (op : Op) : Buf := if b.unit then (b.take op).flush else b.take op

/-- The operations took place, and the implementation wrote out parts of the buffer in between as it liked
(src/sink/console.cpp:99-108, src/handler/dev.cpp:184-193, src/root.cpp:195, 197). -/
inductive Steps : Buf → List Op → Buf → Prop
  | done (b : Buf) : Steps b [] b
  | spill {b b' : Buf} {ops : List Op} (k : Nat) : Steps (b.spill k) ops b' → Steps b ops b'
  | op {b b' : Buf} {op : Op} {ops : List Op} : Steps (b.run op) ops b' → Steps b (op :: ops) b'

/-- A handler and what concerns the stream in its call (src/root.cpp:193). -/
inductive Work where
  /-- A blocking handler (src/handler/blocking.cpp:26-35) with those of its console sinks that print to the stream. -/
  | console (tty : Bool) (severity : Int) (text : Str) (sinks : List Console.Sink)
  /-- The handler for development (src/handler/dev.cpp:184-193). -/
  | dev (env : Env) (libc : Date.Libc) (dtoa : Format → Nat → Str) (tty : Bool) (r : Record)
  /-- Any handler that does not print to the stream, and the `what()` of its exception if it throws. -/
  | other (thrown : Option (Option Str))

/-- The operations of a handler and its exception; `what` is what exceptions say (src/handler/blocking.cpp:26-35,
src/handler/dev.cpp:184-193). -/
def Work.ops (what : Exc → Option Str) : Work → List Op × Option (Option Str)
  | .console tty severity text sinks => (sinks.flatMap fun sink => emitOps sink tty severity text, none)
  | .dev env libc dtoa tty r => ((okPrefix (devOps env libc dtoa tty r)).1, (okPrefix (devOps env libc dtoa tty r)).2.map what)
  | .other thrown => ([], thrown)

/-- The operations of a log call: each handler, and the report if it threw (src/root.cpp:191-199). -/
def callOps (what : Exc → Option Str) : List Work → List Op
  | [] => []
  | w :: ws =>
    (w.ops what).1 ++ (match (w.ops what).2 with
      | some t => report t
      | none => []) ++ callOps what ws

/-- The same handler for streams as `Verif.Ostream` has them (src/root.cpp:193). -/
def Work.handler (what : Exc → Option Str) (failure : Str) : Work → Handler
  | .console tty severity text sinks => blocking failure tty severity text sinks
  | .dev env libc dtoa tty r => fun s =>
    match devHandle env libc dtoa tty r s with
    | (s, .returned) => (s, .returned)
    | (s, .threw e) => (s, .threw (what e))
    | (s, .failure) => (s, .threw (some failure))
  | .other none => fun s => (s, .returned)
  | .other (some t) => fun s => (s, .threw t)

end Blackhole.Flush
