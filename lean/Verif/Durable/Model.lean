import Verif.Async.Model
import Verif.File.Disk

/-!
# A file sink behind an asynchronous sink, down to the disk

The threads of the program hand messages to the queue (`Verif.Async.Model`); the worker gives them to the file sink with
its buffers (`Verif.File.Disk`). The process may die at any moment: between any two steps, inside an emit of the worker
(the oracles of `Verif.File.Disk`), and because of an exception of the file sink, which nobody catches in the worker
(src/sink/asynchronous.p.cpp:135-141: it is caught and thrown again, and leaves the thread function), so that
`std::terminate` ends the process without writing the buffers.

Simplification: an emit of the file sink is one step; only the worker uses the file sink (it is owned by the asynchronous
one, src/sink/asynchronous.hpp:46-55).
-/

namespace Blackhole.Durable

open Async (State Policy)
open File (RotateFactory FlusherFactory)
open File.Disk (Oracle Reply)

/-- An asynchronous sink (src/sink/asynchronous.p.cpp:67-145) around a file sink (src/sink/file.cpp:107-157). -/
structure Sys where
  q : State Str
  file : File.Disk.Sink
  /-- The file sink is destroyed. -/
  closed : Bool
  /-- The process has died. -/
  down : Bool

/-- Right after construction (src/sink/asynchronous.p.cpp:67-83, src/sink/file.cpp:113-125). -/
def Sys.init (r : RotateFactory) (f : FlusherFactory) : Sys :=
  { q := State.init, file := File.Disk.Sink.init r f, closed := false, down := false }

/-- Steps of the program, of the worker thread, of the file system and of the destructors
(src/sink/asynchronous.p.cpp:85-145, src/sink/file.cpp:127-157). -/
inductive Cmd where
  /-- A thread of the program calls `emit`. -/
  | emit (thread : Nat) (m : Str)
  /-- The next step of that call. -/
  | thread (thread : Nat)
  /-- The next step of the worker; the oracle answers if it calls the file sink. -/
  | worker (o : Oracle)
  /-- The destructor of the asynchronous sink sets the flag. -/
  | stop
  /-- It has waited for the worker. -/
  | join
  /-- It destroys the file sink. -/
  | close (r : Reply)

/-- A turn of the worker (src/sink/asynchronous.p.cpp:123-147). -/
def Sys.work (cap : Nat) (policy : Policy) (s : Sys) (o : Oracle) : Option Sys :=
  match s.q.consumer with
  | .deliver e =>
    match s.file.emit o e.2 with
    | (file, .ok) => (s.q.step cap policy .consumer).map fun q => { s with q, file }
    | (file, .crashed) => some { s with file, down := true }
    | (file, _) => (s.q.step cap policy .consumerThrows).map fun q => { s with q, file, down := true }
  | _ => (s.q.step cap policy .consumer).map fun q => { s with q }

/-- The process dies while the stream is closed (the stream of src/sink/file.cpp:84-103). -/
def dies : Reply → Bool
  | .crash _ _ => true
  | _ => false

/-- One step (src/sink/asynchronous.p.cpp:85-145, src/sink/file.cpp:127-157). After the process died nothing happens.
-/
def Sys.step (cap : Nat) (policy : Policy) (s : Sys) (c : Cmd) : Option Sys :=
  if s.down then none
  else
    match c with
    | .emit p m => (s.q.step cap policy (.emit p m)).map fun q => { s with q }
    | .thread p => (s.q.step cap policy (.producer p)).map fun q => { s with q }
    | .worker o => s.work cap policy o
    -- src/sink/asynchronous.p.cpp:85-88
    | .stop => (s.q.step cap policy .stop).map fun q => { s with q }
    | .join => (s.q.step cap policy .join).map fun q => { s with q }
    -- the members, in reverse order (src/sink/asynchronous.hpp:46-55)
    | .close r => if s.q.joined ∧ s.closed = false then some { s with file := s.file.destroy r, closed := true, down := dies r } else none

/-- Runs a schedule (steps of src/sink/asynchronous.p.cpp:85-145). -/
def Sys.run (cap : Nat) (policy : Policy) (s : Sys) : List Cmd → Option Sys
  | [] => some s
  | c :: cs => (s.step cap policy c).bind (·.run cap policy cs)

end Blackhole.Durable
