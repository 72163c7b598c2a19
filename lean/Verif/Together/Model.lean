import Verif.File.Model

/-!
# Several file sinks on one path (src/sink/file.cpp, src/sink/file.hpp)

Several sinks, in one process or in several, have the same path, which other programs rename, remove and replace at any
time. The calls of one sink exclude each other (src/sink/file.cpp:155), those of different sinks do not: they take turns
between any two calls of the operating system and of the stream. The file is opened for appending
(src/sink/file.cpp:144), so what a stream hands over comes to the end of the file at once. Inode numbers are not used
again. Errors while writing are left out (C62); the path may fail to open.
-/

namespace Blackhole.Together

open File (Rotate RotateFactory Flusher FlusherFactory Backend)

/-- A `std::ofstream` that is open for appending (src/sink/file.cpp:84-105, 144): the file and what it has not handed
over yet. -/
structure Stream where
  inode : Nat
  buffer : Str
  deriving DecidableEq, Repr

/-- Where a call of `emit` with a message is (src/sink/file.cpp:127-157). -/
inductive Pc where
  /-- There is none. -/
  | idle
  /-- At the beginning of `backend` (src/sink/file.cpp:127-131). -/
  | look (m : Str)
  /-- Before `stat` in `should_rotate` (src/sink/file.cpp:135, src/sink/file/rotate/stat.hpp:34-39). -/
  | check (m : Str)
  /-- Before the old stream is destroyed (src/sink/file.cpp:136). -/
  | close (m : Str)
  /-- Before the file is opened (src/sink/file.cpp:144). -/
  | openFile (m : Str)
  /-- The file is open; before `stat` in the constructor of `stat_rotate_t` (src/sink/file.cpp:145,
  src/sink/file/rotate/stat.hpp:23-28). -/
  | record (m : Str) (inode : Nat)
  /-- Before `write`, before `put`, before `flush` (src/sink/file.hpp:42-46). -/
  | write (m : Str)
  | newline (m : Str)
  | flush (m : Str)
  deriving DecidableEq, Repr

/-- `file_t` (src/sink/file.hpp:53-66). -/
structure Sink where
  rotate : RotateFactory
  flush : FlusherFactory
  current : Option (Stream × Backend)
  pc : Pc
  deriving DecidableEq, Repr

/-- What came to the end of a file at once (src/sink/file.cpp:152-157). -/
structure Chunk where
  sink : Nat
  inode : Nat
  text : Str
  deriving DecidableEq, Repr

/-- A call that has given its whole line to a stream, and the file of that stream (src/sink/file.cpp:152-157). -/
structure Call where
  sink : Nat
  inode : Nat
  message : Str
  deriving DecidableEq, Repr

/-- The path, what came to files, and the sinks (src/sink/file.cpp:107-157). -/
structure World where
  /-- The file that the path names. -/
  path : Option Nat
  /-- The next inode number. -/
  next : Nat
  sinks : Nat → Sink
  /-- Everything that was appended to files, in order. -/
  log : List Chunk
  /-- Kept for the statements: the calls that have given their line to a stream, in order. -/
  wrote : List Call

/-- The sinks as their constructors leave them (src/sink/file.cpp:107-116). -/
def World.init (path : Option Nat) (next : Nat) (config : Nat → RotateFactory × FlusherFactory) : World :=
  { path := path, next := next, log := [], wrote := []
    sinks := fun k => { rotate := (config k).1, flush := (config k).2, current := none, pc := .idle } }

/-- A sink changes (src/sink/file.cpp:127-157). -/
def World.set (w : World) (k : Nat) (s : Sink) : World :=
  { w with sinks := fun j => if j = k then s else w.sinks j }

/-- A stream hands text over to the operating system (the buffer of the stream of src/sink/file.cpp:84-103). -/
def World.hand (w : World) (k inode : Nat) (text : Str) : World :=
  if text = [] then w else { w with log := w.log ++ [⟨k, inode, text⟩] }

/-- Opening in append mode creates the file if there is none (src/sink/file.cpp:84-98). -/
def World.named (w : World) : World × Nat :=
  match w.path with
  | some i => (w, i)
  | none => ({ w with path := some w.next, next := w.next + 1 }, w.next)

/-- The next step of the call in sink `k`: `emit` (src/sink/file.cpp:152-157), `backend` (127-141), `create_backend`
(143-150), `backend_t::write` (src/sink/file.hpp:41-47). -/
def World.go (w : World) (k : Nat) : World :=
  let s := w.sinks k
  match s.pc, s.current with
  | .look m, none => w.set k { s with pc := .openFile m }
  | .look m, some (_, b) =>
    match b.rotate with
    | .null => w.set k { s with pc := .write m }
    | .stat _ => w.set k { s with pc := .check m }
  | .check m, some (_, b) =>
    if b.rotate.shouldRotate w.path then w.set k { s with pc := .close m } else w.set k { s with pc := .write m }
  | .close m, some (st, _) => (w.hand k st.inode st.buffer).set k { s with current := none, pc := .openFile m }
  | .openFile m, none =>
    let (w, i) := w.named
    match s.rotate with
    | .null => w.set k { s with current := some (⟨i, []⟩, ⟨.null, s.flush.create⟩), pc := .write m }
    | .stat => w.set k { s with pc := .record m i }
  | .record m i, none =>
    match w.path with
    | none => w.set k { s with pc := .idle }  -- throws
    | some j => w.set k { s with current := some (⟨i, []⟩, ⟨.stat j, s.flush.create⟩), pc := .write m }
  | .write m, some (st, b) => w.set k { s with current := some ({ st with buffer := st.buffer ++ m }, b), pc := .newline m }
  | .newline m, some (st, b) =>
    let st : Stream := { st with buffer := st.buffer ++ ['\n'] }
    let u := b.flusher.update (m.length + 1)
    { w.set k { s with current := some (st, { b with flusher := u.1 }), pc := if u.2 then .flush m else .idle } with
      wrote := w.wrote ++ [⟨k, st.inode, m⟩] }
  | .flush _, some (st, b) =>
    (w.hand k st.inode st.buffer).set k { s with current := some ({ st with buffer := [] }, b), pc := .idle }
  | _, _ => w

/-- What may happen next (src/sink/file.cpp:127-157; the file system; the destructors). -/
inductive Act where
  /-- A call of `emit` of sink `k` gets the mutex. -/
  | emit (k : Nat) (m : Str)
  /-- The next step of that call. -/
  | go (k : Nat)
  /-- The file cannot be opened: the call throws (src/sink/file.cpp:90-98). -/
  | fail (k : Nat)
  /-- The stream of sink `k` hands over the first `n` bytes that it holds. -/
  | spill (k n : Nat)
  /-- The sink is destroyed, and with it its stream. -/
  | destroy (k : Nat)
  /-- Another program makes the path name an existing file, or none. -/
  | point (p : Option Nat)
  /-- Another program makes the path name a new file. -/
  | create

/-- One step (src/sink/file.cpp:127-157). -/
def World.step (w : World) : Act → World
  | .emit k m => if (w.sinks k).pc = .idle then w.set k { w.sinks k with pc := .look m } else w
  | .go k => w.go k
  | .fail k =>
    match (w.sinks k).pc with
    | .openFile _ => w.set k { w.sinks k with pc := .idle }
    | _ => w
  | .spill k n =>
    match (w.sinks k).current with
    | some (st, b) =>
      (w.hand k st.inode (st.buffer.take n)).set k
        { w.sinks k with current := some ({ st with buffer := st.buffer.drop n }, b) }
    | none => w
  | .destroy k =>
    match (w.sinks k).pc, (w.sinks k).current with
    | .idle, some (st, _) => (w.hand k st.inode st.buffer).set k { w.sinks k with current := none }
    | _, _ => w
  | .point p => if p.all (· < w.next) then { w with path := p } else w
  | .create => { w with path := some w.next, next := w.next + 1 }

/-- A schedule (src/sink/file.cpp:127-157). -/
def World.run (w : World) (acts : List Act) : World := acts.foldl World.step w

end Blackhole.Together
