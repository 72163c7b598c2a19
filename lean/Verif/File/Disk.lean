import Verif.File.Spec

/-!
# The file sink down to the disk: buffering, write errors and crashes

The sink of `Verif.File.Model`, with its stream opened up. A `std::ofstream` keeps bytes in a buffer and hands them to
the operating system whenever it likes, at the latest when it is flushed or closed. What the operating system has got
survives the death of the process (`disk`); the buffer does not. Every call on a stream is answered by an oracle: how
much is handed over, whether the call fails, whether the process dies in it.
-/

namespace Blackhole.File.Disk

/-- A stream opened by `ofstream_factory_t::create` (src/sink/file.cpp:84-103): in append mode, with exceptions for
`failbit` and `badbit`. -/
structure OStream where
  inode : Nat
  /-- What this stream has handed to the operating system. -/
  disk : Str
  /-- What it still holds. -/
  buffer : Str
  /-- `badbit` is set. -/
  bad : Bool
  deriving DecidableEq, Repr

/-- What happens during a call on a stream (src/sink/file.hpp:42-45, src/sink/file.cpp:136). -/
inductive Reply where
  /-- The call succeeds; afterwards the first `spill` bytes of the buffer have been handed over. -/
  | ok (spill : Nat)
  /-- Some bytes are handed over, then an error occurs; `left` is what the library keeps. -/
  | fail (spill : Nat) (left : Str)
  /-- The process dies; before, `taken` bytes of the argument were put in the buffer and `spill` bytes of it handed
  over. -/
  | crash (taken spill : Nat)
  deriving DecidableEq, Repr

/-- How a call on a stream ends (src/sink/file.hpp:42-45). -/
inductive Status where
  | ok | failed | crashed
  deriving DecidableEq, Repr

/-- `write` and `put` of `std::ostream` (called in src/sink/file.hpp:42-43): on a stream in a bad state they do nothing
but set `failbit`, which throws. -/
def OStream.write (st : OStream) (bytes : Str) (r : Reply) : OStream × Status :=
  if st.bad then (st, .failed)
  else
    match r with
    | .ok k =>
      ({ st with disk := st.disk ++ (st.buffer ++ bytes).take k, buffer := (st.buffer ++ bytes).drop k }, .ok)
    | .fail k left => ({ st with disk := st.disk ++ (st.buffer ++ bytes).take k, buffer := left, bad := true }, .failed)
    | .crash t k =>
      ({ st with disk := st.disk ++ (st.buffer ++ bytes.take t).take k, buffer := (st.buffer ++ bytes.take t).drop k },
        .crashed)

/-- `flush` (called in src/sink/file.hpp:45). -/
def OStream.flush (st : OStream) (r : Reply) : OStream × Status :=
  if st.bad then (st, .failed)
  else
    match r with
    | .ok _ => ({ st with disk := st.disk ++ st.buffer, buffer := [] }, .ok)
    | .fail k left => ({ st with disk := st.disk ++ st.buffer.take k, buffer := left, bad := true }, .failed)
    | .crash _ k => ({ st with disk := st.disk ++ st.buffer.take k, buffer := st.buffer.drop k }, .crashed)

/-- The destructor of `std::ofstream` (run by `erase` in src/sink/file.cpp:136) closes the file: it hands over the buffer, and tells nobody if that fails. -/
def OStream.close (st : OStream) (r : Reply) : OStream × Status :=
  match r with
  | .ok _ => ({ st with disk := st.disk ++ st.buffer, buffer := [] }, .ok)
  | .fail k _ => ({ st with disk := st.disk ++ st.buffer.take k, buffer := [] }, .ok)
  | .crash _ k => ({ st with disk := st.disk ++ st.buffer.take k, buffer := st.buffer.drop k }, .crashed)

/-- How opening the file ends (src/sink/file.cpp:90-98). -/
inductive OpenReply where
  | ok (inode : Nat)
  | fail
  | crash
  deriving DecidableEq, Repr

/-- The answers during one `emit` (src/sink/file.cpp:127-157). -/
structure Oracle where
  /-- `stat` in `should_rotate`. -/
  check : Option Nat := none
  /-- Closing the stream that is rotated away. -/
  close : Reply := .ok 0
  opened : OpenReply := .fail
  /-- `stat` in the constructor of `stat_rotate_t`. -/
  recorded : Option Nat := none
  write : Reply := .ok 0
  newline : Reply := .ok 0
  flush : Reply := .ok 0
  deriving DecidableEq, Repr

/-- How an `emit` ends (src/sink/file.cpp:152-157). -/
inductive Outcome where
  | ok
  | openFailed
  | statFailed
  /-- `std::ios_base::failure` from a call on the stream. -/
  | ioFailed
  /-- The process died. -/
  | crashed
  deriving DecidableEq, Repr

/-- An exception from the stream leaves `emit` (src/sink/file.hpp:41-47, src/sink/file.cpp:156). -/
def Status.outcome : Status → Outcome
  | .ok => .ok
  | .failed => .ioFailed
  | .crashed => .crashed

/-- The sink (src/sink/file.hpp:52-60): the streams that were destroyed, oldest first, and the current backend. -/
structure Sink where
  rotateFactory : RotateFactory
  flusherFactory : FlusherFactory
  closed : List OStream
  current : Option (OStream × Backend)
  deriving DecidableEq, Repr

/-- A new sink has opened nothing (src/sink/file.cpp:107-116). -/
def Sink.init (r : RotateFactory) (f : FlusherFactory) : Sink :=
  { rotateFactory := r, flusherFactory := f, closed := [], current := none }

/-- `create_backend` (src/sink/file.cpp:143-150). -/
def Sink.create (s : Sink) (o : Oracle) : Sink × Outcome :=
  match o.opened with
  | .fail => (s, .openFailed)
  | .crash => (s, .crashed)
  | .ok inode =>
    let st : OStream := { inode := inode, disk := [], buffer := [], bad := false }
    match s.rotateFactory with
    | .null => ({ s with current := some (st, { rotate := .null, flusher := s.flusherFactory.create }) }, .ok)
    | .stat =>
      match o.recorded with
      | none => ({ s with closed := s.closed ++ [st] }, .statFailed)
      | some i => ({ s with current := some (st, { rotate := .stat i, flusher := s.flusherFactory.create }) }, .ok)

/-- `backend(filename)` (src/sink/file.cpp:127-141). -/
def Sink.select (s : Sink) (o : Oracle) : Sink × Outcome :=
  match s.current with
  | none => s.create o
  | some (st, b) =>
    if b.rotate.shouldRotate o.check then
      match st.close o.close with
      | (st, .crashed) => ({ s with current := some (st, b) }, .crashed)
      | (st, _) => Sink.create { s with closed := s.closed ++ [st], current := none } o
    else (s, .ok)

/-- `backend_t::write` (src/sink/file.hpp:41-47). -/
def Sink.write (s : Sink) (o : Oracle) (message : Str) : Sink × Outcome :=
  match s.current with
  | none => (s, .ok)
  | some (st, b) =>
    match st.write message o.write with
    | (st, .ok) =>
      match st.write ['\n'] o.newline with
      | (st, .ok) =>
        match b.flusher.update (message.length + 1) with
        | (fl, true) =>
          match st.flush o.flush with
          | (st, r) => ({ s with current := some (st, { b with flusher := fl }) }, r.outcome)
        | (fl, false) => ({ s with current := some (st, { b with flusher := fl }) }, .ok)
      | (st, r) => ({ s with current := some (st, b) }, r.outcome)
    | (st, r) => ({ s with current := some (st, b) }, r.outcome)

/-- `emit` (src/sink/file.cpp:152-157). -/
def Sink.emit (s : Sink) (o : Oracle) (message : Str) : Sink × Outcome :=
  match s.select o with
  | (s, .ok) => s.write o message
  | (s, e) => (s, e)

/-- A history of emits (src/sink/file.cpp:152-157), up to the death of the process. -/
def Sink.run (s : Sink) : List (Oracle × Str) → Sink × List Outcome
  | [] => (s, [])
  | (o, m) :: rest =>
    match s.emit o m with
    | (s, .crashed) => (s, [.crashed])
    | (s, r) => ((s.run rest).1, r :: (s.run rest).2)

/-- The destructor of the sink (of the member at src/sink/file.hpp:59). -/
def Sink.destroy (s : Sink) (r : Reply) : Sink :=
  match s.current with
  | none => s
  | some (st, _) => { s with closed := s.closed ++ [(st.close r).1], current := none }

/-! ## Vocabulary -/

/-- What the files hold, in the order in which they were opened. -/
def Sink.onDisk (s : Sink) : Str :=
  s.closed.flatMap OStream.disk ++ (match s.current with
    | some (st, _) => st.disk
    | none => [])

/-- The lines of the emits that returned normally. -/
def acknowledged : List (Oracle × Str) → List Outcome → List Str
  | (_, m) :: h, .ok :: rs => (m ++ ['\n']) :: acknowledged h rs
  | _ :: h, _ :: rs => acknowledged h rs
  | _, _ => []

/-- The line of the emit in which the process died. -/
def inFlight : List (Oracle × Str) → List Outcome → Str
  | (_, m) :: _, .crashed :: _ => m ++ ['\n']
  | _ :: h, _ :: rs => inFlight h rs
  | _, _ => []

/-- No call on a stream fails. Opening the file and asking for its inode may. -/
def NoIoError (h : List (Oracle × Str)) : Prop :=
  ∀ x ∈ h, ∀ k left, x.1.close ≠ .fail k left ∧ x.1.write ≠ .fail k left ∧ x.1.newline ≠ .fail k left
    ∧ x.1.flush ≠ .fail k left

end Blackhole.File.Disk
