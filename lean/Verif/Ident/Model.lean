import Verif.Syslog.Model

/-! # The identity that syslog sinks give to the system logger (src/sink/syslog.cpp, src/sink/syslog.hpp)

`openlog` does not copy the identity: the C library keeps the pointer and reads the text behind it for every message.
The pointer is to the characters of a `std::string` inside a sink, and sinks can be moved. So this model has the
storage of these strings: short ones are inside the object, long ones in a buffer of their own (libstdc++). -/

namespace Blackhole.Ident

/-- The string `data.identity` of a sink (src/sink/syslog.hpp:13-18): with its characters inside the object, or in a
buffer with a number. -/
inductive Ident where
  | short (text : Str)
  | long (buffer : Nat)
  deriving DecidableEq, Repr

/-- The pointer that the C library keeps (src/sink/syslog.cpp:22): into the string object of a sink, or to a buffer. -/
inductive Ptr where
  | object (i : Nat)
  | buffer (b : Nat)
  deriving DecidableEq, Repr

/-- The sinks that are alive with their identities, the buffers that are allocated, the number of the next buffer, the
pointer given to `openlog` unless `closelog` came later, and the messages sent (src/sink/syslog.cpp:17-60). -/
structure St where
  sinks : Nat → Option Ident
  heap : Nat → Option Str
  next : Nat
  tag : Option Ptr
  /-- For each message the sink and the text that the C library read behind the pointer, none without a pointer: then
  it uses a name of its own. -/
  sent : List (Nat × Option Str)

/-- Before the first sink (src/sink/syslog.cpp:17). -/
def St.init : St := ⟨fun _ => none, fun _ => none, 0, none, []⟩

/-- A map with one entry changed (auxiliary to the state, src/sink/syslog.hpp:13-18). -/
def put {α : Type} (m : Nat → Option α) (k : Nat) (v : Option α) : Nat → Option α := fun x => if x = k then v else m x

/-- What happens to sinks; they are numbered. -/
inductive Op where
  /-- The constructor (src/sink/syslog.cpp:17-23). -/
  | construct (i : Nat)
  /-- The implicit move constructor (src/sink/syslog.hpp:23). -/
  | move (src dst : Nat)
  /-- The implicit move assignment `dst = std::move(src)` (src/sink/syslog.hpp:27). -/
  | assign (src dst : Nat)
  /-- The destructor (src/sink/syslog.cpp:25-27). -/
  | destroy (i : Nat)
  /-- `emit` (src/sink/syslog.cpp:49-60). -/
  | emit (i : Nat)
  deriving DecidableEq, Repr

/-- `c_str` of a string that is in the object of sink `i` (src/sink/syslog.cpp:22). -/
def Ident.ptr (i : Nat) : Ident → Ptr
  | .short _ => .object i
  | .long b => .buffer b

/-- The text behind a pointer, up to the first NUL (src/sink/syslog.cpp:59). Reading an object that is gone, or a
buffer that was freed, is undefined. So is reading the object of a string whose characters are elsewhere: the bytes
there are not a text of anybody. -/
def St.read (s : St) : Ptr → Except UB Str
  | .object i => match s.sinks i with
    | some (.short t) => .ok (Config.cstr t)
    | _ => .error .dangling
  | .buffer b => match s.heap b with
    | some t => .ok (Config.cstr t)
    | none => .error .dangling

/-- The string of sink `i` after `clear` (libstdc++, for src/sink/syslog.hpp:27): the characters stay where they are. -/
def St.clear (s : St) (i : Nat) : Except UB St :=
  match s.sinks i with
  | some (.short _) => .ok { s with sinks := put s.sinks i (some (.short [])) }
  | some (.long b) => match s.heap b with
    | some _ => .ok { s with heap := put s.heap b (some []) }
    | none => .error .dangling
  | none => .error .dangling

/-- The move assignment of the string (libstdc++, for src/sink/syslog.hpp:27), before `clear` of the source: a short
text is copied over the characters of the destination, wherever they are; a buffer is handed over, and the source gets
that of the destination if there is one. -/
def St.take (s : St) (src dst : Nat) : Except UB St :=
  match s.sinks src, s.sinks dst with
  | some (.short t), some (.short _) => .ok { s with sinks := put s.sinks dst (some (.short t)) }
  | some (.short t), some (.long b) => match s.heap b with
    | some _ => .ok { s with heap := put s.heap b (some t) }
    | none => .error .dangling
  | some (.long b), some (.short _) =>
    .ok { s with sinks := put (put s.sinks dst (some (.long b))) src (some (.short [])) }
  | some (.long b), some (.long b') =>
    .ok { s with sinks := put (put s.sinks dst (some (.long b))) src (some (.long b')) }
  | _, _ => .error .dangling

/-- One operation, for the name of the process (src/procname.cpp:39-42). Texts of up to 15 characters are short. -/
def St.step (name : Str) (s : St) : Op → Except UB St
  | .construct i =>
    if name.length ≤ 15 then
      .ok { s with sinks := put s.sinks i (some (.short name)), tag := some (Ident.ptr i (.short name)) }
    else
      .ok { s with
        sinks := put s.sinks i (some (.long s.next)), heap := put s.heap s.next (some name), next := s.next + 1,
        tag := some (Ident.ptr i (.long s.next)) }
  | .move src dst =>
    match s.sinks src with
    | some id => .ok { s with sinks := put (put s.sinks dst (some id)) src (some (.short [])) }
    | none => .error .dangling
  | .assign src dst => (s.take src dst).bind (·.clear src)
  | .destroy i =>
    match s.sinks i with
    | some (.short _) => .ok { s with sinks := put s.sinks i none, tag := none }
    | some (.long b) => match s.heap b with
      | some _ => .ok { s with sinks := put s.sinks i none, heap := put s.heap b none, tag := none }
      | none => .error .dangling
    | none => .error .dangling
  | .emit i =>
    match s.tag with
    | none => .ok { s with sent := s.sent ++ [(i, none)] }
    | some p => (s.read p).map fun t => { s with sent := s.sent ++ [(i, some t)] }

/-- `factory<sink::syslog_t>::from` (src/sink/syslog.cpp:68-82), if the configuration is accepted: the local sink `i` is
moved to the heap as sink `j` and destroyed on return. -/
def factoryOps (i j : Nat) : List Op := [.construct i, .move i j, .destroy i]

/-- The same if the configuration is refused by an exception (src/sink/syslog.cpp:70-79). -/
def refusedOps (i : Nat) : List Op := [.construct i, .destroy i]

/-- All operations in order; none after undefined behaviour (src/sink/syslog.cpp:17-60). -/
def St.run (name : Str) : St → List Op → Except UB St
  | s, [] => .ok s
  | s, op :: ops => (s.step name op).bind fun s => St.run name s ops

end Blackhole.Ident
