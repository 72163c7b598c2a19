import Verif.Base

/-!
# The file sink (src/sink/file.cpp, src/sink/file.hpp, src/sink/file/*)

`emit` holds a mutex for its whole body (src/sink/file.cpp:155), so a concurrent history is a sequence of emits.
The file system is an oracle: every answer it gives is an input, so all behaviours of other processes, including
changes between two system calls, are covered.

Simplifications: the path is constant, as in the code (src/sink/file.cpp:122-125), so the map of backends has at most
one entry; writing to an open stream succeeds; 64-bit `std::size_t`.
-/

namespace Blackhole.File

/-- 2^64 (the counters are `std::uint64_t`, src/sink/file/flusher/bytecount.hpp:13,
src/sink/file/flusher/repeat.hpp:13). -/
def u64 : Nat := 18446744073709551616

/-! ## Flushers -/

/-- A flusher object: `repeat_t` (src/sink/file/flusher/repeat.hpp:12-24) or `bytecount_t`
(src/sink/file/flusher/bytecount.hpp:12-24). Both fields are 64-bit counters. -/
inductive Flusher where
  | repeat (counter threshold : Nat)
  | bytecount (counter threshold : Nat)
  deriving DecidableEq, Repr

/-- A flusher factory with its threshold (`repeat_factory_t`, `bytecount_factory_t`) (src/sink/file.cpp:27-48). -/
inductive FlusherFactory where
  | repeat (threshold : Nat)
  | bytecount (threshold : Nat)
  deriving DecidableEq, Repr

/-- `create()` (src/sink/file.cpp:35-37, 47-49) and the constructors: zero means the largest value. -/
def FlusherFactory.create : FlusherFactory → Flusher
  | .repeat n => .repeat 0 (if n > 0 then n else u64 - 1)
  | .bytecount n => .bytecount 0 (if n > 0 then n else u64 - 1)

/-- `update(nwritten)`: src/sink/file/flusher/repeat.hpp:38-48 and bytecount.hpp:38-50, in 64-bit arithmetic.
The flag says whether to flush. -/
def Flusher.update (nwritten : Nat) : Flusher → Flusher × Bool
  | .repeat counter threshold =>
    if nwritten ≠ 0 then
      let counter := ((counter + 1) % u64) % threshold
      (.repeat counter threshold, counter == 0)
    else (.repeat counter threshold, false)
  | .bytecount counter threshold =>
    if nwritten ≠ 0 then
      let sum := (counter + nwritten) % u64
      (.bytecount (sum % threshold) threshold, decide (sum ≥ threshold))
    else (.bytecount counter threshold, false)

/-! ## Rotation -/

/-- Rotation policies (src/sink/file/rotate/null.hpp:12-24, src/sink/file/rotate/stat.hpp:16-47): `null_factory_t` or
`stat_factory_t`. -/
inductive RotateFactory where
  | null | stat
  deriving DecidableEq, Repr

/-- A rotation object: `null_rotate_t` or `stat_rotate_t` with the recorded inode
(src/sink/file/rotate/stat.hpp:16-18). -/
inductive Rotate where
  | null
  | stat (inode : Nat)
  deriving DecidableEq, Repr

/-- `should_rotate()` (src/sink/file/rotate/null.hpp:13-16, stat.hpp:34-39), where `now` is what `stat` of the path
gives: its inode, or `none` for an error. -/
def Rotate.shouldRotate (now : Option Nat) : Rotate → Bool
  | .null => false
  | .stat inode =>
    match now with
    | some i => !(i == inode)
    | none => true

/-! ## The sink -/

/-- What was done to a stream (src/sink/file.cpp:152-157). -/
inductive SOp where
  | write (bytes : Str)
  | flush
  deriving DecidableEq, Repr

/-- A stream that was opened (src/sink/file.cpp:84-103): the inode it writes to, the inode that `stat` of the path
gave right after (kept for the statements; `none` if it was not asked or failed), what was done to it, and whether it
is still open (closing an `ofstream` flushes it). -/
structure Stream where
  inode : Nat
  noted : Option Nat
  ops : List SOp
  isOpen : Bool
  deriving DecidableEq, Repr

/-- `backend_t` (src/sink/file.hpp:24-28): its stream is always the last one opened. -/
structure Backend where
  rotate : Rotate
  flusher : Flusher
  deriving DecidableEq, Repr

/-- The sink and all streams it ever opened, oldest first (src/sink/file.hpp, class `file_t`). -/
structure Sink where
  rotateFactory : RotateFactory
  flusherFactory : FlusherFactory
  backend : Option Backend
  streams : List Stream
  deriving DecidableEq, Repr

/-- The sink as the constructor leaves it (src/sink/file.cpp:107-116): no backend yet. -/
def Sink.init (r : RotateFactory) (f : FlusherFactory) : Sink :=
  { rotateFactory := r, flusherFactory := f, backend := none, streams := [] }

/-- What the file system answers during one `emit` (src/sink/file.cpp:84-98, 127-150;
src/sink/file/rotate/stat.hpp:21-39): `stat` in `should_rotate`; the inode that `open` in append mode gives (`none`:
it fails); `stat` in the constructor of `stat_rotate_t` (`none`: it fails). -/
structure Oracle where
  check : Option Nat
  opened : Option Nat
  recorded : Option Nat
  deriving DecidableEq, Repr

/-- How a call of `emit` ends (src/sink/file.cpp:152-157). -/
inductive Outcome where
  | ok
  /-- `std::system_error` from opening the file (src/sink/file.cpp:90-98). -/
  | openFailed
  /-- `std::system_error` from `stat_rotate_t` (src/sink/file/rotate/stat.hpp:26-28). -/
  | statFailed
  deriving DecidableEq, Repr

/-- Replaces the last element of a list: the stream that is open (src/sink/file.cpp:127-141). -/
def mapLast {α : Type} (f : α → α) : List α → List α
  | [] => []
  | [x] => [f x]
  | x :: xs => x :: mapLast f xs

/-- Destroying a backend closes its stream (src/sink/file.cpp:127-141, where the backend is replaced). -/
def Sink.close (s : Sink) : Sink :=
  { s with backend := none, streams := mapLast (fun st => { st with isOpen := false }) s.streams }

/-- `create_backend` (src/sink/file.cpp:143-150). If the rotation object cannot be made, the new stream is
destroyed again. -/
def Sink.createBackend (s : Sink) (o : Oracle) : Sink × Outcome :=
  match o.opened with
  | none => (s, .openFailed)
  | some inode =>
    let stream : Stream := { inode := inode, noted := none, ops := [], isOpen := true }
    match s.rotateFactory with
    | .null =>
      ({ s with streams := s.streams ++ [stream],
                backend := some { rotate := .null, flusher := s.flusherFactory.create } }, .ok)
    | .stat =>
      match o.recorded with
      | none => ({ s with streams := s.streams ++ [{ stream with isOpen := false }] }, .statFailed)
      | some i =>
        ({ s with streams := s.streams ++ [{ stream with noted := some i }],
                  backend := some { rotate := .stat i, flusher := s.flusherFactory.create } }, .ok)

/-- `backend(filename)` (src/sink/file.cpp:127-141). -/
def Sink.getBackend (s : Sink) (o : Oracle) : Sink × Outcome :=
  match s.backend with
  | none => s.createBackend o
  | some b =>
    if b.rotate.shouldRotate o.check then s.close.createBackend o
    else (s, .ok)

/-- `backend_t::write` (src/sink/file.hpp:41-47). -/
def Sink.write (s : Sink) (message : Str) : Sink :=
  match s.backend with
  | none => s
  | some b =>
    let (flusher, doFlush) := b.flusher.update (message.length + 1)
    { s with backend := some { b with flusher := flusher },
             streams := mapLast (fun st => { st with
               ops := st.ops ++ [.write (message ++ ['\n'])] ++ (if doFlush then [.flush] else []) }) s.streams }

/-- `file_t::emit` (src/sink/file.cpp:152-157). -/
def Sink.emit (s : Sink) (o : Oracle) (message : Str) : Sink × Outcome :=
  match s.getBackend o with
  | (s, .ok) => (s.write message, .ok)
  | (s, e) => (s, e)

/-- A history of emits, with the outcome of each (src/sink/file.cpp:152-157, again and again). -/
def Sink.run (s : Sink) : List (Oracle × Str) → Sink × List Outcome
  | [] => (s, [])
  | (o, m) :: rest =>
    let (s, r) := s.emit o m
    let (s, rs) := s.run rest
    (s, r :: rs)

/-! ## Data units -/

/-- Failures of `parse_dunit` (src/sink/file.cpp:51-80). -/
inductive ParseError where
  /-- `boost::bad_lexical_cast`. -/
  | badLexicalCast
  /-- `std::invalid_argument`. -/
  | unknownUnit (unit : Str)
  deriving DecidableEq, Repr

/-- `std::isdigit` in the C locale (src/sink/file.cpp:51-80). -/
def isDigit (c : Char) : Bool := decide ('0' ≤ c ∧ c ≤ '9')

/-- `boost::lexical_cast<std::uint64_t>` of a string of digits (src/sink/file.cpp:51-80): fails on an empty string and
on overflow. -/
def lexicalCast (s : Str) : Except ParseError Nat :=
  if s = [] then .error .badLexicalCast
  else
    let v := s.foldl (fun n c => n * 10 + (c.toNat - '0'.toNat)) 0
    if v < u64 then .ok v else .error .badLexicalCast

/-- The map in src/sink/file.cpp:64-72. -/
def mapping : List (Str × Nat) :=
  [(ch! "B", 1), (ch! "kB", 1000), (ch! "MB", 1000000), (ch! "GB", 1000000000),
   (ch! "KiB", 2 ^ 10), (ch! "MiB", 2 ^ 20), (ch! "GiB", 2 ^ 30)]

/-- `parse_dunit` (src/sink/file.cpp:51-80). -/
def parseDunit (encoded : Str) : Except ParseError Nat :=
  let digits := encoded.takeWhile isDigit
  let unit := encoded.dropWhile isDigit
  if unit = [] then lexicalCast encoded
  else
    match lexicalCast digits with
    | .error e => .error e
    | .ok base =>
      match mapping.lookup unit with
      | none => .error (.unknownUnit unit)
      | some m => .ok (base * m % u64)

/-! ## Builder and factory -/

/-- A builder's state (src/sink/file.cpp:161-173); a fresh one never rotates and never flushes explicitly. -/
structure Builder where
  rotate : RotateFactory
  flusher : FlusherFactory
  deriving DecidableEq, Repr

/-- A new builder (src/sink/file.cpp:161-173): no rotation, and a flusher with threshold 0. -/
def Builder.init : Builder := { rotate := .null, flusher := .repeat 0 }

/-- Units of the typed interface (include/blackhole/sink/file.hpp:75-81). -/
inductive Unit' where
  | bytes | kilobytes | megabytes | gigabytes | kibibytes | mibibytes | gibibytes
  deriving DecidableEq, Repr

/-- `Ratio::num` (include/blackhole/sink/file.hpp). -/
def Unit'.num : Unit' → Nat
  | .bytes => 1
  | .kilobytes => 1000
  | .megabytes => 1000000
  | .gigabytes => 1000000000
  | .kibibytes => 1024
  | .mibibytes => 1024 * 1024
  | .gibibytes => 1024 * 1024 * 1024

/-- Conversion to `bytes_t` (include/blackhole/sink/file.hpp:70-72), in 64 bits. -/
def toBytes (u : Unit') (count : Nat) : Nat := count * u.num % u64

/-- Calls of the setters of the builder (src/sink/file.cpp:175-200). -/
inductive Call where
  | flushBytes (u : Unit') (count : Nat)
  | flushEvents (n : Nat)
  | rotateStat
  deriving DecidableEq, Repr

/-- src/sink/file.cpp:175-200; lvalue and rvalue versions do the same. -/
def Builder.call (b : Builder) : Call → Builder
  | .flushBytes u n => { b with flusher := .bytecount (toBytes u n) }
  | .flushEvents n => { b with flusher := .repeat n }
  | .rotateStat => { b with rotate := .stat }

/-- `build()` (src/sink/file.cpp:202-209). -/
def Builder.build (b : Builder) : Sink := Sink.init b.rotate b.flusher

end Blackhole.File
