import Verif.FmtArgs.Model
import Verif.Printf.Model
import Verif.Ostream.Model

/-!
# `print`, `printf`, `fprintf` and `print_colored`

The functions of the bundled fmt that write to a `FILE*` or a `std::ostream` instead of returning a string.

Simplifications: the arguments are formatted by the models of `format` (`Verif.FmtArgs`) and `sprintf` (`Verif.Printf`); a
call of the C library on a `FILE*` is one step, because POSIX makes these calls lock the stream; texts have no more than
2^64 characters.
-/

namespace Blackhole.FmtPrint

open Fmt (Err Spec)
open FmtArgs (Passed)

/-- A `FILE*` (src/format.cpp:1263-1292): what it has taken, and how many characters the next calls take at most; after
that it takes everything. -/
structure File where
  out : Str
  takes : List Nat
  deriving DecidableEq, Repr

/-- `fwrite(s, 1, size, f)` and `fputs` (src/format.cpp:1266, 1282, 1284, 1291): the stream afterwards and the number of
characters that it took. -/
def File.write (f : File) (s : Str) : File × Nat :=
  match f.takes with
  | [] => ({ f with out := f.out ++ s }, s.length)
  | n :: ns => ({ out := f.out ++ s.take n, takes := ns }, (s.take n).length)

/-- A call (src/format.cpp:1263-1292). `fmt::Color` is a number below eight
(include/blackhole/extensions/format.hpp:2730). -/
inductive Call where
  | print (pattern : Str) (args : List Passed)
  | colored (c : Fin 8) (pattern : Str) (args : List Passed)
  | fprintf (format : Str) (args : List FmtArgs.Val)

/-- How a call ends (src/format.cpp:1263-1292). -/
inductive Outcome where
  | returned
  /-- `fprintf` returns a number. -/
  | count (n : Int)
  | threw (e : Err)
  deriving DecidableEq, Repr

/-- `static_cast<int>(size)` (src/format.cpp:1291): modulo 2^32, as every compiler does it. -/
def toInt (size : Nat) : Int := if size % 2 ^ 32 < 2 ^ 31 then (size % 2 ^ 32 : Nat) else (size % 2 ^ 32 : Nat) - 2 ^ 32

/-- The escape sequence for a colour (src/format.cpp:1280-1281). -/
def escape (c : Fin 8) : Str := ['\x1b', '[', '3', Char.ofNat ('0'.toNat + c.val), 'm']

/-- `RESET_COLOR` (src/format.cpp:161). -/
def reset : Str := ['\x1b', '[', '0', 'm']

/-- What the calls of the C library are given, one after the other (src/format.cpp:1263-1292): an exception ends the
function where it is thrown. -/
def Call.texts (fd : Spec → Nat → Except Err Str) : Call → List Str
  | .print p args =>
    match FmtArgs.format fd p args with
    | .ok t => [t]
    | .error _ => []
  | .colored c p args =>
    match FmtArgs.format fd p args with
    | .ok t => [escape c, t, reset]
    | .error _ => [escape c]
  | .fprintf p args =>
    match Printf.sprintf fd p args with
    | .ok t => [t]
    | .error _ => []

/-- Several calls of the C library (src/format.cpp:1282-1284). -/
def File.writeAll (f : File) : List Str → File
  | [] => f
  | s :: ss => (f.write s).1.writeAll ss

/-- A call (src/format.cpp:1263-1292). -/
def Call.run (fd : Spec → Nat → Except Err Str) (c : Call) (f : File) : File × Outcome :=
  match c with
  | .print p args =>
    match FmtArgs.format fd p args with
    | .ok t => ((f.write t).1, .returned)
    | .error e => (f, .threw e)
  | .colored col p args =>
    let f := (f.write (escape col)).1
    match FmtArgs.format fd p args with
    | .ok t => ((((f.write t).1).write reset).1, .returned)
    | .error e => (f, .threw e)
  | .fprintf p args =>
    match Printf.sprintf fd p args with
    | .ok t => ((f.write t).1, .count (if (f.write t).2 < t.length then -1 else toInt t.length))
    | .error e => (f, .threw e)

/-- `print` to a `std::ostream` (src/format.cpp:1273-1277): the stream afterwards, and the exception if one is thrown
(`none` is `std::ios_base::failure`). -/
def printStream (fd : Spec → Nat → Except Err Str) (pattern : Str) (args : List Passed) (s : Ostream.Stream) :
    Ostream.Stream × Except (Option Err) Unit :=
  match FmtArgs.format fd pattern args with
  | .ok t =>
    match (Ostream.Op.raw t).run s with
    | (s, true) => (s, .error none)
    | (s, false) => (s, .ok ())
  | .error e => (s, .error (some e))

/-! ## Several threads -/

/-- Threads that print to one `FILE*` (src/format.cpp:1263-1292): what each has left to give to the C library. -/
structure State where
  file : File
  left : Nat → List Str

/-- Every thread makes its calls one after the other (src/format.cpp:1263-1292). -/
def State.start (fd : Spec → Nat → Except Err Str) (f : File) (calls : Nat → List Call) : State :=
  { file := f, left := fun t => (calls t).flatMap (·.texts fd) }

/-- A thread makes its next call of the C library (src/format.cpp:1266, 1282, 1284, 1291). -/
def State.step (s : State) (t : Nat) : State :=
  match s.left t with
  | [] => s
  | x :: xs => { file := (s.file.write x).1, left := fun u => if u = t then xs else s.left u }

/-- Runs a schedule (src/format.cpp:1263-1292). -/
def State.run (s : State) : List Nat → State
  | [] => s
  | t :: ts => (s.step t).run ts

end Blackhole.FmtPrint
