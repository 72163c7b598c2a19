import Verif.Console.Model
import Verif.Date.Model

/-!
# The handler for development (src/handler/dev.cpp)

It prints records to the standard output. Simplifications: writing succeeds, the formatting flags of `std::cout` have
their defaults, and whether it is a terminal does not change during a call.
-/

namespace Blackhole.Dev

open Rec Console

/-- `colorize` (src/handler/dev.cpp:196-200). -/
def colorize (tty : Bool) (c : Color) : Str := if tty then c.seq else []

/-- The colour and the letter of a severity (src/handler/dev.cpp:117-140). -/
def severity : Int → Color × Char
  | 0 => (Color.gray, 'D')
  | 1 => (Color.green, 'I')
  | 2 => (Color.yellow, 'W')
  | 3 => (Color.red, 'E')
  | _ => (Color.gray, 'T')

/-- `view_visitor` (src/handler/dev.cpp:59-80). `dtoa` is `operator<<` for doubles; a `bool` is printed as a number. -/
def value (dtoa : Nat → Str) : Value → Except Exc Str
  | .null => .ok (ch! "none")
  | .bool b => .ok (if b then ch! "1" else ch! "0")
  | .sint z => .ok (showInt z)
  | .uint n => .ok (Nat.toDigits 10 n)
  | .double bits => .ok (dtoa bits)
  | .string v => .ok v.text
  | .function (.ok s) => .ok s
  | .function (.error id) => .error (.user id)

/-- The time (src/handler/dev.cpp:97-110). `duration_cast` and `%` cut towards zero. -/
def timestamp (env : Env) (libc : Date.Libc) (ns : Int) : Except Exc Str :=
  Date.libcClock env.fd libc (ch! "%Y-%m-%d %H:%M:%S.%f") true (ns.tdiv 1000000000)
    (((ns.tdiv 1000).tmod 1000000) % 2 ^ 64).toNat

/-- The name of an attribute (src/handler/dev.cpp:174). A `string_view` is formatted through a stream, as a
`std::string` (include/blackhole/extensions/format.hpp:2667-2676), which has a zero behind it. -/
def name (env : Env) (v : View) : Except Exc Str := env.write (ch! "    {:<16.16}: ") (.str v.text ['\x00'])

/-- One attribute (src/handler/dev.cpp:172-176). -/
def attrPieces (env : Env) (dtoa : Nat → Str) (tty : Bool) (a : View × Value) : List (Except Exc Str) :=
  [.ok (ch! "\n"), .ok (colorize tty Color.gray), name env a.1, .ok (colorize tty Color.reset), value dtoa a.2]

/-- What `handle` prints, in order (src/handler/dev.cpp:93-193). -/
def pieces (env : Env) (libc : Date.Libc) (dtoa : Nat → Str) (tty : Bool) (r : Record) : List (Except Exc Str) :=
  [.ok (colorize tty Color.gray), timestamp env libc r.timestamp, .ok (ch! " "),
   .ok (colorize tty (severity r.severity).1), .ok [(severity r.severity).2],
   .ok (ch! " " ++ Nat.toDigits 10 r.tid ++ ch! "/" ++ Nat.toDigits 10 env.pid),
   .ok (colorize tty Color.reset ++ colorize tty Color.gray), .ok (ch! " - "), .ok (colorize tty Color.reset),
   .ok r.message.text, .ok (colorize tty Color.reset)]
  ++ r.pack.flatten.flatMap (attrPieces env dtoa tty) ++ [.ok (ch! "\n")]

/-- What is printed before an exception stays printed: the stream is `std::cout` itself (src/handler/dev.cpp:184-193). -/
def printAll : List (Except Exc Str) → Str × Option Exc
  | [] => ([], none)
  | .error e :: _ => ([], some e)
  | .ok s :: rest => (s ++ (printAll rest).1, (printAll rest).2)

/-- `dev_t::handle` (src/handler/dev.cpp:184-193): what it prints and the exception that it throws. -/
def handle (env : Env) (libc : Date.Libc) (dtoa : Nat → Str) (tty : Bool) (r : Record) : Str × Option Exc :=
  printAll (pieces env libc dtoa tty r)

end Blackhole.Dev
