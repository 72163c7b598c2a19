import Verif.Dev.Model

/-!
# Standard streams that have formatting flags and can fail

`Verif.Console` and `Verif.Dev` print to a stream that takes everything and has the default formatting flags. Here the
stream is a `std::ostream` object: its state (`badbit`, `failbit`), its exception mask, its flags, width and fill
character, which the program that uses the library may set at will, and a device that may fail. The library's code on top
of it is that of src/termcolor.cpp, src/sink/console.cpp, src/handler/blocking.cpp, src/handler/dev.cpp and the loop over the
handlers in src/root.cpp.

Simplifications: the locale is the classic one (no digit grouping), and `eofbit` is never set.
A failing device is a list of outcomes, one for each transfer of characters or `flush` that is not empty.
-/

namespace Blackhole.Ostream

open Console (Color)

/-! ## `std::ostream` -/

/-- `basefield` of the standard library, used in src/termcolor.cpp, src/sink/console.cpp:99-108 and
src/handler/dev.cpp:59-81. -/
inductive Base where
  | dec | oct | hex
  deriving DecidableEq, Repr

/-- `adjustfield` of the standard library, used in src/termcolor.cpp, src/sink/console.cpp:99-108 and
src/handler/dev.cpp:59-81. -/
inductive Adjust where
  | left | right | internal
  deriving DecidableEq, Repr

/-- The formatting state of a stream (`std::ios_base`, used in src/handler/dev.cpp:59-81). -/
structure Format where
  base : Base
  showbase : Bool
  showpos : Bool
  uppercase : Bool
  boolalpha : Bool
  adjust : Adjust
  width : Nat
  fill : Char
  deriving DecidableEq, Repr

/-- What a stream begins with (`std::basic_ios::init`, for the streams of src/handler/dev.cpp:114-160). -/
def Format.default : Format := ⟨.dec, false, false, false, false, .right, 0, ' '⟩

/-- `exceptions()` (`std::basic_ios`, for the streams of src/sink/console.cpp:99-108). -/
structure Mask where
  bad : Bool
  fail : Bool
  deriving DecidableEq, Repr

/-- `std::cout` or `std::cerr` as src/sink/console.cpp:99-108, src/root.cpp:195, 197 and src/handler/dev.cpp use them.
-/
structure Stream where
  /-- What the device has taken. -/
  out : Str
  /-- How the next operations of the device end: `none` is success, as is the end of the list; `some k` is a failure after
  `k` characters. -/
  faults : List (Option Nat)
  bad : Bool
  fail : Bool
  mask : Mask
  format : Format
  /-- `unitbuf`: the stream is flushed after every operation, as `std::cerr` is unless the program says otherwise. -/
  unit : Bool
  deriving DecidableEq, Repr

/-- `good()` of the standard library, used in src/termcolor.cpp, src/sink/console.cpp:99-108 and
src/handler/dev.cpp:59-81. -/
def Stream.good (s : Stream) : Bool := !s.bad && !s.fail

/-- `setstate` throws if the state meets the mask (of the standard library, used in src/termcolor.cpp,
src/sink/console.cpp:99-108 and src/handler/dev.cpp:59-81). -/
def Stream.throws (s : Stream) : Bool := (s.mask.bad && s.bad) || (s.mask.fail && s.fail)

/-- `rdbuf()->sputn` (of the standard library, used in src/termcolor.cpp, src/sink/console.cpp:99-108 and
src/handler/dev.cpp:110): the stream afterwards and whether all characters were taken. -/
def Stream.put (s : Stream) : Str → Stream × Bool
  | [] => (s, true)
  | c :: t =>
    match s.faults with
    | [] => ({ s with out := s.out ++ (c :: t) }, true)
    | none :: fs => ({ s with out := s.out ++ (c :: t), faults := fs }, true)
    | some k :: fs => ({ s with out := s.out ++ (c :: t).take k, faults := fs }, false)

/-- `rdbuf()->pubsync()` (`std::endl` in src/sink/console.cpp:103, 107). -/
def Stream.sync (s : Stream) : Stream × Bool :=
  match s.faults with
  | [] => (s, true)
  | none :: fs => ({ s with faults := fs }, true)
  | some _ :: fs => ({ s with faults := fs }, false)

/-- Operations on a stream, as in src/sink/console.cpp:102-107 and src/handler/dev.cpp:59-160. -/
inductive Op where
  /-- `write` and `put`. -/
  | raw (t : Str)
  /-- A formatted insertion: what it prints depends on the formatting state, and the width is reset. -/
  | fmt (f : Format → Str)
  | flush

/-- `setstate(badbit)` if the operation of the device failed (of the standard library, used in src/termcolor.cpp,
src/sink/console.cpp:99-108 and src/handler/dev.cpp:110). -/
def Stream.after (r : Stream × Bool) : Stream × Bool :=
  if r.2 then (r.1, false) else ({ r.1 with bad := true }, { r.1 with bad := true }.throws)

/-- One operation (of the standard library, used in src/termcolor.cpp, src/sink/console.cpp:99-108 and
src/handler/dev.cpp:59-160) but for the end of the sentry: the stream afterwards and whether
`std::ios_base::failure` is thrown. The sentry does nothing to a stream that is not good but to set `failbit`. -/
def Op.act (s : Stream) (op : Op) : Stream × Bool :=
  if s.good then
    match op with
    | .raw t => Stream.after (s.put t)
    | .fmt f => Stream.after ({ s with format := { s.format with width := 0 } }.put (f s.format))
    | .flush => Stream.after s.sync
  else ({ s with fail := true }, { s with fail := true }.throws)

/-- The destructor of the sentry (of the standard library, for `std::cerr`, src/sink/console.cpp:133): a good stream
with `unitbuf` is flushed, and a failure of that sets `badbit` without an exception, as the C++ standard says
(ostream.sentry). -/
def Stream.settle (r : Stream × Bool) : Stream × Bool :=
  if r.1.unit && !r.2 && r.1.good then
    match r.1.sync with
    | (s, true) => (s, false)
    | (s, false) => ({ s with bad := true }, false)
  else r

/-- One operation with its sentry (of the standard library, used in src/termcolor.cpp, src/sink/console.cpp:99-108 and
src/handler/dev.cpp:59-160). -/
def Op.run (s : Stream) (op : Op) : Stream × Bool := Stream.settle (op.act s)

/-- Operations one after the other, up to an exception (src/sink/console.cpp:101-107, src/root.cpp:195, 197). -/
def runOps (s : Stream) : List Op → Stream × Bool
  | [] => (s, false)
  | op :: ops =>
    match op.run s with
    | (s, true) => (s, true)
    | (s, false) => runOps s ops

/-! ## Formatted insertion -/

/-- Fills up to the width (of the standard library, used in src/termcolor.cpp, src/sink/console.cpp:99-108 and
src/handler/dev.cpp:71-74); `head` is the sign or the prefix of the base, behind which `internal` fills. -/
def Format.pad (f : Format) (head body : Str) : Str :=
  let fill := List.replicate (f.width - (head ++ body).length) f.fill
  match f.adjust with
  | .left => head ++ body ++ fill
  | .right => fill ++ head ++ body
  | .internal => head ++ fill ++ body

/-- `operator<<` for strings and characters (of the standard library, used in src/termcolor.cpp,
src/sink/console.cpp:99-108 and src/handler/dev.cpp:67-69); `internal` is as `right`. -/
def Format.text (t : Str) (f : Format) : Str := f.pad [] t

/-- The prefix and the digits of a natural number (of the standard library, used in src/termcolor.cpp,
src/sink/console.cpp:99-108 and src/handler/dev.cpp:71-74). -/
def Format.digits (f : Format) (n : Nat) : Str × Str :=
  match f.base with
  | .dec => ([], Nat.toDigits 10 n)
  | .oct => ([], (if f.showbase && n != 0 then ['0'] else []) ++ Nat.toDigits 8 n)
  | .hex =>
    let ds := (Nat.toDigits 16 n).map fun c => if f.uppercase then c.toUpper else c
    (if f.showbase && n != 0 then ['0', if f.uppercase then 'X' else 'x'] else [], ds)

/-- `operator<<` for unsigned integers (of the standard library, used in src/termcolor.cpp,
src/sink/console.cpp:99-108 and src/handler/dev.cpp:71-74). -/
def Format.nat (n : Nat) (f : Format) : Str := f.pad (f.digits n).1 (f.digits n).2

/-- `operator<<` for signed integers with so many bits (of the standard library, used in src/termcolor.cpp,
src/sink/console.cpp:99-108 and src/handler/dev.cpp:71-74); in octal and hexadecimal they are printed as unsigned
ones. -/
def Format.int (bits : Nat) (z : Int) (f : Format) : Str :=
  match f.base with
  | .dec => f.pad (if z < 0 then ['-'] else if f.showpos then ['+'] else []) (Nat.toDigits 10 z.natAbs)
  | _ => f.nat (z % 2 ^ bits).toNat

/-- `operator<<` for `bool` (of the standard library, used in src/termcolor.cpp, src/sink/console.cpp:99-108 and
src/handler/dev.cpp:71-74). -/
def Format.bool (b : Bool) (f : Format) : Str :=
  if f.boolalpha then f.text (if b then ch! "true" else ch! "false") else f.int 64 (if b then 1 else 0)

/-- `operator<<` for `double` (of the standard library, used in src/termcolor.cpp, src/sink/console.cpp:99-108 and
src/handler/dev.cpp:71-74); `dtoa` prints it without filling. -/
def Format.double (dtoa : Format → Nat → Str) (bits : Nat) (f : Format) : Str :=
  match dtoa f bits with
  | c :: t => if c = '-' ∨ c = '+' then f.pad [c] t else f.pad [] (c :: t)
  | [] => f.pad [] []

/-- `std::endl` (src/sink/console.cpp:103, 107; src/root.cpp:195, 197). -/
def endl : List Op := [.raw ['\n'], .flush]

/-! ## Colours and the console sink -/

/-- `operator<<` (src/termcolor.cpp:81-83). -/
def colour (c : Color) : List Op := [.fmt (Format.text (ch! "\x1b[")), .fmt (Format.int 32 c.code), .fmt (Format.text (ch! "m"))]

/-- How a call ends (src/sink/console.cpp:90-109, src/root.cpp:192-198). -/
inductive End where
  | returned
  | threw
  /-- `std::terminate`. -/
  | terminated
  deriving DecidableEq, Repr

/-- The end of a call after operations on a stream (src/sink/console.cpp:90-109, src/root.cpp:192-198). -/
def ending (r : Stream × Bool) : Stream × End := (r.1, if r.2 then .threw else .returned)

/-- `termcolor_t::write` (src/termcolor.cpp:68-75). The destructor of the scope (19-21) may throw; if it does so while another
exception is on its way, that is the end of the process. If the constructor (13-17) throws, the destructor does not run. -/
def write (s : Stream) (c : Color) (data : Str) : Stream × End :=
  if c.colored then
    match runOps s (colour c) with
    | (s, true) => (s, .threw)
    | (s, false) =>
      match runOps s [.raw data] with
      | (s, body) =>
        match runOps s (colour Color.reset) with
        | (s, reset) => (s, if body && reset then .terminated else if body || reset then .threw else .returned)
  else ending (runOps s [.raw data])

/-- `console_t::emit` (src/sink/console.cpp:90-109) with the stream of the sink; `tty` is what `isatty` says. -/
def emit (sink : Console.Sink) (tty : Bool) (severity : Int) (formatted : Str) (s : Stream) : Stream × End :=
  match sink.filter severity with
  | .deny => (s, .returned)
  | _ =>
    if tty then
      match write s (sink.mapping severity) formatted with
      | (s, .returned) => ending (runOps s endl)
      | r => r
    else ending (runOps s (.raw formatted :: endl))

/-! ## Handlers and the root logger -/

/-- What a handler does to the stream, and the `what()` of its exception if it throws one that has it
(src/root.cpp:192-198). -/
inductive HEnd where
  | returned
  | threw (what : Option Str)
  | terminated
  deriving DecidableEq, Repr

/-- `handler->handle(record)` as far as it concerns the stream (src/root.cpp:193). -/
abbrev Handler := Stream → Stream × HEnd

/-- `blocking_t::handle` (src/handler/blocking.cpp:26-35) with console sinks on the stream; `text` is what the formatter made
of the record and `failure` is what `std::ios_base::failure` says. -/
def blocking (failure : Str) (tty : Bool) (severity : Int) (text : Str) : List Console.Sink → Handler
  | [], s => (s, .returned)
  | sink :: sinks, s =>
    match emit sink tty severity text s with
    | (s, .returned) => blocking failure tty severity text sinks s
    | (s, .threw) => (s, .threw (some failure))
    | (s, .terminated) => (s, .terminated)

/-- The two catch clauses (src/root.cpp:194-198). -/
def report : Option Str → List Op
  | some what => [.fmt (Format.text (ch! "logging core error occurred: ")), .fmt (Format.text what)] ++ endl
  | none => .fmt (Format.text (ch! "logging core error occurred: unknown")) :: endl

/-- The loop over the handlers (src/root.cpp:191-199), with the number of handlers that were called. -/
def handleAll (s : Stream) (called : Nat) : List Handler → Stream × Nat × End
  | [] => (s, called, .returned)
  | h :: hs =>
    match h s with
    | (s, .returned) => handleAll s (called + 1) hs
    | (s, .terminated) => (s, called + 1, .terminated)
    | (s, .threw what) =>
      match runOps s (report what) with
      | (s, false) => handleAll s (called + 1) hs
      | (s, true) => (s, called + 1, .threw)

/-! ## The handler for development -/

open Rec

/-- `view_visitor` (src/handler/dev.cpp:59-80). -/
def value (dtoa : Format → Nat → Str) : Value → Except Exc Op
  | .null => .ok (.fmt (Format.text (ch! "none")))
  | .bool b => .ok (.fmt (Format.bool b))
  | .sint z => .ok (.fmt (Format.int 64 z))
  | .uint n => .ok (.fmt (Format.nat n))
  | .double bits => .ok (.fmt (Format.double dtoa bits))
  | .string v => .ok (.fmt (Format.text v.text))
  | .function (.ok s) => .ok (.fmt (Format.text s))
  | .function (.error id) => .error (.user id)

/-- `colorize` (src/handler/dev.cpp:196-200). -/
def colorize (tty : Bool) (c : Color) : List (Except Exc Op) := if tty then (colour c).map .ok else []

/-- One attribute (src/handler/dev.cpp:172-176). -/
def attrOps (env : Env) (dtoa : Format → Nat → Str) (tty : Bool) (a : View × Value) : List (Except Exc Op) :=
  endl.map .ok ++ colorize tty Color.gray ++ [(Dev.name env a.1).map fun t => .fmt (Format.text t)] ++
    colorize tty Color.reset ++ [value dtoa a.2]

/-- What `handle` does, in order (src/handler/dev.cpp:93-193). -/
def devOps (env : Env) (libc : Date.Libc) (dtoa : Format → Nat → Str) (tty : Bool) (r : Record) : List (Except Exc Op) :=
  colorize tty Color.gray ++ [(Dev.timestamp env libc r.timestamp).map .raw, .ok (.fmt (Format.text (ch! " ")))] ++
  colorize tty (Dev.severity r.severity).1 ++
  [.ok (.fmt (Format.text [(Dev.severity r.severity).2])), .ok (.fmt (Format.text (ch! " "))), .ok (.fmt (Format.nat r.tid)),
   .ok (.fmt (Format.text (ch! "/"))), .ok (.fmt (Format.int 32 env.pid))] ++
  colorize tty Color.reset ++ colorize tty Color.gray ++ [.ok (.fmt (Format.text (ch! " - ")))] ++ colorize tty Color.reset ++
  [.ok (.fmt (Format.text r.message.text))] ++ colorize tty Color.reset ++
  r.pack.flatten.flatMap (attrOps env dtoa tty) ++ endl.map .ok

/-- How `handle` can end with an exception (src/handler/dev.cpp:184-193). -/
inductive DevEnd where
  | returned
  | threw (e : Exc)
  | failure
  deriving DecidableEq

/-- The loop over the tokens in `dev_t::handle` (src/handler/dev.cpp:188-190). -/
def runTokens (s : Stream) : List (Except Exc Op) → Stream × DevEnd
  | [] => (s, .returned)
  | .error e :: _ => (s, .threw e)
  | .ok op :: ops =>
    match op.run s with
    | (s, true) => (s, .failure)
    | (s, false) => runTokens s ops

/-- `dev_t::handle` (src/handler/dev.cpp:184-193). -/
def devHandle (env : Env) (libc : Date.Libc) (dtoa : Format → Nat → Str) (tty : Bool) (r : Record) (s : Stream) :
    Stream × DevEnd :=
  runTokens s (devOps env libc dtoa tty r)

end Blackhole.Ostream
