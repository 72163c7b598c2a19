import Verif.Buffer.Model
import Verif.FmtStream.Model

/-!
# System errors of fmt (src/format.cpp: `format_error_code`, `format_system_error`, `SystemError`, `report_system_error`)

The message is given as the text that `format` made of it. The C library's text of an error code is a parameter.
Exceptions of the allocator happen where the environment says so. An exception that leaves a function declared
`noexcept` ends the process.
-/

namespace Blackhole.SysError
open Buffer (Buf inlineSize)

/-- How `format_system_error` ends if it does not return (src/format.cpp:717-736, 233-249). -/
inductive Fail where
  /-- `std::terminate`: an exception would leave the function. -/
  | terminate
  /-- `assert(out.size() <= INLINE_BUFFER_SIZE)` fails. -/
  | assertion
  | ub
  deriving DecidableEq, Repr

/-- What `safe_strerror` gives for a buffer of some size (src/format.cpp:163-172): a text, `ERANGE`, or another error
number. -/
inductive Reply where
  | text (s : Str)
  | range
  | other
  deriving DecidableEq, Repr

/-- `safe_strerror` with the GNU version of `strerror_r` (src/format.cpp:188-195): the C library returns a text of its
own, or writes the text into the buffer as far as it fits. The text has no NUL in it. -/
def gnu (inBuffer : Bool) (text : Str) (size : Nat) : Reply :=
  if inBuffer then
    if (text.take (size - 1)).length = size - 1 then .range else .text (text.take (size - 1))
  else .text text

/-- `safe_strerror` with the XSI version of `strerror_r` (src/format.cpp:182-186): zero if the code is known and its
text fits with its NUL, `ERANGE` if it does not fit, `EINVAL` if the code is not known. -/
def xsi (known : Bool) (text : Str) (size : Nat) : Reply :=
  if known then (if text.length + 1 ≤ size then .text text else .range) else .other

/-- What the loop of `format_system_error` ends with (src/format.cpp:723-733). -/
inductive Found where
  | text (s : Str)
  /-- `break`, or an exception of `resize`. -/
  | nothing
  /-- The model ran out of fuel: this does not happen (`search_not_stuck` in Verif/SysError/Props.lean). -/
  | stuck
  deriving DecidableEq, Repr

/-- The loop (src/format.cpp:723-733). Of the local buffer only the size is modelled; `room k` says whether there is
memory for the `k`-th growth, and an array of 2^63 bytes is always refused. -/
def search (strerror : Nat → Reply) (room : Nat → Bool) : (fuel : Nat) → (size : Nat) → Found
  | 0, _ => .stuck
  | fuel + 1, size =>
    match strerror size with
    | .text s => .text s
    | .other => .nothing
    | .range => if room fuel ∧ size * 2 < 2 ^ 63 then search strerror room fuel (size * 2) else .nothing

/-- An operation of a writer inside of a function that must not throw (src/format.cpp:233-249, `FMT_NOEXCEPT`). -/
def must {α : Type} : Except Buffer.Err α → Except Fail α
  | .ok a => .ok a
  | .error .alloc => .error .terminate
  | .error (.ub _) => .error .ub

/-- `count_digits` of the code as an `unsigned` (src/format.cpp:241, 244). -/
def codeSize (code : Int) : Except Fail Nat :=
  match Fmt.countDigits Fmt.powers32 (code % 2 ^ 32).toNat with
  | .ok n => .ok n
  | .error _ => .error .ub

/-- `out << error_code` (src/format.cpp:247, include/blackhole/extensions/format.hpp:2099-2102, 1960-1970). -/
def writeCode (room : Bool) (code : Int) (out : Buf) : Except Fail Buf :=
  match FmtStream.stream .int code with
  | .ok digits => must (out.region room digits)
  | .error _ => .error .ub

/-- `format_error_code` (src/format.cpp:233-249); `room k` says whether there is memory for the `k`-th write. -/
def formatErrorCode (room : Nat → Bool) (code : Int) (message : Str) (out : Buf) : Except Fail Buf := do
  let out := { out with size := 0 }
  let size ← codeSize code
  let errorCodeSize := 2 + 6 + size
  let out ←
    if message.length ≤ inlineSize - errorCodeSize then do
      let out ← must (out.append (room 0) message)
      must (out.append (room 1) (ch! ": "))
    else .ok out
  let out ← must (out.append (room 2) (ch! "error "))
  let out ← writeCode (room 3) code out
  if out.size ≤ inlineSize then .ok out else .error .assertion

/-- `out << s` inside of the `try` block (src/format.cpp:720, 727, 734): with an exception the writer is left as it is
and the rest of the block is skipped. -/
def try_ (r : Except Buffer.Err Buf) (before : Buf) : Except Fail (Buf × Bool) :=
  match r with
  | .ok b => .ok (b, true)
  | .error .alloc => .ok (before, false)
  | .error (.ub _) => .error .ub

/-- `out << message << ": " << system_message` (src/format.cpp:727): the writer, and whether all was written. -/
def writeMessage (room : Nat → Bool) (message system : Str) (out : Buf) : Except Fail (Buf × Bool) := do
  let (out, ok) ← try_ (out.append (room 0) message) out
  if !ok then .ok (out, false)
  else do
    let (out, ok) ← try_ (out.append (room 1) (ch! ": ")) out
    if !ok then .ok (out, false)
    else try_ (out.append (room 2) system) out

/-- Which allocations succeed (src/format.cpp:717-736). -/
structure Memory where
  loop : Nat → Bool
  full : Nat → Bool
  short : Nat → Bool

/-- `format_system_error` (src/format.cpp:717-736). -/
def formatSystemError (strerror : Nat → Reply) (mem : Memory) (code : Int) (message : Str) (out : Buf) :
    Except Fail Buf :=
  match search strerror mem.loop 64 inlineSize with
  | .stuck => .error .ub
  | .nothing => formatErrorCode mem.short code message out
  | .text s =>
    match writeMessage mem.full message s out with
    | .error e => .error e
    | .ok (out, true) => .ok out
    | .ok (out, false) => formatErrorCode mem.short code message out

/-- What a `SystemError` can be asked for (include/blackhole/extensions/format.hpp:1858-1901). -/
structure SystemError where
  code : Int
  what : Str
  deriving DecidableEq, Repr

/-- The text of a writer that was written by the functions above (include/blackhole/extensions/format.hpp:2063). -/
def textOf (out : Buf) : Except Fail Str := must out.read

/-- `SystemError::init` (src/format.cpp:553-560). Memory for the `std::string`s is always there. -/
def SystemError.make (strerror : Nat → Reply) (mem : Memory) (code : Int) (message : Str) : Except Fail SystemError := do
  let w ← formatSystemError strerror mem code message Buf.init
  let what ← textOf w
  .ok { code := code, what := what }

/-- `report_system_error` (src/format.cpp:1251-1254, 251-259): what is written to the standard error stream. -/
def report (strerror : Nat → Reply) (mem : Memory) (code : Int) (message : Str) : Except Fail Str := do
  let w ← formatSystemError strerror mem code message Buf.init
  let text ← textOf w
  .ok (text ++ ['\n'])

end Blackhole.SysError
