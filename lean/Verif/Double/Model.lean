import Verif.Fmt.Model
import Verif.Buffer.Model

/-!
# Floating point numbers in text (include/blackhole/extensions/format.hpp: `write_double`)

A `double` is given by its 64 bits. The C library's conversion of a finite, non-negative value without a field width is
a parameter; field widths, which the C library also handles, are modelled. Characters are written into the writer's
buffer in place, behind the text it holds, as the code does it.

Simplifications: `long double` and the Microsoft branches are left out; the overlapping `std::copy` of the centred case,
which the C++ standard leaves undefined, moves the characters as every implementation for `char` does.
-/

namespace Blackhole.Double

open Fmt (Spec Align)
open Buffer (Buf)

/-- What `write_double` can throw, or undefined behaviour (include/blackhole/extensions/format.hpp:2375-2524). -/
inductive Fail where
  | format (e : Fmt.Err)
  | buffer (e : Buffer.Err)
  deriving DecidableEq, Repr

/-- An operation on the buffer as a step of `write_double` (include/blackhole/extensions/format.hpp:2375-2524). -/
def lift {α : Type} : Except Buffer.Err α → Except Fail α
  | .ok a => .ok a
  | .error e => .error (.buffer e)

/-- The C library's `snprintf` without a width (called at include/blackhole/extensions/format.hpp:2478-2489): the `#`
flag, the precision, the conversion and the bits of the value. -/
abbrev Libc := Bool → Option Nat → Char → Nat → Str

/-- `getsign` (include/blackhole/extensions/format.hpp:597-605). -/
def negative (bits : Nat) : Bool := 2 ^ 63 ≤ bits

/-- The value without its sign (include/blackhole/extensions/format.hpp:2405-2407): `value = -value` if it is
negative. -/
def magnitude (bits : Nat) : Nat := bits % 2 ^ 63

/-- `isnotanumber` (include/blackhole/extensions/format.hpp:616-623) of a value without sign. -/
def isNan (m : Nat) : Bool := 2047 * 2 ^ 52 < m

/-- `isinfinity` (include/blackhole/extensions/format.hpp:607-614) of a value without sign. -/
def isInf (m : Nat) : Bool := m = 2047 * 2 ^ 52

/-- `*p` for reading (include/blackhole/extensions/format.hpp:2495, 2512). -/
def get (b : Buf) (i : Nat) : Except Buffer.Err Char :=
  match b.arr[i]? with
  | none => .error (.ub .outOfBounds)
  | some none => .error (.ub .uninitialised)
  | some (some c) => .ok c

/-- `std::copy(p, p + n, q)` inside of the buffer (include/blackhole/extensions/format.hpp:2507); unwritten characters
may be copied. -/
def shift (b : Buf) (p n q : Nat) : Except Buffer.Err Buf :=
  if p + n ≤ b.arr.length ∧ q + n ≤ b.arr.length then
    .ok (b.setArr (b.arr.take q ++ (b.arr.drop p).take n ++ b.arr.drop (q + n)))
  else .error (.ub .outOfBounds)

/-- `write_str` (include/blackhole/extensions/format.hpp:2192-2213) with the place of the text in the buffer, and
`fill_padding` (2215-2228). -/
def writeStr (room : Bool) (spec : Spec) (s : Str) (b : Buf) : Except Buffer.Err (Buf × Nat) := do
  let start := b.size
  if spec.width > s.length then
    let b ← b.resize room (start + spec.width)
    let padding := spec.width - s.length
    match spec.align with
    | .right =>
      let b ← b.copyTo start (List.replicate padding spec.fill)
      let b ← b.copyTo (start + padding) s
      .ok (b, start + padding)
    | .center =>
      let left := padding / 2
      let b ← b.copyTo start (List.replicate left spec.fill)
      let b ← b.copyTo (start + left + s.length) (List.replicate (padding - left) spec.fill)
      let b ← b.copyTo (start + left) s
      .ok (b, start + left)
    | _ =>
      let b ← b.copyTo (start + s.length) (List.replicate padding spec.fill)
      let b ← b.copyTo start s
      .ok (b, start)
  else
    let b ← b.resize room (start + s.length)
    let b ← b.copyTo start s
    .ok (b, start)

/-- NaN and infinity (include/blackhole/extensions/format.hpp:2412-2440): `word` has a space for the sign in front. -/
def writeWord (room : Bool) (spec : Spec) (sign : Option Char) (word : Str) (b : Buf) : Except Buffer.Err Buf :=
  match sign with
  | none => do
    let (b, _) ← writeStr room spec (word.drop 1) b
    .ok b
  | some c => do
    let (b, out) ← writeStr room spec word b
    b.set out c

/-- The text of `%-*` or `%*` for a converted value (include/blackhole/extensions/format.hpp:2456-2473). -/
def printfWidth (left : Bool) (width : Nat) (body : Str) : Str :=
  if left then body ++ List.replicate (width - body.length) ' ' else List.replicate (width - body.length) ' ' ++ body

/-- `snprintf(ptr_ + start, n, ...)` (include/blackhole/extensions/format.hpp:2478-2491): as much of the text as fits,
and a NUL. The result is negative (here none) if the length is no `int`. -/
def snprintf (b : Buf) (start n : Nat) (text : Str) : Except Buffer.Err (Buf × Option Nat) :=
  if text.length ≥ 2 ^ 31 then .ok (b, none)
  else if n = 0 then .ok (b, some text.length)
  else
    match b.copyTo start (text.take (n - 1) ++ ['\x00']) with
    | .error e => .error e
    | .ok b => .ok (b, some text.length)

/-- `while (*start == ' ') *start++ = fill;` (include/blackhole/extensions/format.hpp:2512-2513): the buffer and
`start` after it. -/
def fillSpaces (fill : Char) : (fuel : Nat) → Buf → Nat → Except Buffer.Err (Buf × Nat)
  | 0, _, _ => .error (.ub .outOfBounds)
  | fuel + 1, b, i =>
    match get b i with
    | .error e => .error e
    | .ok c =>
      if c = ' ' then
        match b.set i fill with
        | .error e => .error e
        | .ok b => fillSpaces fill fuel b (i + 1)
      else .ok (b, i)

/-- The sign in front of the converted text (include/blackhole/extensions/format.hpp:2493-2502): the buffer and the
sign that is still to be written. -/
def putSign (spec : Spec) (sign : Option Char) (b : Buf) (start : Nat) : Except Buffer.Err (Buf × Option Char) :=
  match sign with
  | none => .ok (b, none)
  | some c =>
    match get b start with
    | .error e => .error e
    | .ok d =>
      if (spec.align ≠ .right ∧ spec.align ≠ .default) ∨ d ≠ ' ' then
        (b.set (start - 1) c).map fun b => (b, none)
      else (b.set (start - 1) spec.fill).map fun b => (b, some c)

/-- Padding to the left of the number, and the sign that is still to be written
(include/blackhole/extensions/format.hpp:2511-2516). -/
def fillFront (spec : Spec) (pending : Option Char) (b : Buf) (start : Nat) : Except Buffer.Err Buf :=
  if spec.fill ≠ ' ' ∨ pending.isSome then do
    let (b, i) ← fillSpaces spec.fill (b.capacity + 1) b start
    match pending with
    | none => .ok b
    | some c => b.set (i - 1) c
  else .ok b

/-- What happens once the text fits (include/blackhole/extensions/format.hpp:2492-2519); `n` is its length. -/
def place (room : Bool) (spec : Spec) (sign : Option Char) (b : Buf) (start n : Nat) : Except Buffer.Err Buf := do
  let (b, pending) ← putSign spec sign b start
  let n := if sign.isSome then n + 1 else n
  if spec.align = .center ∧ spec.width > n then
    let p := b.size
    let left := (spec.width - n) / 2
    let b ← b.resize room (p + spec.width)
    let b ← shift b p n (p + left)
    let b ← b.copyTo p (List.replicate left spec.fill)
    b.copyTo (p + left + n) (List.replicate (spec.width - n - left) spec.fill)
  else
    let b ← fillFront spec pending b start
    b.resize room (b.size + n)

/-- The loop (include/blackhole/extensions/format.hpp:2478-2523). Two rounds suffice unless `snprintf` fails, when the
buffer grows each time until there is no memory; running out of `fuel` cannot happen. -/
def attempt (room : Bool) (spec : Spec) (sign : Option Char) (text : Str) (offset : Nat) :
    (fuel : Nat) → Buf → Except Buffer.Err Buf
  | 0, _ => .error (.ub .assertion)
  | fuel + 1, b =>
    if b.capacity < offset then .error (.ub .outOfBounds)
    else
      match snprintf b offset (b.capacity - offset) text with
      | .error e => .error e
      | .ok (b, some n) =>
        if offset + n < b.capacity then place room spec sign b offset n
        else
          match b.reserve room (offset + n + 1) with
          | .error e => .error e
          | .ok b => attempt room spec sign text offset fuel b
      | .ok (b, none) =>
        match b.reserve room (b.capacity + 1) with
        | .error e => .error e
        | .ok b => attempt room spec sign text offset fuel b

/-- A finite value (include/blackhole/extensions/format.hpp:2442-2524). -/
def writeFinite (lib : Libc) (room : Bool) (spec : Spec) (sign : Option Char) (type : Char) (m : Nat) (b : Buf) :
    Except Buffer.Err Buf := do
  let offset := if sign.isSome then b.size + 1 else b.size
  let b ← if sign.isSome then b.reserve room (b.size + max spec.width 1) else .ok b
  let width := if sign.isSome then spec.width - 1 else spec.width
  let printfW := if spec.align = .center then 0 else width
  let text := printfWidth (spec.align = .left) printfW (lib spec.hash spec.precision type m)
  attempt room spec sign text offset 200 b

/-- `write_double` (include/blackhole/extensions/format.hpp:2375-2524): the type (2380-2400), the sign (2402-2410),
and the three kinds of values. -/
def writeDouble (lib : Libc) (room : Bool) (spec : Spec) (bits : Nat) (b : Buf) : Except Fail Buf := do
  let (type, upper) ← match spec.type with
    | none => .ok ('g', false)
    | some c =>
      if c ∈ ch! "efga" then .ok (c, false)
      else if c ∈ ch! "FEGA" then .ok (c, true)
      else .error (.format (Fmt.unknownType c (ch! "double")))
  let sign : Option Char :=
    if negative bits then some '-'
    else if spec.sign then some (if spec.plus then '+' else ' ')
    else none
  let m := magnitude bits
  if isNan m then lift (writeWord room spec sign (if upper then ch! " NAN" else ch! " nan") b)
  else if isInf m then lift (writeWord room spec sign (if upper then ch! " INF" else ch! " inf") b)
  else lift (writeFinite lib room spec sign type m b)

/-- Something written to a `fmt::MemoryWriter`: a text with `<<` (include/blackhole/extensions/format.hpp:2162-2166) or
a number by a replacement field. -/
inductive Piece where
  | text (s : Str)
  | number (spec : Spec) (bits : Nat)

/-- Writing pieces one after the other, while there is memory (include/blackhole/extensions/format.hpp:2162-2166,
src/format.cpp:1231-1249). -/
def writeAll (lib : Libc) : Buf → List Piece → Except Fail Buf
  | b, [] => .ok b
  | b, .text s :: ps => do
    let b ← lift (b.append true s)
    writeAll lib b ps
  | b, .number spec bits :: ps => do
    let b ← writeDouble lib true spec bits b
    writeAll lib b ps

end Blackhole.Double
