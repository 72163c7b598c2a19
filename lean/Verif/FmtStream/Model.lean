import Verif.Fmt.Model

/-!
# Integers and padded values written with `<<`, `FormatInt` (include/blackhole/extensions/format.hpp)

Integers given to a writer with `<<`, with or without the manipulators `bin`, `oct`, `hex`, `hexu` and `pad`; the class
`FormatInt` with its own array; and the function `format_decimal`, which writes into memory of the caller. `long` has
64 bits.
-/

namespace Blackhole.FmtStream
open Fmt (Buf Err put putBefore putTwo digitsAt countDigits powers32 powers64 formatDecimal finish writeInt)

/-- The integer types that `operator<<` of a writer and `FormatInt` take
(include/blackhole/extensions/format.hpp:2099-2125, 2877-2882). -/
inductive IntType where
  | int | long | longLong | unsigned | unsignedLong | unsignedLongLong
  deriving DecidableEq, Repr

/-- The bits of `IntTraits<T>::MainType` (include/blackhole/extensions/format.hpp:703-716). -/
def IntType.bits : IntType → Nat
  | .int | .unsigned => 32
  | _ => 64

/-- `std::numeric_limits<T>::is_signed` (include/blackhole/extensions/format.hpp:697-701). -/
def IntType.signed : IntType → Bool
  | .int | .long | .longLong => true
  | _ => false

/-- `write_unsigned_decimal` (include/blackhole/extensions/format.hpp:1951-1958): the new part of the buffer. -/
def writeUnsignedDecimal (bits value prefixSize : Nat) : Except Err Buf := do
  let numDigits ← countDigits (if bits ≤ 32 then powers32 else powers64) value
  formatDecimal (bits + 1) (List.replicate (prefixSize + numDigits) none) (prefixSize + numDigits) value

/-- `write_decimal` (include/blackhole/extensions/format.hpp:1960-1970). -/
def writeDecimal (bits : Nat) (z : Int) : Except Err Str := do
  let absValue := (z % 2 ^ bits).toNat
  if z < 0 then
    let b ← writeUnsignedDecimal bits ((2 ^ bits - absValue) % 2 ^ bits) 1
    let b ← put b 0 '-'
    finish b
  else
    let b ← writeUnsignedDecimal bits absValue 0
    finish b

/-- `writer << value` (include/blackhole/extensions/format.hpp:2099-2125): signed types are written directly, unsigned
ones with an `IntFormatSpec` without anything in it (2176-2180). -/
def stream (t : IntType) (z : Int) : Except Err Str :=
  if t.signed then writeDecimal t.bits z else writeInt t.bits false {} z

/-- What `bin`, `oct`, `hex` and `hexu` return (include/blackhole/extensions/format.hpp:1581-1597): the value with a
type letter. -/
inductive Base where
  | bin | oct | hex | hexu
  deriving DecidableEq, Repr

/-- The type letters (include/blackhole/extensions/format.hpp:1581-1597). -/
def Base.letter : Base → Char
  | .bin => 'b'
  | .oct => 'o'
  | .hex => 'x'
  | .hexu => 'X'

/-- What is written with `<<`: `base(value)`, `pad(base(value), width, fill)`, `pad(value, width, fill)`
(include/blackhole/extensions/format.hpp:1580-1629, 1510-1521); the fill is a space if it is left out. -/
structure Shown where
  type : IntType
  value : Int
  base : Option Base := none
  pad : Option (Nat × Char) := none

/-- `writer << spec` of an `IntFormatSpec` (include/blackhole/extensions/format.hpp:2175-2180). `TypeSpec` (1450-1459)
has no width, `AlignTypeSpec` (1486-1493) has the default alignment; neither has flags. -/
def Shown.stream (s : Shown) : Except Err Str :=
  let type := s.base.map Base.letter
  let spec : Fmt.Spec :=
    match s.pad with
    | none => { type := type }
    | some (width, fill) => { type := type, width := width, fill := fill }
  writeInt s.type.bits false spec s.value

/-- `writer << pad(str, width, fill)` (include/blackhole/extensions/format.hpp:1643-1651, 2182-2187); `str` is a C
string, given by its characters. -/
def streamPadded (str : Str) (width : Nat) (fill : Char) : Str := Fmt.pad { width := width, fill := fill } str

/-! ## FormatInt -/

/-- `BUFFER_SIZE` (include/blackhole/extensions/format.hpp:2840). -/
def bufferSize : Nat := 22

/-- `FormatInt` (include/blackhole/extensions/format.hpp:2836-2842). The pointer `str_` is the number of the object
into whose array it points, and a position there. -/
structure FormatInt where
  self : Nat
  buffer : Buf
  strOf : Nat
  strAt : Nat
  deriving DecidableEq, Repr

/-- `FormatInt::format_decimal` (include/blackhole/extensions/format.hpp:2845-2865) from `end` on; `fuel` bounds the
turns of the loop. -/
def reverseDecimal : (fuel : Nat) → Buf → Nat → Nat → Except Err (Buf × Nat)
  | 0, _, _, _ => .error (.ub .outOfBounds)
  | fuel + 1, b, e, value =>
    if value ≥ 100 then
      match putTwo b e ((value % 100) * 2) with
      | .error x => .error x
      | .ok (b, e) => reverseDecimal fuel b e (value / 100)
    else if value < 10 then putBefore b e (Char.ofNat (48 + value))
    else putTwo b e (value * 2)

/-- `FormatSigned` (include/blackhole/extensions/format.hpp:2867-2874) on the bits of a `LongLong`. -/
def formatSigned (b : Buf) (z : Int) : Except Err (Buf × Nat) := do
  let absValue := (z % 2 ^ 64).toNat
  let absValue := if z < 0 then (2 ^ 64 - absValue) % 2 ^ 64 else absValue
  let (b, e) ← reverseDecimal 65 b (bufferSize - 1) absValue
  if z < 0 then putBefore b e '-' else .ok (b, e)

/-- The constructors (include/blackhole/extensions/format.hpp:2877-2882); the array is not initialised. -/
def FormatInt.make (self : Nat) (t : IntType) (z : Int) : Except Err FormatInt := do
  let b : Buf := List.replicate bufferSize none
  let (b, e) ← if t.signed then formatSigned b z else reverseDecimal 65 b (bufferSize - 1) (z % 2 ^ 64).toNat
  .ok { self := self, buffer := b, strOf := self, strAt := e }

/-- `size()` (include/blackhole/extensions/format.hpp:2887): the difference of two pointers, which is not defined if
they point into different arrays. -/
def FormatInt.size (o : FormatInt) : Except Err Nat :=
  if o.strOf = o.self then .ok (bufferSize - 1 - o.strAt) else .error (.ub .outOfBounds)

/-- `str()` (include/blackhole/extensions/format.hpp:2910). -/
def FormatInt.str (o : FormatInt) : Except Err Str := do
  let n ← o.size
  if o.strAt + n ≤ o.buffer.length then finish ((o.buffer.drop o.strAt).take n) else .error (.ub .outOfBounds)

/-- The characters up to the first NUL (how a caller reads what `c_str`,
include/blackhole/extensions/format.hpp:2900-2903, returns). -/
def cString : Buf → Except Err Str
  | [] => .error (.ub .outOfBounds)
  | none :: _ => .error (.ub .uninitialised)
  | some c :: b => if c = '\x00' then .ok [] else (cString b).map (c :: ·)

/-- `c_str()` (include/blackhole/extensions/format.hpp:2900-2903) and what a caller reads through it, if `str_` points
into the array of the object itself. -/
def FormatInt.cStr (o : FormatInt) : Except Err Str := do
  let b ← put o.buffer (bufferSize - 1) '\x00'
  if o.strOf = o.self then cString (b.drop o.strAt) else .error (.ub .dangling)

/-- The copy that the compiler makes (there is no copy constructor,
include/blackhole/extensions/format.hpp:2836-2911): `str_` is copied as it is. -/
def FormatInt.copy (o : FormatInt) (self : Nat) : FormatInt := { o with self := self }

/-! ## format_decimal -/

/-- `format_decimal(buffer, value)` (include/blackhole/extensions/format.hpp:2916-2935) for a type of `bits` bits, on
the memory `b` at position `at_`: the memory and the position after the text. -/
def formatDecimalAt (bits : Nat) (b : Buf) (at_ : Nat) (z : Int) : Except Err (Buf × Nat) := do
  let absValue := (z % 2 ^ bits).toNat
  let (b, at_, absValue) ←
    if z < 0 then do
      let b ← put b at_ '-'
      pure (b, at_ + 1, (2 ^ bits - absValue) % 2 ^ bits)
    else pure (b, at_, absValue)
  if absValue < 10 then
    let b ← put b at_ (Char.ofNat (48 + absValue))
    .ok (b, at_ + 1)
  else if absValue < 100 then
    let hi ← digitsAt (absValue * 2)
    let b ← put b at_ hi
    let lo ← digitsAt (absValue * 2 + 1)
    let b ← put b (at_ + 1) lo
    .ok (b, at_ + 2)
  else
    let numDigits ← countDigits (if bits ≤ 32 then powers32 else powers64) absValue
    let b ← formatDecimal (bits + 1) b (at_ + numDigits) absValue
    .ok (b, at_ + numDigits)

end Blackhole.FmtStream
