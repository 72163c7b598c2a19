import Verif.FmtArgs.Model
import Verif.Double.Model

/-!
# `fmt::sprintf` and `fmt::printf` (include/blackhole/extensions/format.hpp, src/format.cpp)

The formatter with directives like those of the C library. Values are those of `Verif.FmtArgs.Model`; that position `i`
of the packed list holds argument `i` is proved there, so the arguments are a list here. Rendering of floating-point
numbers is a parameter, for which `doubleText` stands. Wide strings and `long double` are left out; an output buffer that cannot be allocated as well.
-/

namespace Blackhole.Printf

open Fmt (Err Spec Next Buf peek isDigit parseNonneg prepare countDigits countLoop writeLoop formatDecimal finish lower
  upper unknownType powers32 powers64 pad writeStr charValue)
open FmtArgs (Val)

/-! ## Numbers with a precision -/

/-- `prepare_int_buffer` (include/blackhole/extensions/format.hpp:2230-2291) with its first branch (2238-2262), which
needs a precision; `Fmt.prepare` is the rest. -/
def prepareInt (numDigits : Nat) (spec : Spec) (pre : Str) : Except Err (Buf × Nat) := do
  match spec.precision with
  | none => prepare numDigits spec pre
  | some p =>
    if p > numDigits then
      let pre := if pre.getLast? = some '0' then pre.dropLast else pre
      let numberSize := pre.length + p
      let subspec : Spec := { width := numberSize, fill := '0', align := .numeric }
      if numberSize ≥ spec.width then prepare numDigits subspec pre
      else
        let fillSize := spec.width - numberSize
        let (b, e) ← prepare numDigits subspec pre
        if spec.align ≠ .left then .ok (List.replicate fillSize (some spec.fill) ++ b, fillSize + e)
        else .ok (b ++ List.replicate fillSize (some spec.fill), e)
    else prepare numDigits spec pre

/-- `write_int` (include/blackhole/extensions/format.hpp:2293-2373) for a type of `bits` bits. -/
def writeInt (bits : Nat) (spec : Spec) (z : Int) : Except Err Str := do
  let unsigned := (z % 2 ^ bits).toNat
  let (pre, abs) : Str × Nat :=
    if z < 0 then (['-'], (2 ^ bits - unsigned) % 2 ^ bits)
    else if spec.sign then (if spec.plus then ['+'] else [' '], unsigned)
    else ([], unsigned)
  let based (base : Nat) (digits : Str) (pre : Str) : Except Err Str := do
    let n ← countLoop base (bits + 1) abs
    let (b, e) ← prepareInt n spec pre
    let b ← writeLoop base digits (bits + 1) b e abs
    finish b
  match spec.type with
  | none | some 'd' =>
    let n ← countDigits (if bits ≤ 32 then powers32 else powers64) abs
    let (b, e) ← prepareInt n spec pre
    let b ← formatDecimal (bits + 1) b e abs
    finish b
  | some 'x' => based 16 lower (if spec.hash then pre ++ ['0', 'x'] else pre)
  | some 'X' => based 16 upper (if spec.hash then pre ++ ['0', 'X'] else pre)
  | some 'b' => based 2 lower (if spec.hash then pre ++ ['0', 'b'] else pre)
  | some 'B' => based 2 lower (if spec.hash then pre ++ ['0', 'B'] else pre)
  | some 'o' => based 8 lower (if spec.hash then pre ++ ['0'] else pre)
  | some c => .error (unknownType c (ch! "integer"))

/-! ## Visitors -/

/-- What `visit_any_int` is called with (include/blackhole/extensions/format.hpp:1160-1178, 1216-1231): the bits of the
type and the value. A `bool` stays 0 or 1 in every conversion and is given as an `int`. None for the other types. -/
def anyInt : Val → Option (Nat × Int)
  | .arg (.int z) => some (32, z)
  | .arg (.uint n) => some (32, n)
  | .arg (.long z) => some (64, z)
  | .arg (.ulong n) => some (64, n)
  | .arg (.bool b) => some (32, if b then 1 else 0)
  | .arg (.char c) => some (32, charValue c)
  | .uchar c => some (32, c.toNat)
  | _ => none

/-- `type <= LAST_NUMERIC_TYPE` (include/blackhole/extensions/format.hpp:892-899). -/
def isNumeric : Val → Bool
  | .arg (.double _) => true
  | v => (anyInt v).isSome

/-- `IsZeroInt` (src/format.cpp:261-266). -/
def isZeroInt (v : Val) : Bool :=
  match anyInt v with
  | some (_, z) => z == 0
  | none => false

/-- `WidthHandler` (src/format.cpp:312-338): a negative width is its absolute value and aligns to the left. -/
def widthOf (spec : Spec) (v : Val) : Except Err Spec :=
  match anyInt v with
  | none => .error (.format (ch! "width is not integer"))
  | some (bits, z) =>
    let spec := if z < 0 then { spec with align := .left } else spec
    let width : Nat := if z < 0 then (-z % 2 ^ bits).toNat else z.toNat
    if width > 2 ^ 31 - 1 then .error (.format (ch! "number is too big")) else .ok { spec with width := width }

/-- `PrecisionHandler` (src/format.cpp:340-354). A negative precision is not greater than any number of digits and is
not applied to strings (src/format.cpp:804): it is none. -/
def precisionOf (v : Val) : Except Err (Option Nat) :=
  match anyInt v with
  | none => .error (.format (ch! "precision is not integer"))
  | some (_, z) =>
    if z < -2 ^ 31 ∨ 2 ^ 31 - 1 < z then .error (.format (ch! "number is too big"))
    else .ok (if z < 0 then none else some z.toNat)

/-- `ArgConverter<T>` (src/format.cpp:356-395) for a `T` of `bits` bits; `bits` of `U` in the second half, where the
value is not converted to `T`. Other types are left alone. -/
def convert (bits : Nat) (type : Char) (v : Val) : Val :=
  match anyInt v with
  | none => v
  | some (ubits, z) =>
    let signed : Bool := type = 'd' ∨ type = 'i'
    if bits ≤ 32 then
      if signed then .arg (.int (Int.bmod z (2 ^ bits))) else .arg (.uint (z % 2 ^ bits).toNat)
    else
      if signed then .arg (.long (Int.bmod (z % 2 ^ ubits) (2 ^ 64))) else .arg (.ulong (z % 2 ^ ubits).toNat)

/-- `CharConverter` (src/format.cpp:397-411). -/
def toChar (v : Val) : Val :=
  match anyInt v with
  | none => v
  | some (_, z) => .arg (.char (Char.ofNat (z % 256).toNat))

/-- `PrintfArgFormatter::visit_char` (src/format.cpp:521-541): a number is written first if the type is not `c`. -/
def writeChar (spec : Spec) (value : Int) (c : Char) : Except Err Str := do
  let number ← if spec.type ≠ none ∧ spec.type ≠ some 'c' then writeInt 32 spec value else .ok []
  .ok (number ++
    if spec.width > 1 then
      if spec.align ≠ .left then List.replicate (spec.width - 1) ' ' ++ [c] else c :: List.replicate (spec.width - 1) ' '
    else [c])

/-- `PrintfArgFormatter` (src/format.cpp:433-494, 514-549). The type is always present, so that `visit_bool` writes a
number. -/
def writeVal (fd : Spec → Nat → Except Err Str) (spec : Spec) : Val → Except Err Str
  | .arg (.int z) => writeInt 32 spec z
  | .arg (.uint n) => writeInt 32 spec n
  | .arg (.long z) => writeInt 64 spec z
  | .arg (.ulong n) => writeInt 64 spec n
  | .arg (.bool b) => writeInt 32 spec (if b then 1 else 0)
  | .arg (.char c) => writeChar spec (charValue c) c
  | .uchar c => writeChar spec c.toNat c
  | .arg (.double bits) => fd spec bits
  | .arg (.cstr s) => writeStr spec (some ([], s ++ ['\x00']))
  | .arg (.str s behind) => writeStr spec (some (s, behind))
  | .arg .strNull => writeStr spec none
  | .ptr n =>
    match spec.type with
    | some c => if c ≠ 'p' then .error (unknownType c (ch! "pointer")) else go n
    | none => go n
  | .custom text => .ok text
where
  go (n : Nat) : Except Err Str :=
    writeInt 64 { spec with sign := false, plus := false, minus := false, hash := true, type := some 'x' } n

/-! ## Parsing -/

/-- `parse_flags` (src/format.cpp:889-914). -/
def parseFlags (spec : Spec) : Str → Spec × Str
  | '-' :: s => parseFlags { spec with align := .left } s
  | '+' :: s => parseFlags { spec with sign := true, plus := true } s
  | '0' :: s => parseFlags { spec with fill := '0' } s
  | ' ' :: s => parseFlags { spec with sign := true } s
  | '#' :: s => parseFlags { spec with hash := true } s
  | s => (spec, s)

/-- `get_arg` (src/format.cpp:916-926) with `do_get_arg`, `next_arg` and `FormatterBase::get_arg` (852-887). An index is
counted from one; index 0 wraps to one that no list has. -/
def getArg (args : List Val) (next : Next) (s : Str) (index : Option Nat) : Except Err (Val × Next) :=
  let fail (e : Str) : Except Err (Val × Next) := .error (.format (if s = [] then ch! "invalid format string" else e))
  match index with
  | none =>
    match next with
    | some i =>
      match args[i]? with
      | some v => .ok (v, some (i + 1))
      | none => fail (ch! "argument index out of range")
    | none => fail (ch! "cannot switch from manual to automatic argument indexing")
  | some k =>
    match next with
    | some (_ + 1) => fail (ch! "cannot switch from automatic to manual argument indexing")
    | _ =>
      match (if k = 0 then none else args[k - 1]?) with
      | some v => .ok (v, none)
      | none => fail (ch! "argument index out of range")

/-- The end of `parse_header` (src/format.cpp:951-960). -/
def parseRest (args : List Val) (next : Next) (spec : Spec) (s : Str) : Except Err (Spec × Next × Str) :=
  let (spec, s) := parseFlags spec s
  if isDigit (peek s) then (parseNonneg s).map fun (v, s) => ({ spec with width := v }, next, s)
  else
    match s with
    | '*' :: s => do
      let (v, next) ← getArg args next s none
      let spec ← widthOf spec v
      .ok (spec, next, s)
    | _ => .ok (spec, next, s)

/-- `parse_header` (src/format.cpp:928-960). -/
def parseHeader (args : List Val) (next : Next) (spec : Spec) (s : Str) :
    Except Err (Option Nat × Spec × Next × Str) :=
  let c := peek s
  if isDigit c then do
    let (value, s) ← parseNonneg s
    if peek s = '$' then (parseRest args next spec s.tail).map fun r => (some value, r)
    else
      let spec := if c = '0' then { spec with fill := '0' } else spec
      if value ≠ 0 then .ok (none, { spec with width := value }, next, s)
      else (parseRest args next spec s).map fun r => (none, r)
  else (parseRest args next spec s).map fun r => (none, r)

/-- The precision (src/format.cpp:983-992). -/
def parsePrecision (args : List Val) (next : Next) (spec : Spec) (s : Str) : Except Err (Spec × Next × Str) :=
  match s with
  | '.' :: s =>
    if isDigit (peek s) then (parseNonneg s).map fun (v, s) => ({ spec with precision := some v }, next, s)
    else
      match s with
      | '*' :: s => do
        let (v, next) ← getArg args next s none
        let p ← precisionOf v
        .ok ({ spec with precision := p }, next, s)
      | _ => .ok (spec, next, s)
  | _ => .ok (spec, next, s)

/-- The length and the conversion of the argument (src/format.cpp:1004-1034). -/
def parseLength (v : Val) (s : Str) : Val × Str :=
  match s with
  | 'h' :: 'h' :: s => (convert 8 (peek s) v, s)
  | 'h' :: s => (convert 16 (peek s) v, s)
  | 'l' :: 'l' :: s => (convert 64 (peek s) v, s)
  | 'l' :: s => (convert 64 (peek s) v, s)
  | 'j' :: s => (convert 64 (peek s) v, s)
  | 'z' :: s => (convert 64 (peek s) v, s)
  | 't' :: s => (convert 64 (peek s) v, s)
  | 'L' :: s => (v, s)
  | s => (convert 32 (peek s) v, s)

/-- The flags that depend on the argument (src/format.cpp:995-1002). -/
def adjust (spec : Spec) (v : Val) : Spec :=
  let spec := if spec.hash && isZeroInt v then { spec with hash := false } else spec
  if spec.fill = '0' then
    if isNumeric v then { spec with align := .numeric } else { spec with fill := ' ' }
  else spec

/-- The type and the value (src/format.cpp:1036-1056). -/
def writeTyped (fd : Spec → Nat → Except Err Str) (spec : Spec) (v : Val) (c : Char) : Except Err Str :=
  if (anyInt v).isSome then
    if c = 'i' ∨ c = 'u' then writeVal fd { spec with type := some 'd' } v
    else if c = 'c' then writeVal fd { spec with type := some c } (toChar v)
    else writeVal fd { spec with type := some c } v
  else writeVal fd { spec with type := some c } v

/-- A directive after its `%` (src/format.cpp:977-1056). -/
def directive (fd : Spec → Nat → Except Err Str) (args : List Val) (next : Next) (s : Str) :
    Except Err (Str × Next × Str) := do
  let (index, spec, next, s) ← parseHeader args next { align := .right } s
  let (spec, next, s) ← parsePrecision args next spec s
  let (v, next) ← getArg args next s index
  let spec := adjust spec v
  let (v, s) := parseLength v s
  match s with
  | [] => .error (.format (ch! "invalid format string"))
  | c :: s => do
    let out ← writeTyped fd spec v c
    .ok (out, next, s)

/-- The loop of `format` (src/format.cpp:962-1059) on what is left of the C string. Every turn consumes a character;
`fuel` is its length. -/
def formatLoop (fd : Spec → Nat → Except Err Str) (args : List Val) : (fuel : Nat) → Next → Str → Except Err Str
  | _, _, [] => .ok []
  | 0, _, _ => .error (.ub .outOfBounds)
  | fuel + 1, next, c :: s =>
    if c ≠ '%' then (formatLoop fd args fuel next s).map (c :: ·)
    else if peek s = '%' then (formatLoop fd args fuel next s.tail).map ('%' :: ·)
    else
      match directive fd args next s with
      | .error e => .error e
      | .ok (out, next, s) => (formatLoop fd args fuel next s).map (out ++ ·)

/-- `sprintf(format, args...)` (include/blackhole/extensions/format.hpp:2784-2801); the format is a C string. -/
def sprintf (fd : Spec → Nat → Except Err Str) (format : Str) (args : List Val) : Except Err Str :=
  let s := Config.cstr format
  formatLoop fd args s.length (some 0) s

/-- The text that `visit_any_double` (src/format.cpp:436-437) appends to a writer by `write_double`
(include/blackhole/extensions/format.hpp:2375-2524), here to an empty one; that what the writer holds does not matter
is proved for C71. -/
def doubleText (lib : Double.Libc) (spec : Spec) (bits : Nat) : Except Err Str :=
  match Double.writeDouble lib true spec bits Buffer.Buf.init with
  | .ok b =>
    match b.read with
    | .ok s => .ok s
    | .error .alloc => .error (.format (ch! "std::bad_alloc"))
    | .error (.ub u) => .error (.ub u)
  | .error (.format e) => .error e
  | .error (.buffer .alloc) => .error (.format (ch! "std::bad_alloc"))
  | .error (.buffer (.ub u)) => .error (.ub u)

end Blackhole.Printf
