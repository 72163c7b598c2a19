import Verif.Config.Model

/-!
# The bundled formatting library (include/blackhole/extensions/format.hpp, src/format.cpp)

`format(pattern, args...)` for positional arguments. Rendering of floating-point numbers is a parameter (`write_double` is in Verif/Double).
Named arguments, pointers and how arguments are packed are in Verif/FmtArgs; wide strings are left out. An argument of user type is a string argument, because it is
first printed to a string (include/blackhole/extensions/format.hpp:2666-2676).
-/

namespace Blackhole.Fmt

/-- `FormatError` with its text, or undefined behaviour (include/blackhole/extensions/format.hpp:404-408). -/
inductive Err where
  | format (msg : Str)
  | ub (u : UB)
  deriving DecidableEq, Repr

/-! ## Decimal digits -/

/-- `POWERS_OF_10_64` (src/format.cpp:614-622). -/
def powers64 : List Nat :=
  [0, 10, 100, 1000, 10000, 100000, 1000000, 10000000, 100000000, 1000000000,
   10000000000, 100000000000, 1000000000000, 10000000000000, 100000000000000, 1000000000000000, 10000000000000000,
   100000000000000000, 1000000000000000000, 10000000000000000000]

/-- `POWERS_OF_10_32` (src/format.cpp:609-612). -/
def powers32 : List Nat := [0, 10, 100, 1000, 10000, 100000, 1000000, 10000000, 100000000, 1000000000]

/-- `DIGITS` (src/format.cpp:590-596). -/
def DIGITS : Str :=
  ch! "0001020304050607080910111213141516171819" ++
  ch! "2021222324252627282930313233343536373839" ++
  ch! "4041424344454647484950515253545556575859" ++
  ch! "6061626364656667686970717273747576777879" ++
  ch! "8081828384858687888990919293949596979899"

/-- `count_digits` (include/blackhole/extensions/format.hpp:757-762, 783-786). `64 - clzll(m)` is the number of bits
of `m`. -/
def countDigits (powers : List Nat) (n : Nat) : Except Err Nat :=
  let t := ((Nat.log2 (n ||| 1) + 1) * 1233) >>> 12
  match powers[t]? with
  | none => .error (.ub .outOfBounds)
  | some p => .ok (t - (if n < p then 1 else 0) + 1)

/-- A part of the output buffer (include/blackhole/extensions/format.hpp:2230-2374); `none` has not been written. -/
abbrev Buf := List (Option Char)

/-- `*(p + i) = c` (include/blackhole/extensions/format.hpp:2230-2374). -/
def put (b : Buf) (i : Nat) (c : Char) : Except Err Buf :=
  if i < b.length then .ok (b.set i (some c)) else .error (.ub .outOfBounds)

/-- `*--p = c`, where `p` points `e` characters behind the beginning
(include/blackhole/extensions/format.hpp:790-809). -/
def putBefore (b : Buf) (e : Nat) (c : Char) : Except Err (Buf × Nat) :=
  match e with
  | 0 => .error (.ub .outOfBounds)
  | e + 1 =>
    match put b e c with
    | .error x => .error x
    | .ok b => .ok (b, e)

/-- `DIGITS[i]` (src/format.cpp:591-596). -/
def digitsAt (i : Nat) : Except Err Char :=
  match DIGITS[i]? with
  | some c => .ok c
  | none => .error (.ub .outOfBounds)

/-- Two digits, the right one first (include/blackhole/extensions/format.hpp:799-800, 807-808). -/
def putTwo (b : Buf) (e index : Nat) : Except Err (Buf × Nat) := do
  let hi ← digitsAt (index + 1)
  let (b, e) ← putBefore b e hi
  let lo ← digitsAt index
  putBefore b e lo

/-- `format_decimal` (include/blackhole/extensions/format.hpp:789-809); `e` is the end of the digits. At most `fuel`
turns of the loop are made (the number at least divides by 100 each time). -/
def formatDecimal (fuel : Nat) (b : Buf) (e value : Nat) : Except Err Buf :=
  match fuel with
  | 0 => .error (.ub .outOfBounds)
  | fuel + 1 =>
    if value ≥ 100 then do
      let (b, e) ← putTwo b e ((value % 100) * 2)
      formatDecimal fuel b e (value / 100)
    else if value < 10 then do
      let (b, _) ← putBefore b e (Char.ofNat (48 + value))
      .ok b
    else do
      let (b, _) ← putTwo b e (value * 2)
      .ok b

/-! ## Specifications -/

/-- include/blackhole/extensions/format.hpp:1437-1439. -/
inductive Align where
  | default | left | right | center | numeric
  deriving DecidableEq, Repr

/-- `FormatSpec` (include/blackhole/extensions/format.hpp:1475-1508). Flags are separate; no precision is -1. -/
structure Spec where
  align : Align := .default
  fill : Char := ' '
  width : Nat := 0
  sign : Bool := false
  plus : Bool := false
  minus : Bool := false
  hash : Bool := false
  precision : Option Nat := none
  type : Option Char := none
  deriving DecidableEq, Repr

/-- Copying characters to position `i` (`std::uninitialized_copy`, `std::fill_n`,
include/blackhole/extensions/format.hpp:2230-2300). -/
def fillAt (b : Buf) (i : Nat) : Str → Except Err Buf
  | [] => .ok b
  | c :: cs =>
    match put b i c with
    | .error e => .error e
    | .ok b => fillAt b (i + 1) cs

/-- `prepare_int_buffer` (include/blackhole/extensions/format.hpp:2230-2290): the new part of the buffer and the end of
the digits in it. A precision never reaches it from a replacement field (src/format.cpp:1210-1214). -/
def prepare (numDigits : Nat) (spec : Spec) (pre : Str) : Except Err (Buf × Nat) := do
  let size := pre.length + numDigits
  let width := spec.width
  if width ≤ size then
    let b ← fillAt (List.replicate size none) 0 pre
    .ok (b, size)
  else
    let b : Buf := List.replicate width none
    match spec.align with
    | .left =>
      let b ← fillAt b 0 pre
      let b ← fillAt b size (List.replicate (width - size) spec.fill)
      .ok (b, size)
    | .center =>
      let padding := width - size
      let left := padding / 2
      let b ← fillAt b 0 (List.replicate left spec.fill)
      let b ← fillAt b (left + size) (List.replicate (padding - left) spec.fill)
      let b ← fillAt b left pre
      .ok (b, left + size)
    | .numeric =>
      let b ← fillAt b 0 pre
      let b ← fillAt b pre.length (List.replicate (width - (size - pre.length) - pre.length) spec.fill)
      .ok (b, width)
    | _ =>
      let b ← fillAt b (width - size) pre
      let b ← fillAt b 0 (List.replicate (width - size) spec.fill)
      .ok (b, width)

/-- The counting loop of the bases 16, 8 and 2 (include/blackhole/extensions/format.hpp:2322-2325). -/
def countLoop (base : Nat) : (fuel : Nat) → Nat → Except Err Nat
  | 0, _ => .error (.ub .outOfBounds)
  | fuel + 1, n =>
    if n / base = 0 then .ok 1
    else
      match countLoop base fuel (n / base) with
      | .error e => .error e
      | .ok k => .ok (k + 1)

/-- The writing loop (include/blackhole/extensions/format.hpp:2328-2333). -/
def writeLoop (base : Nat) (digits : Str) : (fuel : Nat) → Buf → Nat → Nat → Except Err Buf
  | 0, _, _, _ => .error (.ub .outOfBounds)
  | fuel + 1, b, e, n =>
    match digits[n % base]? with
    | none => .error (.ub .outOfBounds)
    | some c =>
      match putBefore b e c with
      | .error x => .error x
      | .ok (b, e) => if n / base = 0 then .ok b else writeLoop base digits fuel b e (n / base)

/-- What the buffer holds in the end (`MemoryWriter::str`, include/blackhole/extensions/format.hpp:2065-2067). -/
def finish : Buf → Except Err Str
  | [] => .ok []
  | none :: _ => .error (.ub .uninitialised)
  | some c :: b =>
    match finish b with
    | .error e => .error e
    | .ok s => .ok (c :: s)

/-- The digits for `x` (include/blackhole/extensions/format.hpp:2329-2330). -/
def lower : Str := ch! "0123456789abcdef"
/-- The digits for `X` (include/blackhole/extensions/format.hpp:2329-2330). -/
def upper : Str := ch! "0123456789ABCDEF"

/-- `report_unknown_type` (src/format.cpp:624-633): `isprint` in the "C" locale; otherwise `{:02x}` of the code as an
`unsigned`, where `char` is signed. -/
def unknownType (code : Char) (type : Str) : Err :=
  if 32 ≤ code.toNat ∧ code.toNat ≤ 126 then .format (ch! "unknown format code '" ++ [code] ++ ch! "' for " ++ type)
  else
    let n := if code.toNat < 128 then code.toNat else code.toNat + (2 ^ 32 - 256)
    let digits := Nat.toDigits 16 n
    .format (ch! "unknown format code '\\x" ++ (List.replicate (2 - digits.length) '0' ++ digits) ++ ch! "' for " ++ type)

/-- `write_int` (include/blackhole/extensions/format.hpp:2293-2373) for a type of `bits` bits. -/
def writeInt (bits : Nat) (charFlag : Bool) (spec : Spec) (z : Int) : Except Err Str := do
  let unsigned := (z % 2 ^ bits).toNat
  let (pre, abs) : Str × Nat :=
    if z < 0 then (['-'], (2 ^ bits - unsigned) % 2 ^ bits)
    else if spec.sign then (if spec.plus then ['+'] else [' '], unsigned)
    else ([], unsigned)
  let based (base : Nat) (digits : Str) (pre : Str) : Except Err Str := do
    let n ← countLoop base (bits + 1) abs
    let (b, e) ← prepare n spec pre
    let b ← writeLoop base digits (bits + 1) b e abs
    finish b
  match spec.type with
  | none | some 'd' =>
    let n ← countDigits (if bits ≤ 32 then powers32 else powers64) abs
    let (b, e) ← prepare n spec pre
    let b ← formatDecimal (bits + 1) b e abs
    finish b
  | some 'x' => based 16 lower (if spec.hash then pre ++ ['0', 'x'] else pre)
  | some 'X' => based 16 upper (if spec.hash then pre ++ ['0', 'X'] else pre)
  | some 'b' => based 2 lower (if spec.hash then pre ++ ['0', 'b'] else pre)
  | some 'B' => based 2 lower (if spec.hash then pre ++ ['0', 'B'] else pre)
  | some 'o' => based 8 lower (if spec.hash then pre ++ ['0'] else pre)
  | some c => .error (unknownType c (if charFlag then ch! "char" else ch! "integer"))

/-- `write_str` (include/blackhole/extensions/format.hpp:2192-2213) and `fill_padding` (2215-2228); `visit_char`
(src/format.cpp:449-476) pads in the same way. -/
def pad (spec : Spec) (s : Str) : Str :=
  if spec.width > s.length then
    let padding := spec.width - s.length
    match spec.align with
    | .right => List.replicate padding spec.fill ++ s
    | .center => List.replicate (padding / 2) spec.fill ++ s ++ List.replicate (padding - padding / 2) spec.fill
    | _ => s ++ List.replicate padding spec.fill
  else s

/-! ## Arguments -/

/-- An argument (include/blackhole/extensions/format.hpp:892-899). -/
inductive Arg where
  | int (z : Int)
  | uint (n : Nat)
  | long (z : Int)
  | ulong (n : Nat)
  | bool (b : Bool)
  | char (c : Char)
  | double (bits : Nat)
  /-- A C string; what comes before its NUL. -/
  | cstr (s : Str)
  /-- A pointer and a size; `behind` is the memory after the characters. -/
  | str (s behind : Str)
  /-- A null pointer and size 0. -/
  | strNull
  deriving DecidableEq, Repr

/-- `type <= LAST_INTEGER_TYPE` (src/format.cpp:1210). -/
def Arg.isInteger : Arg → Bool
  | .int _ | .uint _ | .long _ | .ulong _ | .bool _ | .char _ => true
  | _ => false

/-- `type <= LAST_NUMERIC_TYPE` (src/format.cpp:294). -/
def Arg.isNumeric : Arg → Bool
  | .double _ => true
  | a => a.isInteger

/-- `write_str` of a string value (src/format.cpp:788-810). -/
def writeStr (spec : Spec) (a : Option (Str × Str)) : Except Err Str :=
  match spec.type with
  | some c => if c = 's' then go else .error (unknownType c (ch! "string"))
  | none => go
where
  go : Except Err Str :=
    match a with
    | none => .error (.format (ch! "string pointer is null"))
    | some (s, behind) =>
      let text : Except Err Str :=
        match s, behind with
        | _ :: _, _ => .ok s
        | [], [] => .error (.ub .outOfBounds)
        | [], behind => if '\x00' ∈ behind then .ok (Config.cstr behind) else .error (.ub .outOfBounds)
      match text with
      | .error e => .error e
      | .ok text =>
        .ok (pad spec (match spec.precision with
          | some p => text.take p
          | none => text))

/-- A `char` as an `int` (include/blackhole/extensions/format.hpp:1062-1064, 1231); `char` is signed. -/
def charValue (c : Char) : Int := if c.toNat < 128 then c.toNat else (c.toNat : Int) - 256

/-- The argument visitor (src/format.cpp:433-494). `fd` renders doubles. -/
def writeArg (fd : Spec → Nat → Except Err Str) (spec : Spec) : Arg → Except Err Str
  | .int z => writeInt 32 false spec z
  | .uint n => writeInt 32 false spec n
  | .long z => writeInt 64 false spec z
  | .ulong n => writeInt 64 false spec n
  | .bool b =>
    match spec.type with
    | some _ => writeInt 32 false spec (if b then 1 else 0)
    | none => writeStr spec (some (if b then ch! "true" else ch! "false", ['\x00']))
  | .char c =>
    match spec.type with
    | some t =>
      if t ≠ 'c' then writeInt 32 true spec (charValue c) else char c
    | none => char c
  | .double bits => fd spec bits
  | .cstr s => writeStr spec (some ([], s ++ ['\x00']))
  | .str s behind => writeStr spec (some (s, behind))
  | .strNull => writeStr spec none
where
  char (c : Char) : Except Err Str :=
    if spec.align = .numeric ∨ spec.sign ∨ spec.plus ∨ spec.minus ∨ spec.hash then
      .error (.format (ch! "invalid format specifier for char"))
    else .ok (pad spec [c])

/-! ## Parsing -/

/-- `*s` of the rest of a C string (src/format.cpp:1062-1228). -/
def peek : Str → Char
  | [] => '\x00'
  | c :: _ => c

/-- '0' <= c && c <= '9' (src/format.cpp:282, 828, 1137). -/
def isDigit (c : Char) : Bool := '0' ≤ c && c ≤ '9'

/-- src/format.cpp:288-291. -/
def isNameStart (c : Char) : Bool := ('a' ≤ c && c ≤ 'z') || ('A' ≤ c && c ≤ 'Z') || c == '_'

/-- The loop of `parse_nonnegative_int` (src/format.cpp:270-286). -/
def parseDigits (value : Nat) : Str → Nat × Str
  | [] => (value, [])
  | c :: s =>
    if isDigit c then
      let new := (value * 10 + (c.toNat - 48)) % 2 ^ 32
      if new < value then (2 ^ 32 - 1, s) else parseDigits new s
    else (value, c :: s)

/-- `parse_nonnegative_int` (src/format.cpp:270-286), after its first character was seen to be a digit. -/
def parseNonneg (s : Str) : Except Err (Nat × Str) :=
  let (v, s) := parseDigits 0 s
  if v > 2 ^ 31 - 1 then .error (.format (ch! "number is too big")) else .ok (v, s)

/-- `next_arg_index_` (include/blackhole/extensions/format.hpp:1356, src/format.cpp:866-882): the next automatic
index, or none after a manual one. -/
abbrev Next := Option Nat

/-- `do_get_arg` (src/format.cpp:852-865). -/
def doGetArg (args : List Arg) (i : Nat) : Except Str Arg :=
  match args[i]? with
  | some a => .ok a
  | none => .error (ch! "argument index out of range")

/-- `parse_arg_index` (src/format.cpp:825-835) with `next_arg` and `get_arg` (867-887). -/
def parseArgIndex (args : List Arg) (next : Next) (s : Str) : Except Err (Arg × Next × Str) :=
  let fail (s : Str) (e : Str) : Except Err (Arg × Next × Str) :=
    .error (.format (if peek s ≠ '}' ∧ peek s ≠ ':' then ch! "invalid format string" else e))
  if ¬ isDigit (peek s) then
    match next with
    | some i =>
      match doGetArg args i with
      | .ok a => .ok (a, some (i + 1), s)
      | .error e => fail s e
    | none => fail s (ch! "cannot switch from manual to automatic argument indexing")
  else
    match parseNonneg s with
    | .error e => .error e
    | .ok (i, s) =>
      match next with
      | some (_ + 1) => fail s (ch! "cannot switch from automatic to manual argument indexing")
      | _ =>
        match doGetArg args i with
        | .ok a => .ok (a, none, s)
        | .error e => fail s e

/-- Choosing the argument of a field (src/format.cpp:1245); `parse_arg_name` (837-850) finds nothing, because no
argument is named. -/
def parseArg (args : List Arg) (next : Next) (s : Str) : Except Err (Arg × Next × Str) :=
  if isNameStart (peek s) then
    match next with
    | some (_ + 1) => .error (.format (ch! "cannot switch from automatic to manual argument indexing"))
    | _ => .error (.format (ch! "argument not found"))
  else parseArgIndex args next s

/-- `require_numeric_argument` (src/format.cpp:293-299). -/
def requireNumeric (a : Arg) (c : Char) : Except Err Unit :=
  if a.isNumeric then .ok ()
  else .error (.format (ch! "format specifier '" ++ [c] ++ ch! "' requires numeric argument"))

/-- `check_sign` (src/format.cpp:301-310). -/
def checkSign (a : Arg) (c : Char) : Except Err Unit :=
  match requireNumeric a c with
  | .error e => .error e
  | .ok () =>
    match a with
    | .uint _ | .ulong _ => .error (.format (ch! "format specifier '" ++ [c] ++ ch! "' requires signed argument"))
    | _ => .ok ()

/-- The alignment of a character (src/format.cpp:1077-1090). -/
def alignOf : Char → Option Align
  | '<' => some .left
  | '>' => some .right
  | '=' => some .numeric
  | '^' => some .center
  | _ => none

/-- The check after the alignment (src/format.cpp:1099-1101). -/
def afterAlign (a : Arg) (spec : Spec) (s : Str) : Except Err (Spec × Str) :=
  if spec.align = .numeric then
    match requireNumeric a '=' with
    | .error e => .error e
    | .ok () => .ok (spec, s)
  else .ok (spec, s)

/-- Fill and alignment (src/format.cpp:1071-1104): the second character is tried first. -/
def parseAlign (a : Arg) (spec : Spec) (s : Str) : Except Err (Spec × Str) :=
  match s with
  | [] => .ok (spec, s)
  | c :: rest =>
    match alignOf (peek rest) with
    | some al =>
      if c = '}' then .ok ({ spec with align := al }, s)
      else if c = '{' then .error (.format (ch! "invalid fill character '{'"))
      else afterAlign a { spec with align := al, fill := c } (rest.drop 1)
    | none =>
      match alignOf c with
      | some al => afterAlign a { spec with align := al } rest
      | none => .ok (spec, s)

/-- src/format.cpp:1106-1120. -/
def parseSign (a : Arg) (spec : Spec) (s : Str) : Except Err (Spec × Str) :=
  match s with
  | '+' :: rest => (checkSign a '+').map fun _ => ({ spec with sign := true, plus := true }, rest)
  | '-' :: rest => (checkSign a '-').map fun _ => ({ spec with minus := true }, rest)
  | ' ' :: rest => (checkSign a ' ').map fun _ => ({ spec with sign := true }, rest)
  | _ => .ok (spec, s)

/-- src/format.cpp:1122-1126. -/
def parseHash (a : Arg) (spec : Spec) (s : Str) : Except Err (Spec × Str) :=
  match s with
  | '#' :: rest => (requireNumeric a '#').map fun _ => ({ spec with hash := true }, rest)
  | _ => .ok (spec, s)

/-- src/format.cpp:1128-1134. -/
def parseZero (a : Arg) (spec : Spec) (s : Str) : Except Err (Spec × Str) :=
  match s with
  | '0' :: rest => (requireNumeric a '0').map fun _ => ({ spec with align := .numeric, fill := '0' }, rest)
  | _ => .ok (spec, s)

/-- A width or precision given by an argument (src/format.cpp:1140-1167, 1178-1205). -/
def argNumber (args : List Arg) (next : Next) (what : Str) (s : Str) : Except Err (Nat × Next × Str) := do
  let (a, next, s) ← parseArg args next s
  match s with
  | '}' :: s =>
    let v ← match a with
      | .int z | .long z => if z < 0 then .error (.format (ch! "negative " ++ what)) else .ok z.toNat
      | .uint n | .ulong n => .ok n
      | _ => .error (.format (what ++ ch! " is not integer"))
    if v > 2 ^ 31 - 1 then .error (.format (ch! "number is too big")) else .ok (v, next, s)
  | _ => .error (.format (ch! "invalid format string"))

/-- src/format.cpp:1136-1169. -/
def parseWidth (args : List Arg) (next : Next) (spec : Spec) (s : Str) : Except Err (Spec × Next × Str) :=
  if isDigit (peek s) then
    (parseNonneg s).map fun (v, s) => ({ spec with width := v }, next, s)
  else
    match s with
    | '{' :: s => (argNumber args next (ch! "width") s).map fun (v, next, s) => ({ spec with width := v }, next, s)
    | _ => .ok (spec, next, s)

/-- src/format.cpp:1171-1215. -/
def parsePrecision (args : List Arg) (a : Arg) (next : Next) (spec : Spec) (s : Str) : Except Err (Spec × Next × Str) :=
  match s with
  | '.' :: s => do
    let (v, next, s) ←
      if isDigit (peek s) then (parseNonneg s).map fun (v, s) => (v, next, s)
      else
        match s with
        | '{' :: s => argNumber args next (ch! "precision") s
        | _ => .error (.format (ch! "missing precision specifier"))
    if a.isInteger then .error (.format (ch! "precision not allowed in integer format specifier"))
    else .ok ({ spec with precision := some v }, next, s)
  | _ => .ok (spec, next, s)

/-- src/format.cpp:1217-1219. -/
def parseType (spec : Spec) (s : Str) : Spec × Str :=
  match s with
  | [] => (spec, [])
  | '}' :: s => (spec, '}' :: s)
  | c :: s => ({ spec with type := some c }, s)

/-- The specification after the colon (src/format.cpp:1070-1218). -/
def parseSpec (args : List Arg) (a : Arg) (next : Next) (s : Str) : Except Err (Spec × Next × Str) := do
  let (spec, s) ← parseAlign a {} s
  let (spec, s) ← parseSign a spec s
  let (spec, s) ← parseHash a spec s
  let (spec, s) ← parseZero a spec s
  let (spec, next, s) ← parseWidth args next spec s
  let (spec, next, s) ← parsePrecision args a next spec s
  let (spec, s) := parseType spec s
  .ok (spec, next, s)

/-- `format(format_str, arg)` (src/format.cpp:1061-1228): the rest of a field after its argument. -/
def formatField (fd : Spec → Nat → Except Err Str) (args : List Arg) (a : Arg) (next : Next) (s : Str) :
    Except Err (Str × Next × Str) :=
  match (if peek s = ':' then parseSpec args a next s.tail else .ok ({}, next, s)) with
  | .error e => .error e
  | .ok (spec, next, s) =>
    if peek s = '}' then
      match writeArg fd spec a with
      | .error e => .error e
      | .ok out => .ok (out, next, s.tail)
    else .error (.format (ch! "missing '}' in format string"))

/-- A replacement field (src/format.cpp:1245-1246). -/
def field (fd : Spec → Nat → Except Err Str) (args : List Arg) (next : Next) (s : Str) :
    Except Err (Str × Next × Str) :=
  match parseArg args next s with
  | .error e => .error e
  | .ok (a, next, s) => formatField fd args a next s

/-- `format(format_str)` (src/format.cpp:1230-1249) on what is left of the C string. Every turn consumes a character;
`fuel` is its length. -/
def formatLoop (fd : Spec → Nat → Except Err Str) (args : List Arg) : (fuel : Nat) → Next → Str → Except Err Str
  | _, _, [] => .ok []
  | 0, _, _ => .error (.ub .outOfBounds)
  | fuel + 1, next, c :: s =>
    if c ≠ '{' ∧ c ≠ '}' then (formatLoop fd args fuel next s).map (c :: ·)
    else if peek s = c then (formatLoop fd args fuel next s.tail).map (c :: ·)
    else if c = '}' then .error (.format (ch! "unmatched '}' in format string"))
    else
      match field fd args next s with
      | .error e => .error e
      | .ok (out, next, s) => (formatLoop fd args fuel next s).map (out ++ ·)

/-- `writer.write(format, args...)` (src/format.cpp:1231-1249); the format is a C string. -/
def format (fd : Spec → Nat → Except Err Str) (pattern : Str) (args : List Arg) : Except Err Str :=
  formatLoop fd args (Config.cstr pattern).length (some 0) (Config.cstr pattern)

end Blackhole.Fmt
