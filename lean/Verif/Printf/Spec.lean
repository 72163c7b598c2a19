import Verif.Fmt.Spec
import Verif.FmtArgs.Model
import Verif.Double.Spec

/-!
# What `sprintf` of the C standard prints (C11, 7.21.6.1)

Directives for integers, floating-point numbers, pointers, characters and strings, with positions (`%1$d`) as in POSIX.
The digits of a floating-point number are those that the C library writes: a parameter.
-/

namespace Blackhole.Printf

open FmtArgs (Val)

inductive Flag where
  | minus | plus | space | hash | zero
  deriving DecidableEq, Repr

/-- A width or precision: a number, or `*` for an argument. -/
inductive Num where
  | lit (n : Nat)
  | star
  deriving DecidableEq, Repr

inductive Len where
  | none | hh | h | l | ll | j | z | t
  deriving DecidableEq, Repr

inductive Conv where
  | d | i | u | o | x | X | c | s | a | A | e | E | f | F | g | G | p
  deriving DecidableEq, Repr

structure Directive where
  index : Option Nat := none
  flags : List Flag := []
  width : Option Num := none
  /-- A dot may stand alone. -/
  precision : Option (Option Num) := none
  length : Len := .none
  conv : Conv
  deriving DecidableEq, Repr

inductive Piece where
  | text (s : Str)
  | directive (d : Directive)
  deriving DecidableEq, Repr

/-! ## How a format string is written -/

def Flag.print : Flag → Char
  | .minus => '-'
  | .plus => '+'
  | .space => ' '
  | .hash => '#'
  | .zero => '0'

def Num.print : Num → Str
  | .lit n => Nat.toDigits 10 n
  | .star => ['*']

def Len.print : Len → Str
  | .none => []
  | .hh => ch! "hh"
  | .h => ch! "h"
  | .l => ch! "l"
  | .ll => ch! "ll"
  | .j => ch! "j"
  | .z => ch! "z"
  | .t => ch! "t"

def Conv.print : Conv → Char
  | .d => 'd'
  | .i => 'i'
  | .u => 'u'
  | .o => 'o'
  | .x => 'x'
  | .X => 'X'
  | .c => 'c'
  | .s => 's'
  | .a => 'a'
  | .A => 'A'
  | .e => 'e'
  | .E => 'E'
  | .f => 'f'
  | .F => 'F'
  | .g => 'g'
  | .G => 'G'
  | .p => 'p'

def widthText : Option Num → Str
  | none => []
  | some n => n.print

def precisionText : Option (Option Num) → Str
  | none => []
  | some none => ['.']
  | some (some n) => '.' :: n.print

def indexText : Option Nat → Str
  | none => []
  | some k => Nat.toDigits 10 k ++ ['$']

def Directive.print (d : Directive) : Str :=
  '%' :: (indexText d.index ++ (d.flags.map Flag.print ++ (widthText d.width ++ (precisionText d.precision
    ++ (d.length.print ++ [d.conv.print])))))

/-- In a text, `%` is doubled. -/
def Piece.print : Piece → Str
  | .text s => s.flatMap fun c => if c = '%' then ['%', '%'] else [c]
  | .directive d => d.print

def printAll (ps : List Piece) : Str := ps.flatMap Piece.print

/-! ## What a directive prints -/

/-- The bits of the type that a length names. -/
def Len.bits : Len → Nat
  | .hh => 8
  | .h => 16
  | .none => 32
  | .l | .ll | .j | .z | .t => 64

/-- The bits of the argument: smaller types are promoted to `int`. -/
def Len.argBits (len : Len) : Nat := max 32 len.bits

def Conv.isSigned : Conv → Bool
  | .d | .i => true
  | _ => false

/-- The conversions of integers. -/
def Conv.isNumber : Conv → Bool
  | .d | .i | .u | .o | .x | .X => true
  | _ => false

/-- The conversions of floating-point numbers. -/
def Conv.isFloat : Conv → Bool
  | .a | .A | .e | .E | .f | .F | .g | .G => true
  | _ => false

/-- The conversions that write capital letters. -/
def Conv.isCapital : Conv → Bool
  | .A | .E | .F | .G => true
  | _ => false

/-- The value converted to the type that the length and the conversion name. -/
def converted (len : Len) (conv : Conv) (z : Int) : Int :=
  if conv.isSigned then Int.bmod z (2 ^ len.bits) else z % 2 ^ len.bits

/-- A field of some width; what is in it is on the right unless the flag `-` is given. With the flag `0` zeros stand
between the lead (a sign or a prefix) and the digits. -/
def field (left zeros : Bool) (width : Nat) (lead body : Str) : Str :=
  let gap := width - (lead.length + body.length)
  if left then lead ++ body ++ List.replicate gap ' '
  else if zeros then lead ++ List.replicate gap '0' ++ body
  else List.replicate gap ' ' ++ lead ++ body

/-- The digits of a number, without leading zeros. -/
def Conv.digits (conv : Conv) (n : Nat) : Str :=
  match conv with
  | .o => Nat.toDigits 8 n
  | .x => Nat.toDigits 16 n
  | .X => (Nat.toDigits 16 n).map Char.toUpper
  | _ => Nat.toDigits 10 n

/-- A minus; or, for a signed conversion, what the flags ask for. -/
def signOf (conv : Conv) (flags : List Flag) (v : Int) : Str :=
  if v < 0 then ['-']
  else if conv.isSigned = false then []
  else if .plus ∈ flags then ['+']
  else if .space ∈ flags then [' ']
  else []

/-- The prefix of a hexadecimal number other than zero. -/
def prefixOf (conv : Conv) (flags : List Flag) (v : Int) : Str :=
  if .hash ∈ flags ∧ v ≠ 0 then
    match conv with
    | .x => ch! "0x"
    | .X => ch! "0X"
    | _ => []
  else []

/-- A negative precision is taken as if it were not there. -/
def effective : Option Int → Option Nat
  | some p => if p < 0 then none else some p.toNat
  | none => none

/-- At least as many digits as the precision says, 1 if it does not say; none for zero with precision zero. With `#` an
octal number begins with a zero. -/
def digitsOf (conv : Conv) (flags : List Flag) (p : Option Nat) (v : Int) : Str :=
  let ds := if v = 0 then [] else conv.digits v.natAbs
  let ds := List.replicate (p.getD 1 - ds.length) '0' ++ ds
  if conv = .o ∧ .hash ∈ flags ∧ ds.head? ≠ some '0' then '0' :: ds else ds

/-- The flag `-` is given, or a negative width. -/
def isLeft (d : Directive) (w : Option Int) : Bool := decide (.minus ∈ d.flags ∨ ∃ n ∈ w, n < 0)

/-- The text of an integer conversion; the flag `0` is ignored if there is a precision. -/
def numberText (d : Directive) (w p : Option Int) (v : Int) : Str :=
  field (isLeft d w) (decide (.zero ∈ d.flags ∧ effective p = none)) (w.getD 0).natAbs
    (signOf d.conv d.flags v ++ prefixOf d.conv d.flags v) (digitsOf d.conv d.flags (effective p) v)

/-- A minus if the sign bit is set; otherwise what the flags ask for. -/
def floatSign (flags : List Flag) (bits : Nat) : Str :=
  if bits / 2 ^ 63 = 1 then ['-']
  else if .plus ∈ flags then ['+']
  else if .space ∈ flags then [' ']
  else []

/-- What the C library writes for the absolute value of a finite number without a width. -/
def magnitudeText (lib : Double.Libc) (d : Directive) (p : Option Int) (bits : Nat) : Str :=
  lib (decide (.hash ∈ d.flags)) (effective p) d.conv.print (bits % 2 ^ 63)

/-- The text of a finite number. Zeros of the flag `0` stand behind the `0x` of a hexadecimal number. -/
def floatText (lib : Double.Libc) (d : Directive) (w p : Option Int) (bits : Nat) : Str :=
  let k := if d.conv = .a ∨ d.conv = .A then 2 else 0
  field (isLeft d w) (decide (.zero ∈ d.flags)) (w.getD 0).natAbs
    (floatSign d.flags bits ++ (magnitudeText lib d p bits).take k) ((magnitudeText lib d p bits).drop k)

/-- The text of a value that is no finite number; the flag `0` is ignored. -/
def wordText (d : Directive) (w : Option Int) (bits : Nat) (small big : Str) : Str :=
  field (isLeft d w) false (w.getD 0).natAbs (floatSign d.flags bits) (if d.conv.isCapital then big else small)

/-! ## The values of arguments -/

/-- An argument of an integer type of some bits and its value; `bool` and the character types are promoted to `int`. -/
inductive IsInt : Nat → Int → Val → Prop
  | int {z : Int} : -2 ^ 31 ≤ z → z < 2 ^ 31 → IsInt 32 z (.arg (.int z))
  | uint {n : Nat} : n < 2 ^ 32 → IsInt 32 n (.arg (.uint n))
  | long {z : Int} : -2 ^ 63 ≤ z → z < 2 ^ 63 → IsInt 64 z (.arg (.long z))
  | ulong {n : Nat} : n < 2 ^ 64 → IsInt 64 n (.arg (.ulong n))
  | bool {b : Bool} : IsInt 32 (if b then 1 else 0) (.arg (.bool b))
  | char {c : Char} : c.toNat < 256 → IsInt 32 (Fmt.codeOf c) (.arg (.char c))
  | uchar {c : Char} : c.toNat < 256 → IsInt 32 c.toNat (.uchar c)

/-- An argument that is a text: a C string or a `std::string`. -/
inductive IsText : Str → Val → Prop
  | cstr {s : Str} : '\x00' ∉ s → IsText s (.arg (.cstr s))
  | string {s : Str} : IsText s (.arg (.str s ['\x00']))

/-- The value of a width or precision, and the number of arguments used before and after it. -/
inductive NumIs (args : List Val) : Option Num → Nat → Option Int → Nat → Prop
  | absent {n : Nat} : NumIs args none n none n
  | lit {k n : Nat} : k < 2 ^ 31 → NumIs args (some (.lit k)) n (some k) n
  | star {n : Nat} {z : Int} : args[n]? = some (.arg (.int z)) → -2 ^ 31 < z → z < 2 ^ 31 →
      NumIs args (some .star) n (some z) (n + 1)

/-- The arguments that a directive uses: one for each `*`, and the one it prints. -/
def Directive.uses (d : Directive) : Nat :=
  (if d.width = some .star then 1 else 0) + (if d.precision = some (some .star) then 1 else 0) + 1

def Piece.uses : Piece → Nat
  | .text _ => 0
  | .directive d => d.uses

/-- The arguments that pieces without positions use. -/
def used (ps : List Piece) : Nat := (ps.map Piece.uses).sum

/-! ## Where the two are expected to agree -/

/-- A conversion of an integer in which none of the known differences matters. `z` is the argument, `v` its converted
value. -/
structure Agrees (d : Directive) (w p : Option Int) (z v : Int) : Prop where
  /-- `%-05d` -/
  zero_left : .zero ∈ d.flags → isLeft d w = false
  /-- `%05.3d` -/
  zero_precision : .zero ∈ d.flags → effective p = none
  /-- `%.d` -/
  dot : d.precision ≠ some none
  /-- `%.0d` of zero -/
  empty : v = 0 → effective p ≠ some 0
  /-- `%+u` -/
  sign : d.conv.isSigned = false → .plus ∉ d.flags ∧ .space ∉ d.flags
  /-- `%#hhx` of 256; with other conversions `#` is undefined in C. -/
  hash : .hash ∈ d.flags → (d.conv = .o ∨ d.conv = .x ∨ d.conv = .X) ∧ (v = 0 → z = 0)

/-- What a directive prints for an argument. -/
inductive Means (lib : Double.Libc) (d : Directive) (w p : Option Int) : Val → Str → Prop
  | number {a : Val} {z : Int} : d.conv.isNumber = true → IsInt d.length.argBits z a →
      Agrees d w p z (converted d.length d.conv z) →
      Means lib d w p a (numberText d w p (converted d.length d.conv z))
  /-- A precision, `0`, `#` and a length are undefined in C, or name a wide character. -/
  | char {a : Val} {z : Int} : d.conv = .c → d.length = .none → d.precision = none → .zero ∉ d.flags →
      .hash ∉ d.flags → IsInt 32 z a →
      Means lib d w p a (field (isLeft d w) false (w.getD 0).natAbs [] [Char.ofNat (z % 256).toNat])
  | text {a : Val} {s : Str} : d.conv = .s → d.length = .none → d.precision ≠ some none → .zero ∉ d.flags →
      .hash ∉ d.flags → IsText s a →
      Means lib d w p a (field (isLeft d w) false (w.getD 0).natAbs []
        (match effective p with
          | some k => s.take k
          | none => s))
  /-- A finite number. Not for `%.f`, `%-08f` and `%08a`, in which the known differences matter. -/
  | float {bits : Nat} : d.conv.isFloat = true → d.length = .none ∨ d.length = .l → d.precision ≠ some none →
      (.zero ∈ d.flags → isLeft d w = false ∧ d.conv ≠ .a ∧ d.conv ≠ .A) → bits < 2 ^ 64 → Double.Finite bits →
      (magnitudeText lib d p bits).length < 2 ^ 31 - 1 →
      Means lib d w p (.arg (.double bits)) (floatText lib d w p bits)
  /-- Infinity and NaN. Not for `%06f`, in which a known difference matters. -/
  | word {bits : Nat} {small big : Str} : d.conv.isFloat = true → d.length = .none ∨ d.length = .l →
      .zero ∉ d.flags → bits < 2 ^ 64 →
      (Double.NotANumber bits ∧ small = ch! "nan" ∧ big = ch! "NAN")
        ∨ (Double.Infinite bits ∧ small = ch! "inf" ∧ big = ch! "INF") →
      Means lib d w p (.arg (.double bits)) (wordText d w bits small big)
  /-- An address other than null, as glibc prints it: C leaves it to the implementation. All flags but `-`, a precision
  and a length are undefined. -/
  | pointer {n : Nat} : d.conv = .p → d.length = .none → d.precision = none → (∀ f ∈ d.flags, f = .minus) → n ≠ 0 →
      n < 2 ^ 64 →
      Means lib d w p (.ptr n) (field (isLeft d w) false (w.getD 0).natAbs [] (ch! "0x" ++ Nat.toDigits 16 n))

/-- A format string and arguments print a text in C. The number is that of the arguments used so far. Either all
directives name the positions of their arguments (`manual`) or none does. -/
inductive Prints (lib : Double.Libc) (args : List Val) (manual : Bool) : Nat → List Piece → Str → Prop
  | nil {n : Nat} : Prints lib args manual n [] []
  | text {n : Nat} {t out : Str} {ps : List Piece} : '\x00' ∉ t → Prints lib args manual n ps out →
      Prints lib args manual n (.text t :: ps) (t ++ out)
  | next {n n1 n2 : Nat} {d : Directive} {w p : Option Int} {a : Val} {t out : Str} {ps : List Piece} :
      manual = false → d.index = none → d.width ≠ some (.lit 0) →
      NumIs args d.width n w n1 → NumIs args (d.precision.getD none) n1 p n2 → args[n2]? = some a →
      Means lib d w p a t → Prints lib args manual (n2 + 1) ps out →
      Prints lib args manual n (.directive d :: ps) (t ++ out)
  | position {n k : Nat} {d : Directive} {w p : Option Int} {a : Val} {t out : Str} {ps : List Piece} :
      manual = true → d.index = some (k + 1) → k + 1 < 2 ^ 31 → d.width ≠ some (.lit 0) →
      NumIs args d.width n w n → NumIs args (d.precision.getD none) n p n → args[k]? = some a →
      Means lib d w p a t → Prints lib args manual n ps out →
      Prints lib args manual n (.directive d :: ps) (t ++ out)

end Blackhole.Printf
