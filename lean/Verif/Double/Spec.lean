import Verif.Double.Model
import Verif.Fmt.Spec

/-! # What a floating point number is expected to look like -/

namespace Blackhole.Double

open Fmt (Spec layout)

/-- The biased exponent and the fraction of an IEEE 754 `double`. -/
def exponent (bits : Nat) : Nat := bits / 2 ^ 52 % 2 ^ 11
def fraction (bits : Nat) : Nat := bits % 2 ^ 52

def Finite (bits : Nat) : Prop := exponent bits < 2047
def NotANumber (bits : Nat) : Prop := exponent bits = 2047 ∧ fraction bits ≠ 0
def Infinite (bits : Nat) : Prop := exponent bits = 2047 ∧ fraction bits = 0

/-- The conversions there are. -/
def Known (spec : Spec) : Prop := spec.type = none ∨ ∃ c ∈ ch! "aAeEfFgG", spec.type = some c

/-- A minus for a number whose sign bit is set, otherwise what the specification asks for. -/
def signOf (spec : Spec) (bits : Nat) : Str :=
  if bits / 2 ^ 63 = 1 then ['-'] else if spec.sign then (if spec.plus then ['+'] else [' ']) else []

/-- The number without sign, as the C library writes it for the given conversion, precision and `#`; `g` is the
conversion if none is given. -/
def digitsOf (lib : Libc) (spec : Spec) (bits : Nat) : Str :=
  lib spec.hash spec.precision (spec.type.getD 'g') (bits % 2 ^ 63)

/-- A capital conversion writes capital letters. -/
def capital (spec : Spec) : Prop := ∃ c ∈ ch! "AEFG", spec.type = some c

instance (spec : Spec) : Decidable (capital spec) := by unfold capital; infer_instance

/-- The word for a value that is no finite number. -/
def wordOf (spec : Spec) (small big : Str) : Str := if capital spec then big else small

/-- The field that a finite number is expected to fill: laid out as any number is. -/
def field (lib : Libc) (spec : Spec) (bits : Nat) : Str := layout spec (signOf spec bits) (digitsOf lib spec bits)

/-- What all C libraries do: the text of a number does not begin with a space and is not empty. -/
def Libc.Sane (lib : Libc) : Prop :=
  ∀ hash precision type bits, ∃ c cs, lib hash precision type bits = c :: cs ∧ c ≠ ' '

/-- Numbers whose field `write_double` gets right wherever it stands: finite ones, where a field to be filled on the
right is filled with spaces, and where a number to be centred has a sign. -/
structure Plain (lib : Libc) (spec : Spec) (bits : Nat) : Prop where
  known : Known spec
  word : bits < 2 ^ 64
  finite : Finite bits
  width : spec.width < 2 ^ 31
  size : (digitsOf lib spec bits).length < 2 ^ 31 - 1
  left : spec.align = .left → spec.fill = ' ' ∨ spec.width ≤ (signOf spec bits ++ digitsOf lib spec bits).length
  center : spec.align = .center → signOf spec bits ≠ [] ∨ spec.width ≤ (digitsOf lib spec bits).length

/-- The text expected of a sequence of writes. -/
def Piece.expected (lib : Libc) : Piece → Str
  | .text s => s
  | .number spec bits => field lib spec bits

def Piece.Plain (lib : Libc) : Piece → Prop
  | .text _ => True
  | .number spec bits => Double.Plain lib spec bits

end Blackhole.Double
