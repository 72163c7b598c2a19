import Verif.FmtStream.Model

/-! # How integers are written -/

namespace Blackhole.FmtStream

/-- The values of a type. -/
def IntType.Holds (t : IntType) (z : Int) : Prop :=
  match t with
  | .int => -2 ^ 31 ≤ z ∧ z < 2 ^ 31
  | .unsigned => 0 ≤ z ∧ z < 2 ^ 32
  | .long | .longLong => -2 ^ 63 ≤ z ∧ z < 2 ^ 63
  | .unsignedLong | .unsignedLongLong => 0 ≤ z ∧ z < 2 ^ 64

/-- A number in a base: a minus if it is negative, and its digits. -/
def numeral (base : Nat) (z : Int) : Str := (if z < 0 then ['-'] else []) ++ Nat.toDigits base z.natAbs

/-- What a manipulator makes of a number. -/
def inBase (base : Option Base) (z : Int) : Str :=
  match base with
  | none => numeral 10 z
  | some .bin => numeral 2 z
  | some .oct => numeral 8 z
  | some .hex => numeral 16 z
  | some .hexu => (numeral 16 z).map Char.toUpper

/-- A text on the right of a field. -/
def rightIn (width : Nat) (fill : Char) (s : Str) : Str := List.replicate (width - s.length) fill ++ s

/-- A text on the left of a field. -/
def leftIn (width : Nat) (fill : Char) (s : Str) : Str := s ++ List.replicate (width - s.length) fill

end Blackhole.FmtStream
