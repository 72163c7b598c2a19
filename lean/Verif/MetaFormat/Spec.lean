import Verif.Fmt.Spec

/-! # What compile-time format strings are expected to do -/

namespace Blackhole.MetaFormat

open Fmt (Piece Arg)

/-- A pattern for the compile-time parser: text in which braces are doubled, and `{}`. -/
def Plain : List Piece → Prop
  | [] => True
  | .text _ :: ps => Plain ps
  | .field pos spec :: ps => pos = none ∧ spec = none ∧ Plain ps

/-- The number of replacement fields. -/
def fields : List Piece → Nat
  | [] => 0
  | .text _ :: ps => fields ps
  | .field _ _ :: ps => fields ps + 1

/-- The number of braces in the text. -/
def braces : List Piece → Nat
  | [] => 0
  | .text s :: ps => s.countP (fun c => c == '{' || c == '}') + braces ps
  | .field _ _ :: ps => braces ps

/-- The texts put in the place of the fields, in order; none if there are fewer texts than fields. -/
def substitute : List Piece → List Str → Option Str
  | [], _ => some []
  | .text s :: ps, ts => (substitute ps ts).map (s ++ ·)
  | .field _ _ :: _, [] => none
  | .field _ _ :: ps, t :: ts => (substitute ps ts).map (t ++ ·)

/-- The text that stands for an argument: integers are in decimal, texts stand for themselves. -/
inductive Stands : Arg → Str → Prop
  | int {z : Int} (h1 : -2 ^ 31 ≤ z) (h2 : z < 2 ^ 31) :
      Stands (.int z) ((if z < 0 then ['-'] else []) ++ Nat.toDigits 10 z.natAbs)
  | uint {n : Nat} (h : n < 2 ^ 32) : Stands (.uint n) (Nat.toDigits 10 n)
  | long {z : Int} (h1 : -2 ^ 63 ≤ z) (h2 : z < 2 ^ 63) :
      Stands (.long z) ((if z < 0 then ['-'] else []) ++ Nat.toDigits 10 z.natAbs)
  | ulong {n : Nat} (h : n < 2 ^ 64) : Stands (.ulong n) (Nat.toDigits 10 n)
  | char (c : Char) : Stands (.char c) [c]
  | cstr {s : Str} (h : '\x00' ∉ s) : Stands (.cstr s) s
  | str (s behind : Str) : Stands (.str s behind) s
  | strNull : Stands .strNull []

end Blackhole.MetaFormat
