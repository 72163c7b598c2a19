import Verif.DateOther.Model
import Verif.Date.Spec

/-!
# Patterns of the portable generator

A pattern is a list of characters and of conversions, each `%` and one character. The conversions are those of `strftime`
(POSIX), and `%f` and `%s`.
-/

namespace Blackhole.DateOther

open Time Date

inductive Item where
  | char (c : Char)
  | conv (c : Char)
  deriving DecidableEq

def print : List Item → Str
  | [] => []
  | .char c :: is => c :: print is
  | .conv c :: is => '%' :: c :: print is

def Item.Valid : Item → Prop
  | .char c => c ≠ '%'
  | .conv _ => True

/-- The conversions that the generator knows. -/
def known : List Char := ch! "YyCmbhBUWjdeaAcDFTzZHIMSsfp"

/-- A number in at least two characters, with a space in front. -/
def spacePad (n : Nat) : Str := List.replicate (2 - (Nat.toDigits 10 n).length) ' ' ++ Nat.toDigits 10 n

/-- The days of the same year up to the `n`th day that fall on the weekday. -/
def weekdays (weekday n : Nat) : Nat :=
  ((List.range (n + 1)).filter fun m => (dateOn m).year = (dateOn n).year ∧ weekdayOn m = weekday).length

/-- Hours from 1 to 12. -/
def clock12 (h : Nat) : Nat := if h % 12 = 0 then 12 else h % 12

/-- The texts of the locale and of the zone that a conversion consists of. -/
def needs (c : Char) : List Char :=
  if c = 'c' then ch! "ab" else if c = 'h' then ch! "b" else if c ∈ ch! "aAbBpzZ" then [c] else []

/-- The text of a conversion for the `n`th day since 1 January 1970, `s` seconds after midnight and `u` microseconds.
`names` are the texts that depend on the locale and on the zone. Anything unknown stands for itself. -/
def meaning (names : Char → Str) (epoch : Int) (n s u : Nat) (c : Char) : Str :=
  let d := dateOn n
  match c with
  | 'Y' => zeroPad 4 d.year
  | 'y' => zeroPad 2 (d.year % 100)
  | 'C' => zeroPad 2 (d.year / 100)
  | 'm' => zeroPad 2 d.month
  | 'd' => zeroPad 2 d.day
  | 'e' => spacePad d.day
  | 'j' => zeroPad 3 (d.yearDay + 1)
  | 'U' => zeroPad 2 (weekdays 0 n)
  | 'W' => zeroPad 2 (weekdays 1 n)
  | 'H' => zeroPad 2 (s / 3600)
  | 'I' => zeroPad 2 (clock12 (s / 3600))
  | 'M' => zeroPad 2 (s % 3600 / 60)
  | 'S' => zeroPad 2 (s % 60)
  | 'f' => zeroPad 6 u
  | 's' => StringFmt.decimalText epoch
  | 'D' => zeroPad 2 d.month ++ ch! "/" ++ zeroPad 2 d.day ++ ch! "/" ++ zeroPad 2 (d.year % 100)
  | 'F' => zeroPad 4 d.year ++ ch! "-" ++ zeroPad 2 d.month ++ ch! "-" ++ zeroPad 2 d.day
  | 'T' => zeroPad 2 (s / 3600) ++ ch! ":" ++ zeroPad 2 (s % 3600 / 60) ++ ch! ":" ++ zeroPad 2 (s % 60)
  | 'c' => names 'a' ++ ch! " " ++ names 'b' ++ ch! " " ++ zeroPad 2 d.day ++ ch! " " ++ zeroPad 2 (s / 3600) ++ ch! ":"
      ++ zeroPad 2 (s % 3600 / 60) ++ ch! ":" ++ zeroPad 2 (s % 60) ++ ch! " " ++ zeroPad 4 d.year
  | 'a' => names 'a'
  | 'A' => names 'A'
  | 'b' => names 'b'
  | 'h' => names 'b'
  | 'B' => names 'B'
  | 'p' => names 'p'
  | 'z' => names 'z'
  | 'Z' => names 'Z'
  | '%' => ['%']
  | _ => ['%', c]

def text (names : Char → Str) (epoch : Int) (n s u : Nat) : List Item → Str
  | [] => []
  | .char c :: is => c :: text names epoch n s u is
  | .conv c :: is => meaning names epoch n s u c ++ text names epoch n s u is

/-- Between a character and the next known conversion there is no `%%` and no unknown conversion. -/
def InOrder (items : List Item) : Prop :=
  ∀ a c between x b, items = a ++ .char c :: (between ++ .conv x :: b) → (∀ i ∈ between, ∀ y ∈ known, i ≠ .conv y) →
    x ∈ known

end Blackhole.DateOther
