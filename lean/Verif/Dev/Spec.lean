import Verif.Dev.Model
import Verif.Date.Spec

/-! # What the handler for development prints -/

namespace Blackhole.Dev

open Rec

/-- Debug, information, warning, error; everything else is a trace. -/
def letter (severity : Int) : Char :=
  if severity = 0 then 'D' else if severity = 1 then 'I' else if severity = 2 then 'W' else if severity = 3 then 'E' else 'T'

/-- The first 16 characters, filled up with spaces to 16. -/
def sixteen (name : Str) : Str := name.take 16 ++ List.replicate (16 - name.length) ' '

/-- How a value is shown. -/
inductive Shows (dtoa : Nat → Str) : Value → Str → Prop
  | null : Shows dtoa .null (ch! "none")
  | yes : Shows dtoa (.bool true) (ch! "1")
  | no : Shows dtoa (.bool false) (ch! "0")
  | natural {n : Nat} : Shows dtoa (.sint n) (Nat.toDigits 10 n)
  | negative {n : Nat} : 0 < n → Shows dtoa (.sint (-(n : Int))) ('-' :: Nat.toDigits 10 n)
  | unsigned {n : Nat} : Shows dtoa (.uint n) (Nat.toDigits 10 n)
  | double {bits : Nat} : Shows dtoa (.double bits) (dtoa bits)
  | string {v : View} : Shows dtoa (.string v) v.text
  | function {s : Str} : Shows dtoa (.function (.ok s)) s

/-- The text without colours: one line, and one more for each attribute. -/
def plain (ns : Nat) (severity : Int) (tid pid : Nat) (message : Str) (attributes : List (Str × Str)) : Str :=
  Date.timeText ns ++ ch! " " ++ [letter severity] ++ ch! " " ++ Nat.toDigits 10 tid ++ ch! "/" ++ Nat.toDigits 10 pid
    ++ ch! " - " ++ message ++ (attributes.flatMap fun a => ch! "\n    " ++ sixteen a.1 ++ ch! ": " ++ a.2) ++ ch! "\n"

/-- What a terminal shows of a text: everything but the escape sequences, which begin with `ESC` and end with `m`. -/
def visible : Bool → Str → Str
  | _, [] => []
  | true, c :: cs => visible (c != 'm') cs
  | false, c :: cs => if c = '\x1b' then visible true cs else c :: visible false cs

/-- The last escape sequence of a text, or what was in force before it. -/
def inForce : Str → Option Str → Str → Str
  | before, none, [] => before
  | _, some acc, [] => acc
  | before, some acc, c :: cs => if c = 'm' then inForce (acc ++ [c]) none cs else inForce before (some (acc ++ [c])) cs
  | before, none, c :: cs => if c = '\x1b' then inForce before (some [c]) cs else inForce before none cs

end Blackhole.Dev
