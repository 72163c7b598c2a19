import Verif.FmtPrint.Model

/-! # What printing should do -/

namespace Blackhole.FmtPrint

open Fmt (Err Spec)

/-- What a terminal shows for a text: every character with the colour that was set last (`none` is the colour of the
terminal), and the colour afterwards. -/
def shown (colour : Option Nat) : Str → List (Char × Option Nat) × Option Nat
  | '\x1b' :: '[' :: '3' :: d :: 'm' :: s => shown (some (d.toNat - '0'.toNat)) s
  | '\x1b' :: '[' :: '0' :: 'm' :: s => shown none s
  | c :: s => ((c, colour) :: (shown colour s).1, (shown colour s).2)
  | [] => ([], colour)

/-- A character as it is painted. -/
def painted (colour : Option Nat) (s : Str) : List (Char × Option Nat) := s.map fun c => (c, colour)

/-- What `format` or `sprintf` returns for the arguments of a call. -/
def Call.text? (fd : Spec → Nat → Except Err Str) : Call → Option Str
  | .print p args | .colored _ p args => (FmtArgs.format fd p args).toOption
  | .fprintf p args => (Printf.sprintf fd p args).toOption

/-- Calls without colours. -/
def Call.Plain : Call → Prop
  | .colored .. => False
  | _ => True

/-- The texts of a thread in an order of the texts of all threads. -/
def ofThread (t : Nat) (order : List (Nat × Str)) : List Str := (order.filter fun x => x.1 = t).map (·.2)

/-- Every thread has made all of its calls. -/
def State.Done (s : State) : Prop := ∀ t, s.left t = []

end Blackhole.FmtPrint
