import Verif.RecordBuf.Model

/-!
# Specification of owned records (C08)

A buffer is absent, empty (default-constructed or moved from) or holds a record *value*. Nothing here mentions
addresses or views.
-/

namespace Blackhole.RecordBuf

open Blackhole.Attr (Value View)
open Blackhole.Root (Rec)

inductive Cell where
  | absent
  | empty
  | holds (r : Rec)

structure SState where
  cell : Nat → Cell
  foreign : Nat → Option Str

def SState.init : SState := { cell := fun _ => .absent, foreign := fun _ => none }

def SState.set (s : SState) (o : Nat) (c : Cell) : SState :=
  { s with cell := fun x => if x = o then c else s.cell x }

/-- An attribute as it is kept: a lazy attribute is replaced by the text it produced. -/
def kept (eval : Nat → Str) : View → View
  | .function id => .string (eval id)
  | v => v

/-- The value kept of a record: everything unchanged, all attributes in order in one list. -/
def owned (eval : Nat → Str) (r : Rec) : Rec :=
  { r with attributes := [r.attributes.flatten.map fun kv => (kv.1, kept eval kv.2)] }

/-- What each operation does to values; `none`: not allowed. -/
def SState.step (s : SState) : Op → Option SState
  | .capture o eval r =>
    match s.cell o, r.contents s.foreign with
    | .absent, some c => some (s.set o (.holds (owned eval c)))
    | _, _ => none
  | .recapture o src eval =>
    match s.cell o, s.cell src with
    | .absent, .holds r => some (s.set o (.holds (owned eval r)))
    | _, _ => none
  | .default o =>
    match s.cell o with
    | .absent => some (s.set o .empty)
    | _ => none
  | .moveConstruct d src =>
    match s.cell d, s.cell src with
    | .absent, .holds r => some ((s.set src .empty).set d (.holds r))
    | _, _ => none
  | .moveAssign d src =>
    match s.cell d, s.cell src with
    | .absent, _ => none
    | _, .absent => none
    | _, c =>
      if d = src then some s
      else match c with
        | .holds r => some ((s.set src .empty).set d (.holds r))
        | _ => none
  | .destroy o =>
    match s.cell o with
    | .absent => none
    | _ => some (s.set o .absent)
  | .foreign a x => some { s with foreign := fun y => if y = a then x else s.foreign y }

def SState.run (s : SState) : List Op → Option SState
  | [] => some s
  | op :: ops => (s.step op).bind (·.run ops)

/-! ## Heap blocks -/

/-- The block that a string owns. -/
def SObj.owns : SObj → List Nat
  | .short _ => []
  | .long a _ => [a]

/-- The block that a container owns. -/
def VObj.owns : VObj → List Nat
  | .inline _ => []
  | .heap a => [a]

/-- The blocks that the strings and the container in an object own. -/
def Obj.owns (ob : Obj) : List Nat := ob.message.owns ++ ob.formatted.owns ++ ob.vec.owns

end Blackhole.RecordBuf
