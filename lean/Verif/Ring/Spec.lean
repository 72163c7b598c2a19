import Verif.Ring.Model
import Verif.Async.Spec

/-! # The queue inside the asynchronous sink: vocabulary of the statements -/

namespace Blackhole.Ring
variable {E : Type}

/-- The copy of a record never fails in this schedule. -/
def NoFailure (cs : List (Cmd E)) : Prop := ∀ p, Cmd.throws p ∉ cs

/-- What `Verif.Async` says about an event: a record enters the queue when the call has got its place. -/
def Ev.simple : Ev E → Option (Async.Ev E)
  | .call p e => some (.call p e)
  | .claim p e => some (.accept p e)
  | .returned _ _ => none
  | .discard p e => some (.discard p e)
  | .threw _ _ => none
  | .deliver p e => some (.deliver p e)
  | .stop => some .stop
  | .destroyed => some .destroyed

/-- The records that got a place in the queue, with their producers, in order. -/
def claimed (tr : List (Ev E)) : List (Nat × E) := tr.filterMap fun
  | .claim p e => some (p, e)
  | _ => none

/-- The records that the wrapped sink received, in order. -/
def delivered (tr : List (Ev E)) : List (Nat × E) := tr.filterMap fun
  | .deliver p e => some (p, e)
  | _ => none

/-- The events of the calls of producer `p`. -/
def Ev.by (p : Nat) : Ev E → Bool
  | .call q _ | .claim q _ | .returned q _ | .discard q _ | .threw q _ => q = p
  | _ => false

/-- The calls of producer `p` one after the other: each gets a place and returns, or is discarded, or gets a place and throws;
the last one may still go on. -/
inductive Calls (p : Nat) : List (Ev E) → Prop
  | none : Calls p []
  | going {e : E} : Calls p [.call p e]
  | placed {e : E} : Calls p [.call p e, .claim p e]
  | accepted {e : E} {tr : List (Ev E)} : Calls p tr → Calls p (.call p e :: .claim p e :: .returned p e :: tr)
  | discarded {e : E} {tr : List (Ev E)} : Calls p tr → Calls p (.call p e :: .discard p e :: tr)
  | threw {e : E} {tr : List (Ev E)} : Calls p tr → Calls p (.call p e :: .claim p e :: .threw p e :: tr)

/-- The cell that producer `p` is writing to. -/
def State.writes (cap : Nat) (s : State E) (p : Nat) : Option Nat :=
  match s.producers p with
  | .writing _ pos => some (cell cap pos)
  | _ => none

/-- The cell that the worker is reading. -/
def State.reads (cap : Nat) (s : State E) : Option Nat :=
  match s.consumer with
  | .reading pos => some (cell cap pos)
  | _ => none

/-- Within the call of producer `p` with `e` that is the last one in the trace, and not yet ended, there was a moment at which
`cap` records had a place and were not delivered. -/
def WasFull (cap : Nat) (tr : List (Ev E)) (p : Nat) (e : E) : Prop :=
  ∃ a b c, tr = a ++ .call p e :: (b ++ c) ∧ (∀ x ∈ b ++ c, x.by p = false) ∧
    (delivered (a ++ .call p e :: b)).length + cap ≤ (claimed (a ++ .call p e :: b)).length

/-- Steps of calls that were made before and of the worker. -/
def Cmd.finishing : Cmd E → Bool
  | .producer _ _ | .consumer _ => true
  | _ => false

/-- Steps of calls that were made before, of the worker and of the destructor. -/
def Cmd.closing : Cmd E → Bool
  | .producer _ _ | .consumer _ | .stop | .join => true
  | _ => false

end Blackhole.Ring
