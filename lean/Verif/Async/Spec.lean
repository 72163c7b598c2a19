import Verif.Async.Model

/-!
# What can be read off a trace (C09-C11)
-/

namespace Blackhole.Async
variable {E : Type}

/-- Events that entered the queue, with their producers, in order. -/
def accepted : List (Ev E) → List (Nat × E)
  | [] => []
  | .accept p e :: tr => (p, e) :: accepted tr
  | _ :: tr => accepted tr

/-- Events the wrapped sink received, in order. -/
def delivered : List (Ev E) → List (Nat × E)
  | [] => []
  | .deliver p e :: tr => (p, e) :: delivered tr
  | _ :: tr => delivered tr

def discarded : List (Ev E) → List (Nat × E)
  | [] => []
  | .discard p e :: tr => (p, e) :: discarded tr
  | _ :: tr => discarded tr

/-- The events producer `p` called `emit` with, in order. -/
def calledBy (p : Nat) : List (Ev E) → List E
  | [] => []
  | .call q e :: tr => if q = p then e :: calledBy p tr else calledBy p tr
  | _ :: tr => calledBy p tr

/-- How the calls of producer `p` ended, in order: the event, and whether it was accepted. -/
def endedBy (p : Nat) : List (Ev E) → List (E × Bool)
  | [] => []
  | .accept q e :: tr => if q = p then (e, true) :: endedBy p tr else endedBy p tr
  | .discard q e :: tr => if q = p then (e, false) :: endedBy p tr else endedBy p tr
  | _ :: tr => endedBy p tr

end Blackhole.Async
