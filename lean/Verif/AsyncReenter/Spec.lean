import Verif.AsyncReenter.Model

/-! # What is expected of an asynchronous sink whose wrapped sink logs again -/

namespace Blackhole.AsyncReenter

open Async (Policy)

variable {E : Type}

/-- What happened between two points of a history. -/
def newEvents (s s' : State E) : List (Ev E) := s'.trace.drop s.trace.length

/-- The events that were accepted, with their callers, in order. -/
def accepted : List (Ev E) → List (Who × E)
  | [] => []
  | .accept p e :: tr => (p, e) :: accepted tr
  | _ :: tr => accepted tr

/-- The events that the wrapped sink was called with, in order. -/
def delivered : List (Ev E) → List (Who × E)
  | [] => []
  | .deliver p e :: tr => (p, e) :: delivered tr
  | _ :: tr => delivered tr

/-- Those that the wrapped sink itself has logged. -/
def nested (l : List (Who × E)) : List E := l.filterMap fun x => match x.1 with
  | none => some x.2
  | some _ => none

/-- Whether the wrapped sink has called the asynchronous sink since it was last called. -/
def hasLogged (tr : List (Ev E)) : Bool := tr.foldl (fun b ev => match ev with
  | .deliver _ _ => false
  | .call none _ => true
  | _ => b) false

/-- The wrapped sink logs at least once before it returns, each time. -/
def Echoes (tr : List (Ev E)) : Prop := ∀ before after, tr = before ++ .back :: after → hasLogged before = true

end Blackhole.AsyncReenter
