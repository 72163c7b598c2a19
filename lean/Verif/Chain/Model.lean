import Verif.Async.Model
import Verif.Pipeline.Model

/-!
# Asynchronous sinks over other sinks, over a sink at the end (src/sink/asynchronous.p.cpp)

The threads of the program call `emit` of the outermost sink. The worker of an asynchronous sink calls `emit` of the sink
below: if that is asynchronous too, the worker is its only producer (number 0), and takes the steps of the call itself.

Simplifications: a record is what the library's sinks look at, its severity and the formatted message (how a record is
kept is `RecordBuf`); the sink at the end does its work in one step, since only one thread uses it.
-/

namespace Blackhole.Chain

open Pipeline (Reply)
open Async (State Policy)
open Root (HOut)

/-- What is kept of a record and its message (src/sink/asynchronous.hpp:40-43). -/
abbrev Event := Int × Str

/-- A sink at work: `asynchronous_t` (src/sink/asynchronous.hpp:39-53) around another sink, or any other sink. -/
inductive Net where
  /-- At the end; `given` are its calls, with what they met. -/
  | sink (s : Pipeline.Sink) (given : List (Reply × Event))
  /-- `asynchronous_t` (src/sink/asynchronous.hpp:46-55); `calling` tells that its worker is inside `emit` of the sink
  below. -/
  | stage (cap : Nat) (policy : Policy) (q : State Event) (calling : Bool) (below : Net)

/-- A sink as its factory made it (src/sink/asynchronous.p.cpp:75-83). -/
def start : Essentials.Sink → Net
  | .asynchronous q s => .stage q.capacity q.policy State.init false (start s)
  | s => .sink (Pipeline.start s) []

/-- A turn of the worker at a depth (src/sink/asynchronous.p.cpp:123-147). `rep` is what the sink at the end meets if it is
called. -/
def work (rep : Reply) : Nat → Net → Option Net
  | _, .sink _ _ => none
  | d + 1, .stage cap policy q calling below => (work rep d below).map (.stage cap policy q calling)
  | 0, .stage cap policy q calling below =>
    match q.consumer with
    | .deliver e =>
      match below with
      | .sink s given =>
        match s.emit rep e.2.1 e.2.2 with
        | (s, .ok) => (q.step cap policy .consumer).map fun q => .stage cap policy q false (.sink s (given ++ [(rep, e.2)]))
        | (s, _) =>
          (q.step cap policy .consumerThrows).map fun q => .stage cap policy q false (.sink s (given ++ [(rep, e.2)]))
      | .stage cap' policy' q' calling' below' =>
        if calling then
          match q'.producers 0 with
          | .idle =>
            (q.step cap policy .consumer).map fun q => .stage cap policy q false (.stage cap' policy' q' calling' below')
          | _ =>
            (q'.step cap' policy' (.producer 0)).map fun q' =>
              .stage cap policy q true (.stage cap' policy' q' calling' below')
        else
          (q'.step cap' policy' (.emit 0 e.2)).map fun q' =>
            .stage cap policy q true (.stage cap' policy' q' calling' below')
    | _ => (q.step cap policy .consumer).map fun q => .stage cap policy q calling below

/-- A step of the destructor at a depth (src/sink/asynchronous.p.cpp:85-88): `.stop` or `.join`. The members, and with
them the sink below, are destroyed after the body (src/sink/asynchronous.hpp:46-55). -/
def destroy (c : Async.Cmd Event) : Nat → Net → Option Net
  | _, .sink _ _ => none
  | 0, .stage cap policy q calling below => (q.step cap policy c).map fun q => .stage cap policy q calling below
  | d + 1, .stage cap policy q calling below =>
    if q.joined then (destroy c d below).map (.stage cap policy q calling) else none

/-- A call of a thread of the program on the outermost sink, or the next step of its call
(src/sink/asynchronous.p.cpp:94-121). -/
def outer (c : Async.Cmd Event) : Net → Option Net
  | .sink _ _ => none
  | .stage cap policy q calling below => (q.step cap policy c).map fun q => .stage cap policy q calling below

/-- What a schedule consists of: calls of the outermost sink, steps of threads in `emit`
(src/sink/asynchronous.p.cpp:94-121), steps of the workers in `run` (123-147), the destructors (85-88). -/
inductive Cmd where
  | emit (thread : Nat) (e : Event)
  | thread (thread : Nat)
  | worker (depth : Nat) (rep : Reply)
  | stop (depth : Nat)
  | join (depth : Nat)

/-- The sink at the end has thrown: the exception left the worker (src/sink/asynchronous.p.cpp:138-141), and
`std::terminate` ends the process. -/
def dead : Net → Bool
  | .sink _ _ => false
  | .stage _ _ q _ below =>
    match q.consumer with
    | .terminated => true
    | _ => dead below

/-- One step of one thread (src/sink/asynchronous.p.cpp:85-147); none after `std::terminate` or if the thread cannot
take it. -/
def step (n : Net) (c : Cmd) : Option Net :=
  if dead n then none
  else
    match c with
    | .emit p e => outer (.emit p e) n
    | .thread p => outer (.producer p) n
    | .worker d rep => work rep d n
    | .stop d => destroy .stop d n
    | .join d => destroy .join d n

/-- Runs a schedule (src/sink/asynchronous.p.cpp:85-147). -/
def run (n : Net) : List Cmd → Option Net
  | [] => some n
  | c :: cs => (step n c).bind fun n => run n cs

end Blackhole.Chain
