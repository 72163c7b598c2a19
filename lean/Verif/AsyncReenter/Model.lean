import Verif.Async.Model

/-!
# An asynchronous sink whose wrapped sink logs again (src/sink/asynchronous.p.cpp)

The same threads and steps as in `Verif.Async.Model`, but the wrapped sink's `emit`, which the consumer thread calls, takes
time, and while it runs it may call `emit` of the same asynchronous sink, as often as it likes (a sink of the user that
logs through a logger does). Such a call runs on the consumer thread. The contract of the queue is that of
`Verif.Async.Model`.
-/

namespace Blackhole.AsyncReenter

open Async (Policy PPc)

/-- Who calls `emit` (src/sink/asynchronous.p.cpp:94): a thread of the application, or (none) the wrapped sink on the
consumer thread (136). -/
abbrev Who := Option Nat

/-- Where the consumer is inside `run` (src/sink/asynchronous.p.cpp:123-147). -/
inductive CPc (E : Type) where
  /-- About to call `dequeue_with` (126). -/
  | loop
  /-- About to test `stopped && !dequeued` (130). -/
  | got (e : Option (Who × E))
  /-- About to call `wrapped->emit` (136). -/
  | deliver (e : Who × E)
  /-- Inside `wrapped->emit`. -/
  | inside (e : Who × E)
  /-- Sleeping (143). -/
  | sleep
  /-- Returned (131). -/
  | exited
  /-- The wrapped sink threw (138-139). -/
  | terminated

/-- What can be seen happening, in order: the call and the returns of `emit`, the call and the return of the wrapped
sink, the destructor (src/sink/asynchronous.p.cpp:94, 111, 117, 136, 85-88). -/
inductive Ev (E : Type) where
  /-- `emit` of the asynchronous sink is called. -/
  | call (p : Who) (e : E)
  /-- The event enters the queue and the call returns. -/
  | accept (p : Who) (e : E)
  /-- The call returns and the event is discarded. -/
  | discard (p : Who) (e : E)
  /-- The wrapped sink's `emit` is called with the event. -/
  | deliver (p : Who) (e : E)
  /-- The wrapped sink's `emit` returns. -/
  | back
  /-- The destructor sets the flag. -/
  | stop
  /-- The destructor returns. -/
  | destroyed

/-- The members of `asynchronous_t` (src/sink/asynchronous.hpp:47-53) with the places of the callers and of the
consumer, and what has been seen. -/
structure State (E : Type) where
  queue : List (Who × E)
  /-- Where each caller is in `emit`. -/
  callers : Who → PPc E
  consumer : CPc E
  stopped : Bool
  joined : Bool
  trace : List (Ev E)

/-- Right after construction (src/sink/asynchronous.p.cpp:67-83). -/
def State.init {E : Type} : State E :=
  { queue := [], callers := fun _ => .idle, consumer := .loop, stopped := false, joined := false, trace := [] }

/-- What a schedule consists of: calls of `emit` (src/sink/asynchronous.p.cpp:94), steps inside of it (95-120), steps
of `run` (123-147), calls that the wrapped sink makes (136), the destructor (85-88). -/
inductive Cmd (E : Type) where
  /-- Thread `p` calls `emit`. -/
  | emit (p : Nat) (e : E)
  /-- Thread `p` takes its next step in `emit`. -/
  | producer (p : Nat)
  /-- The wrapped sink, being called, calls `emit` of the asynchronous sink. -/
  | nest (e : E)
  /-- The consumer takes its next step: in the call that the wrapped sink has made, if there is one; otherwise, if it is
  inside the wrapped sink, that returns. -/
  | consumer
  /-- The wrapped sink, being called, throws. -/
  | consumerThrows
  /-- `stopped.store(true)` in the destructor (86). -/
  | stop
  /-- `thread.join()` returns (87). -/
  | join

variable {E : Type}

/-- A caller goes to another place in `emit` (src/sink/asynchronous.p.cpp:94-121). -/
def State.setCaller (s : State E) (p : Who) (x : PPc E) : State E :=
  { s with callers := fun q => if q = p then x else s.callers q }

/-- `emit` is called (src/sink/asynchronous.p.cpp:94); a caller makes one call at a time. -/
def State.call (s : State E) (p : Who) (e : E) : Option (State E) :=
  match s.callers p with
  | .idle => some { s.setCaller p (.trying e) with trace := s.trace ++ [.call p e] }
  | _ => none

/-- One step of `emit` (src/sink/asynchronous.p.cpp:94, 105-119). -/
def State.produce (cap : Nat) (policy : Policy) (s : State E) (p : Who) : Option (State E) :=
  match s.callers p with
  | .idle => none
  | .trying e =>
    if s.queue.length < cap then
      some { s.setCaller p .idle with queue := s.queue ++ [(p, e)], trace := s.trace ++ [.accept p e] }
    else some (s.setCaller p (.full e))
  | .full e =>
    match policy.overflow with
    | .retry => some (s.setCaller p (.trying e))
    | .drop => some { s.setCaller p .idle with trace := s.trace ++ [.discard p e] }

/-- One step of `run` (src/sink/asynchronous.p.cpp:123-147). -/
def State.consume (cap : Nat) (policy : Policy) (s : State E) : Option (State E) :=
  match s.consumer with
  | .loop =>
    match s.queue with
    | [] => some { s with consumer := .got none }
    | e :: rest => some { s with consumer := .got (some e), queue := rest }
  | .got none => if s.stopped then some { s with consumer := .exited } else some { s with consumer := .sleep }
  | .got (some e) => some { s with consumer := .deliver e }
  | .deliver e => some { s with consumer := .inside e, trace := s.trace ++ [.deliver e.1 e.2] }
  | .inside _ =>
    match s.callers none with
    | .idle => some { s with consumer := .loop, trace := s.trace ++ [.back] }
    | _ => s.produce cap policy none
  | .sleep => some { s with consumer := .loop }
  | .exited => none
  | .terminated => none

/-- One step of one thread (src/sink/asynchronous.p.cpp:85-147); none if the thread cannot take it. -/
def State.step (cap : Nat) (policy : Policy) (s : State E) : Cmd E → Option (State E)
  | .emit p e => s.call (some p) e
  | .producer p => s.produce cap policy (some p)
  | .nest e =>
    match s.consumer with
    | .inside _ => s.call none e
    | _ => none
  | .consumer => s.consume cap policy
  | .consumerThrows =>
    match s.consumer, s.callers none with
    | .inside _, .idle => some { s with consumer := .terminated }
    | _, _ => none
  | .stop => if s.stopped then none else some { s with stopped := true, trace := s.trace ++ [.stop] }
  | .join =>
    match s.stopped, s.joined, s.consumer with
    | true, false, .exited => some { s with joined := true, trace := s.trace ++ [.destroyed] }
    | _, _, _ => none

/-- Runs a schedule (src/sink/asynchronous.p.cpp:85-147). -/
def State.run (cap : Nat) (policy : Policy) (s : State E) : List (Cmd E) → Option (State E)
  | [] => some s
  | c :: cs => (s.step cap policy c).bind (·.run cap policy cs)

end Blackhole.AsyncReenter
