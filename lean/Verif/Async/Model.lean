import Verif.Base

/-!
# The asynchronous sink (src/sink/asynchronous.p.cpp, src/sink/asynchronous.cpp)

Producers call `emit`; one consumer thread runs `run`; the owner destroys the sink. Every access to the queue or
to the atomic flag is one step, and any thread may run between two steps. `E` is the type of events (an owned
record and a message; ownership itself is `Verif.RecordBuf`).

The queue is `cds::container::VyukovMPSCCycleQueue` (a submodule absent from the checkout). Its contract here: a
FIFO of at most `cap` elements; `enqueue_with` fails exactly when it is full, `dequeue_with` exactly when it is
empty, and both are atomic. `Verif.Ring` (C78) shows it for the array queue.
-/

namespace Blackhole.Async

/-- `drop_overflow_policy_t` and `wait_overflow_policy_t` (src/sink/asynchronous.p.cpp:22-53). -/
inductive Policy where
  | drop | wait
  deriving DecidableEq, Repr

/-- `overflow_policy_t::action_t` (src/sink/asynchronous.hpp:17-20). -/
inductive Action where
  | retry | drop
  deriving DecidableEq, Repr

/-- `overflow()` (src/sink/asynchronous.p.cpp:27-29, 42-48). The wait of at most one millisecond has no effect on
the state: it is a point where other threads run. -/
def Policy.overflow : Policy → Action
  | .drop => .drop
  | .wait => .retry

/-- Where a producer is inside `emit` (src/sink/asynchronous.p.cpp:94-121). -/
inductive PPc (E : Type) where
  | idle
  /-- About to try `enqueue_with` (105). -/
  | trying (e : E)
  /-- `enqueue_with` has failed, about to ask the policy (113). -/
  | full (e : E)

/-- Where the consumer is inside `run` (src/sink/asynchronous.p.cpp:123-147). -/
inductive CPc (E : Type) where
  /-- About to call `dequeue_with` (126). -/
  | loop
  /-- About to test `stopped && !dequeued` (130). -/
  | got (e : Option (Nat × E))
  /-- About to call `wrapped->emit` (136). -/
  | deliver (e : Nat × E)
  /-- Sleeping (143). -/
  | sleep
  /-- Returned (131). -/
  | exited
  /-- The wrapped sink threw: the exception leaves the thread function (139) and `std::terminate` is called. -/
  | terminated

/-- What can be seen happening, in order. Producers are numbered. These are the call and the returns of `emit`, the
call of the wrapped sink and the destructor (src/sink/asynchronous.p.cpp:94, 111, 117, 136, 85-88). -/
inductive Ev (E : Type) where
  /-- Producer `p` calls `emit` with `e`. -/
  | call (p : Nat) (e : E)
  /-- The event enters the queue and the call returns. -/
  | accept (p : Nat) (e : E)
  /-- The call returns and the event is discarded. -/
  | discard (p : Nat) (e : E)
  /-- The wrapped sink's `emit` is called with the event. -/
  | deliver (p : Nat) (e : E)
  /-- The destructor sets the flag. -/
  | stop
  /-- The destructor returns. -/
  | destroyed

/-- The members of `asynchronous_t` (src/sink/asynchronous.hpp:47-53) with the places of the threads in its functions
and what has been seen. The wrapped sink and the policy are parameters of the steps. -/
structure State (E : Type) where
  queue : List (Nat × E)
  producers : Nat → PPc E
  consumer : CPc E
  stopped : Bool
  joined : Bool
  trace : List (Ev E)

/-- Right after construction (src/sink/asynchronous.p.cpp:67-83). -/
def State.init {E : Type} : State E :=
  { queue := [], producers := fun _ => .idle, consumer := .loop, stopped := false, joined := false, trace := [] }

/-- What a schedule consists of: calls of `emit` (src/sink/asynchronous.p.cpp:94), steps inside of it (95-120), steps
of `run` (123-147) and the two statements of the destructor (85-88). -/
inductive Cmd (E : Type) where
  /-- Producer `p` calls `emit`. -/
  | emit (p : Nat) (e : E)
  /-- Producer `p` takes its next step. -/
  | producer (p : Nat)
  /-- The consumer takes its next step; if that is a call of the wrapped sink, it returns normally. -/
  | consumer
  /-- The wrapped sink, being called, throws. -/
  | consumerThrows
  /-- `stopped.store(true)` in the destructor (86). -/
  | stop
  /-- `thread.join()` returns (87). -/
  | join

variable {E : Type}

/-- Thread `p` goes to another place in `emit` (src/sink/asynchronous.p.cpp:94-121). -/
def State.setProducer (s : State E) (p : Nat) (x : PPc E) : State E :=
  { s with producers := fun q => if q = p then x else s.producers q }

/-- One step of `emit` (src/sink/asynchronous.p.cpp:94, 105-119). -/
def State.produce (cap : Nat) (policy : Policy) (s : State E) (p : Nat) : Option (State E) :=
  match s.producers p with
  | .idle => none
  | .trying e =>
    if s.queue.length < cap then
      some { s.setProducer p .idle with queue := s.queue ++ [(p, e)], trace := s.trace ++ [.accept p e] }
    else some (s.setProducer p (.full e))
  | .full e =>
    match policy.overflow with
    | .retry => some (s.setProducer p (.trying e))
    | .drop => some { s.setProducer p .idle with trace := s.trace ++ [.discard p e] }

/-- One step of `run` (src/sink/asynchronous.p.cpp:123-147). -/
def State.consume (s : State E) : Option (State E) :=
  match s.consumer with
  | .loop =>
    match s.queue with
    | [] => some { s with consumer := .got none }
    | e :: rest => some { s with consumer := .got (some e), queue := rest }
  | .got none => if s.stopped then some { s with consumer := .exited } else some { s with consumer := .sleep }
  | .got (some e) => some { s with consumer := .deliver e }
  | .deliver e => some { s with consumer := .loop, trace := s.trace ++ [.deliver e.1 e.2] }
  | .sleep => some { s with consumer := .loop }
  | .exited => none
  | .terminated => none

/-- One step of one thread (src/sink/asynchronous.p.cpp:85-147); none if the thread cannot take it. -/
def State.step (cap : Nat) (policy : Policy) (s : State E) : Cmd E → Option (State E)
  | .emit p e =>
    match s.producers p with
    | .idle => some { s.setProducer p (.trying e) with trace := s.trace ++ [.call p e] }
    | _ => none
  | .producer p => s.produce cap policy p
  | .consumer => s.consume
  | .consumerThrows =>
    match s.consumer with
    | .deliver e => some { s with consumer := .terminated, trace := s.trace ++ [.deliver e.1 e.2] }
    | _ => none
  | .stop => if s.stopped then none else some { s with stopped := true, trace := s.trace ++ [.stop] }
  | .join =>
    match s.stopped, s.joined, s.consumer with
    | true, false, .exited => some { s with joined := true, trace := s.trace ++ [.destroyed] }
    | _, _, _ => none

/-- Runs a schedule: any interleaving of the steps of `emit`, `run` and the destructor
(src/sink/asynchronous.p.cpp:85-147). -/
def State.run (cap : Nat) (policy : Policy) (s : State E) : List (Cmd E) → Option (State E)
  | [] => some s
  | c :: cs => (s.step cap policy c).bind (·.run cap policy cs)

/-! ## Construction -/

/-- Exceptions (src/sink/asynchronous.p.cpp:14, 64; src/registry.cpp:134; src/sink/asynchronous.cpp:68) and undefined
behaviour of construction. -/
inductive Failure where
  | invalidArgument (what : Str)
  | outOfRange (what : Str)
  | ub (u : UB)
  deriving DecidableEq, Repr

/-- `exp2` (src/sink/asynchronous.p.cpp:12-18). `std::exp2` is exact on the accepted range. -/
def exp2 (factor : Nat) : Except Failure Nat :=
  if factor < 2 ∨ factor > 20 then .error (.invalidArgument (ch! "factor should fit in [2; 20] range"))
  else .ok (2 ^ factor)

/-- `overflow_policy_factory_t::create` (src/sink/asynchronous.p.cpp:55-65). -/
def create (name : Str) : Except Failure Policy :=
  if name = ch! "drop" then .ok .drop
  else if name = ch! "wait" then .ok .wait
  else .error (.invalidArgument (ch! "no overflow policy with name \"" ++ name ++ ch! "\" found"))

/-- A constructed sink (src/sink/asynchronous.p.cpp:67-83): what matters of its parameters. -/
structure Sink where
  capacity : Nat
  policy : Policy
  deriving DecidableEq, Repr

/-- `asynchronous_t(wrapped, factor)` (src/sink/asynchronous.p.cpp:67-73). -/
def Sink.make (factor : Nat) : Except Failure Sink := do
  let c ← exp2 factor
  .ok { capacity := c, policy := .wait }

/-- `asynchronous_t(sink, factor, overflow_policy)` (src/sink/asynchronous.p.cpp:75-83). -/
def Sink.make' (factor : Nat) (policy : Policy) : Except Failure Sink := do
  let c ← exp2 factor
  .ok { capacity := c, policy := policy }

/-- `builder<asynchronous_t>::inner_t` (src/sink/asynchronous.cpp:16-21). -/
structure Builder where
  policy : Policy
  factor : Nat
  deriving DecidableEq, Repr

/-- Constructor (src/sink/asynchronous.cpp:23-25). -/
def Builder.init : Builder := { policy := .wait, factor := 10 }

/-- Calls on a builder, on an lvalue or on an rvalue (src/sink/asynchronous.cpp:27-52). -/
inductive Call where
  | factor (n : Nat)
  | factorR (n : Nat)
  | wait
  | waitR
  | drop
  | dropR
  deriving DecidableEq, Repr

/-- src/sink/asynchronous.cpp:27-52. -/
def Builder.call (b : Builder) : Call → Builder
  | .factor n => { b with factor := n }
  | .factorR n => { b with factor := n }
  | .wait => { b with policy := .wait }
  -- `wait() &&` is `std::move(wait())`, which calls the lvalue overload (50-52)
  | .waitR => { b with policy := .wait }
  | .drop => { b with policy := .drop }
  -- `drop() &&` calls `wait()` (41-43)
  | .dropR => { b with policy := .wait }

/-- `build() &&` (src/sink/asynchronous.cpp:54-56). -/
def Builder.build (b : Builder) : Except Failure Sink := Sink.make b.factor

/-- The configuration fields `factory<asynchronous_t>::from` reads, and whether the registry knows the type
(src/sink/asynchronous.cpp:62-81). -/
structure Config where
  sinkType : Option Str
  known : Bool
  factor : Option Nat
  overflow : Option Str
  deriving DecidableEq, Repr

/-- `factory<asynchronous_t>::from` (src/sink/asynchronous.cpp:62-81). `known` says whether the registry has the
type; building the wrapped sink is assumed to succeed. `.get()` of an empty optional is undefined behaviour. -/
def fromConfig (c : Config) : Except Failure Sink :=
  match c.sinkType with
  | none => .error (.invalidArgument (ch! "\"sink\" field with \"type\" is required"))
  | some type =>
    -- src/registry.cpp:132-135
    if c.known = false then
      .error (.outOfRange (ch! "sink with type \"" ++ type ++ ch! "\" is not registered"))
    else
      match c.factor with
      | none => .error (.ub .nullDeref)
      | some factor =>
        match c.overflow with
        | none => .error (.ub .nullDeref)
        | some name => do
          let policy ← create name
          Sink.make' factor policy

end Blackhole.Async
