import Verif.Async.Model

/-!
# The queue inside the asynchronous sink

`Verif.Async` takes the queue of the asynchronous sink by its contract. Here it is the array that the queue really is:
`cds::container::VyukovMPSCCycleQueue` (src/sink/asynchronous.hpp:45), the bounded queue of D. Vyukov. Its source is a
submodule that is absent from the checkout, so `enqueue_with` and `dequeue_with` below are the published algorithm in the
form that libcds gives it (cds/container/vyukov_mpmc_cycle_queue.h) and not a text in /repo; the loops around them, the
overflow policies, the worker and the destructor are src/sink/asynchronous.p.cpp:85-147.

Every access to shared memory is one step and any thread may run between two steps. Writing a record into a cell and moving
it out take two steps each, so that it could be seen half-written.

Simplifications: memory is sequentially consistent; the counters do not wrap around (they have 64 bits); back-off pauses and
the item counter are left out.
-/

namespace Blackhole.Ring

open Async (Policy)

/-- Where a producer is inside `emit` (src/sink/asynchronous.p.cpp:94-121). -/
inductive PPc (E : Type) where
  | idle
  /-- In `enqueue_with`, about to load the enqueue position. -/
  | start (e : E)
  /-- About to load the sequence number of the cell for this position. -/
  | loaded (e : E) (pos : Nat)
  /-- About to compare the sequence number with the position, and to advance the enqueue position if they are equal. -/
  | seen (e : E) (pos seq : Nat)
  /-- The cell is in use; about to load the dequeue position. -/
  | behind (e : E) (pos : Nat)
  /-- `enqueue_with` has returned `false`; about to ask the policy (113). -/
  | full (e : E)
  /-- The cell is claimed; about to run the lambda (105-107). -/
  | claimed (e : E) (pos : Nat)
  /-- In the assignment of the lambda (106). -/
  | writing (e : E) (pos : Nat)
  /-- About to store the sequence number. -/
  | written (e : E) (pos : Nat)
  deriving DecidableEq, Repr

/-- Where the worker is inside `run` (src/sink/asynchronous.p.cpp:123-147). -/
inductive CPc (E : Type) where
  /-- About to call `dequeue_with` (126), which loads the dequeue position. -/
  | loop
  | loaded (pos : Nat)
  | seen (pos seq : Nat)
  /-- The cell is not filled; about to load the enqueue position. -/
  | behind (pos : Nat)
  /-- The dequeue position is advanced; about to run the lambda (126-128). -/
  | taken (pos : Nat)
  /-- In the assignment of the lambda (127). -/
  | reading (pos : Nat)
  /-- About to store the sequence number. -/
  | copied (pos : Nat) (x : Nat × E)
  /-- About to test `stopped && !dequeued` (130). -/
  | got (e : Option (Nat × E))
  /-- About to call `wrapped->emit` (136). -/
  | deliver (e : Nat × E)
  /-- Sleeping (143). -/
  | sleep
  /-- Returned (131). -/
  | exited
  /-- The wrapped sink threw (139). -/
  | terminated
  /-- The worker has read a cell that holds no complete record. -/
  | corrupt
  deriving DecidableEq, Repr

/-- What happens, in order (src/sink/asynchronous.p.cpp:94-145). -/
inductive Ev (E : Type) where
  | call (p : Nat) (e : E)
  /-- The call has got its place in the queue. -/
  | claim (p : Nat) (e : E)
  /-- The call returns, the record is in the queue. -/
  | returned (p : Nat) (e : E)
  /-- The call returns and the record is discarded. -/
  | discard (p : Nat) (e : E)
  /-- The call ends by an exception. -/
  | threw (p : Nat) (e : E)
  /-- The wrapped sink's `emit` is called with the record. -/
  | deliver (p : Nat) (e : E)
  /-- The destructor sets the flag. -/
  | stop
  /-- The destructor returns. -/
  | destroyed
  deriving DecidableEq, Repr

/-- The queue and the threads around it (src/sink/asynchronous.p.cpp:67-145; the queue of
src/sink/asynchronous.hpp:45-47, whose code is not part of the repository). -/
structure State (E : Type) where
  /-- The sequence numbers of the cells. -/
  seq : Nat → Nat
  /-- The contents of the cells, with the producer; `none` if there is no complete record in it. -/
  data : Nat → Option (Nat × E)
  /-- The enqueue position. -/
  tail : Nat
  /-- The dequeue position. -/
  head : Nat
  producers : Nat → PPc E
  consumer : CPc E
  stopped : Bool
  joined : Bool
  /-- Who claimed the positions `0`, `1`, … and with what (kept for the statements). -/
  claims : List (Nat × E)
  trace : List (Ev E)

variable {E : Type}

/-- The constructor of the queue (src/sink/asynchronous.p.cpp:68, 78): cell `i` waits for position `i`. -/
def State.init : State E :=
  { seq := id, data := fun _ => none, tail := 0, head := 0, producers := fun _ => .idle, consumer := .loop, stopped := false,
    joined := false, claims := [], trace := [] }

/-- What a schedule may do next (src/sink/asynchronous.p.cpp:85-145). -/
inductive Cmd (E : Type) where
  /-- Producer `p` calls `emit`. -/
  | emit (p : Nat) (e : E)
  /-- Producer `p` takes its next step; `compare_exchange_weak` may fail for no reason. -/
  | producer (p : Nat) (spurious : Bool)
  /-- The copy of the record cannot be made: the lambda throws (106). -/
  | throws (p : Nat)
  /-- The worker takes its next step; if that is a call of the wrapped sink, it returns normally. -/
  | consumer (spurious : Bool)
  /-- The wrapped sink, being called, throws. -/
  | consumerThrows
  /-- `stopped.store(true)` in the destructor (86). -/
  | stop
  /-- `thread.join()` returns (87). -/
  | join
  deriving DecidableEq, Repr

/-- A function changed at one place, as the states of src/sink/asynchronous.p.cpp:94-145 change. -/
def upd {β : Type} (f : Nat → β) (a : Nat) (b : β) : Nat → β := fun x => if x = a then b else f x

/-- The cell for a position (the queue of src/sink/asynchronous.hpp:45-47, whose code is not part of the repository):
`pos & mask`, for a capacity `cap` that is a power of two. -/
def cell (cap pos : Nat) : Nat := pos &&& (cap - 1)

/-- Producer `p` is at another place now (src/sink/asynchronous.p.cpp:94-121). -/
def State.go (s : State E) (p : Nat) (x : PPc E) : State E := { s with producers := upd s.producers p x }

/-- An event is noted (src/sink/asynchronous.p.cpp:94-145). -/
def State.say (s : State E) (e : Ev E) : State E := { s with trace := s.trace ++ [e] }

/-- One step of `emit` (src/sink/asynchronous.p.cpp:105-119) and of the `enqueue_with` in it. -/
def State.produce (cap : Nat) (policy : Policy) (s : State E) (p : Nat) (spurious : Bool) : Option (State E) :=
  match s.producers p with
  | .idle => none
  | .start e => some (s.go p (.loaded e s.tail))
  | .loaded e pos => some (s.go p (.seen e pos (s.seq (cell cap pos))))
  | .seen e pos n =>
    if n = pos then
      if s.tail = pos ∧ spurious = false then
        some (({ s with tail := pos + 1, claims := s.claims ++ [(p, e)] }.go p (.claimed e pos)).say (.claim p e))
      else some (s.go p (.loaded e s.tail))
    else if n < pos then some (s.go p (.behind e pos))
    else some (s.go p (.start e))
  | .behind e pos => some (s.go p (if pos = s.head + cap then .full e else .start e))
  | .full e =>
    match policy.overflow with
    | .retry => some (s.go p (.start e))
    | .drop => some ((s.go p .idle).say (.discard p e))
  | .claimed e pos => some ({ s with data := upd s.data (cell cap pos) none }.go p (.writing e pos))
  | .writing e pos => some ({ s with data := upd s.data (cell cap pos) (some (p, e)) }.go p (.written e pos))
  | .written e pos => some (({ s with seq := upd s.seq (cell cap pos) (pos + 1) }.go p .idle).say (.returned p e))

/-- The lambda of `emit` throws (src/sink/asynchronous.p.cpp:106): the cell stays as it is. -/
def State.fail (s : State E) (p : Nat) : Option (State E) :=
  match s.producers p with
  | .claimed e _ => some ((s.go p .idle).say (.threw p e))
  | .writing e _ => some ((s.go p .idle).say (.threw p e))
  | _ => none

/-- One step of `run` (src/sink/asynchronous.p.cpp:124-146) and of the `dequeue_with` in it. -/
def State.consume (cap : Nat) (s : State E) (spurious : Bool) : Option (State E) :=
  match s.consumer with
  | .loop => some { s with consumer := .loaded s.head }
  | .loaded pos => some { s with consumer := .seen pos (s.seq (cell cap pos)) }
  | .seen pos n =>
    if n = pos + 1 then
      if s.head = pos ∧ spurious = false then some { s with head := pos + 1, consumer := .taken pos }
      else some { s with consumer := .loaded s.head }
    else if n < pos + 1 then some { s with consumer := .behind pos }
    else some { s with consumer := .loop }
  | .behind pos => some { s with consumer := if pos = s.tail then .got none else .loop }
  | .taken pos => some { s with consumer := .reading pos }
  | .reading pos =>
    match s.data (cell cap pos) with
    | some x => some { s with consumer := .copied pos x, data := upd s.data (cell cap pos) none }
    | none => some { s with consumer := .corrupt }
  | .copied pos x => some { s with consumer := .got (some x), seq := upd s.seq (cell cap pos) (pos + cap) }
  | .got none => if s.stopped then some { s with consumer := .exited } else some { s with consumer := .sleep }
  | .got (some e) => some { s with consumer := .deliver e }
  | .deliver e => some ({ s with consumer := .loop }.say (.deliver e.1 e.2))
  | .sleep => some { s with consumer := .loop }
  | .exited => none
  | .terminated => none
  | .corrupt => none

/-- One command of a schedule (src/sink/asynchronous.p.cpp:85-145; the queue of src/sink/asynchronous.hpp:45-47, whose
code is not part of the repository). -/
def State.step (cap : Nat) (policy : Policy) (s : State E) : Cmd E → Option (State E)
  | .emit p e =>
    match s.producers p with
    | .idle => some ((s.go p (.start e)).say (.call p e))
    | _ => none
  | .producer p spurious => s.produce cap policy p spurious
  | .throws p => s.fail p
  | .consumer spurious => s.consume cap spurious
  | .consumerThrows =>
    match s.consumer with
    | .deliver e => some ({ s with consumer := .terminated }.say (.deliver e.1 e.2))
    | _ => none
  | .stop => if s.stopped then none else some ({ s with stopped := true }.say .stop)
  | .join =>
    match s.stopped, s.joined, s.consumer with
    | true, false, .exited => some ({ s with joined := true }.say .destroyed)
    | _, _, _ => none

/-- Runs a schedule (src/sink/asynchronous.p.cpp:85-145). -/
def State.run (cap : Nat) (policy : Policy) (s : State E) : List (Cmd E) → Option (State E)
  | [] => some s
  | c :: cs => (s.step cap policy c).bind (·.run cap policy cs)

end Blackhole.Ring
