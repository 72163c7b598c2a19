import Verif.Ring.Model

/-!
# The queue inside the asynchronous sink, on memory that is not sequentially consistent

`Verif.Ring` lets every load return the last value that was stored. The queue loads and advances its two positions with relaxed
order, loads sequence numbers with acquire and stores them with release order (the algorithm of `Verif.Ring`, with the memory
orders that libcds gives it; its source is not part of the repository). Here a load may return any value that the word had
before, unless the thread knows of a later one: what a thread has seen, and what the threads whose stores it acquired had seen, is
its view. Every step also notes the accesses that matter for data races.

Simplifications: an exchange reads the last value if it succeeds; what threads learn of each other outside of the queue (the
flag of the destructor, the locks of the logger) is left out, which only allows more; the contents of cells are read and written
as they are last, which `C109_race_free` justifies.
-/

namespace Blackhole.RingWeak

open Ring (cell upd)
open Async (Policy)

/-- The threads: those that call `emit` (src/sink/asynchronous.p.cpp:94-121) and the worker (123-147). -/
inductive Thread where
  | producer (p : Nat)
  | worker
  deriving DecidableEq, Repr

/-- The values that a thread knows of: later loads never return smaller ones (the queue of src/sink/asynchronous.hpp:45-47; all
its words only grow). -/
structure View where
  tail : Nat
  head : Nat
  seq : Nat → Nat

/-- What two threads know together (an acquiring load in the queue of src/sink/asynchronous.hpp:45-47). -/
def View.join (a b : View) : View := ⟨max a.tail b.tail, max a.head b.head, fun c => max (a.seq c) (b.seq c)⟩

/-- The value of a sequence number becomes known (the queue of src/sink/asynchronous.hpp:45-47). -/
def View.raise (a : View) (c n : Nat) : View := { a with seq := upd a.seq c n }

/-- Accesses to memory in the queue of src/sink/asynchronous.hpp:45-47: to the sequence numbers of cells, which are atomic, and
to their contents, which are not (src/sink/asynchronous.p.cpp:106, 127). -/
inductive Access where
  /-- An acquiring load of the value `v` from the sequence number of cell `c`. -/
  | load (c v : Nat)
  /-- A releasing store. -/
  | store (c v : Nat)
  /-- The contents of cell `c` are written or moved from. -/
  | touch (c : Nat)
  deriving DecidableEq, Repr

/-- An access and the thread (src/sink/asynchronous.p.cpp:94-147). -/
structure Event where
  thread : Thread
  access : Access
  deriving DecidableEq, Repr

/-- The queue, its threads, and what they know (src/sink/asynchronous.p.cpp:67-145). -/
structure State (E : Type) where
  ring : Ring.State E
  views : Thread → View
  /-- All stores to the sequence numbers, with the view of the thread that stored. -/
  past : Nat → List (Nat × View)
  events : List Event

variable {E : Type}

/-- The constructor of the queue (src/sink/asynchronous.p.cpp:68, 78). -/
def State.init : State E :=
  { ring := Ring.State.init, views := fun _ => ⟨0, 0, id⟩, past := fun c => [(c, ⟨0, 0, id⟩)], events := [] }

/-- What a schedule may do next (src/sink/asynchronous.p.cpp:85-145). -/
inductive Cmd (E : Type) where
  /-- The next step of the thread is a load, or an exchange that fails; it returns `v`. -/
  | load (t : Thread) (v : Nat)
  /-- Everything else. -/
  | other (c : Ring.Cmd E)

/-- A thread learns something (src/sink/asynchronous.p.cpp:94-147). -/
def State.learn (s : State E) (t : Thread) (w : View) : State E :=
  { s with views := fun u => if u = t then w else s.views u }

/-- A relaxed load of the enqueue position (`enqueue_with`, `dequeue_with` of the queue of src/sink/asynchronous.hpp:45-47). The
position has had all values up to the present one. -/
def State.loadTail (s : State E) (t : Thread) (v : Nat) : Option (State E) :=
  if (s.views t).tail ≤ v ∧ v ≤ s.ring.tail then some (s.learn t { s.views t with tail := v }) else none

/-- A relaxed load of the dequeue position (the queue of src/sink/asynchronous.hpp:45-47). -/
def State.loadHead (s : State E) (t : Thread) (v : Nat) : Option (State E) :=
  if (s.views t).head ≤ v ∧ v ≤ s.ring.head then some (s.learn t { s.views t with head := v }) else none

/-- An acquiring load of a sequence number (the queue of src/sink/asynchronous.hpp:45-47): the thread also learns what the one
that stored the value knew. -/
def State.loadSeq (s : State E) (t : Thread) (c v : Nat) : Option (State E) :=
  match (s.past c).find? fun m => m.1 = v with
  | some m =>
    if (s.views t).seq c ≤ v then
      some { s.learn t (((s.views t).join m.2).raise c v) with events := s.events ++ [⟨t, .load c v⟩] }
    else none
  | none => none

/-- Where thread `p` is afterwards (src/sink/asynchronous.p.cpp:105). -/
def State.goes (s : State E) (p : Nat) (x : Ring.PPc E) : State E := { s with ring := s.ring.go p x }

/-- Where the worker is afterwards (src/sink/asynchronous.p.cpp:126). -/
def State.works (s : State E) (x : Ring.CPc E) : State E := { s with ring := { s.ring with consumer := x } }

/-- The loads in `enqueue_with` (src/sink/asynchronous.p.cpp:105) and `dequeue_with` (126), as in `Ring.State.produce` and
`Ring.State.consume`. -/
def State.load (cap : Nat) (s : State E) (t : Thread) (v : Nat) : Option (State E) :=
  match t with
  | .producer p =>
    match s.ring.producers p with
    | .start e => (s.loadTail t v).map (·.goes p (.loaded e v))
    | .loaded e pos => (s.loadSeq t (cell cap pos) v).map (·.goes p (.seen e pos v))
    | .seen e pos n => if n = pos then (s.loadTail t v).map (·.goes p (.loaded e v)) else none
    | .behind e pos => (s.loadHead t v).map (·.goes p (if pos = v + cap then .full e else .start e))
    | _ => none
  | .worker =>
    match s.ring.consumer with
    | .loop => (s.loadHead t v).map (·.works (.loaded v))
    | .loaded pos => (s.loadSeq t (cell cap pos) v).map (·.works (.seen pos v))
    | .seen pos n => if n = pos + 1 then (s.loadHead t v).map (·.works (.loaded v)) else none
    | .behind pos => (s.loadTail t v).map (·.works (if pos = v then .got none else .loop))
    | _ => none

/-- The next step is a load or an exchange that fails (src/sink/asynchronous.p.cpp:105, 126). -/
def loads (s : Ring.State E) : Ring.Cmd E → Bool
  | .producer p spurious =>
    match s.producers p with
    | .start _ | .loaded _ _ | .behind _ _ => true
    | .seen _ pos n => decide (n = pos) && !(decide (s.tail = pos) && !spurious)
    | _ => false
  | .consumer spurious =>
    match s.consumer with
    | .loop | .loaded _ | .behind _ => true
    | .seen pos n => decide (n = pos + 1) && !(decide (s.head = pos) && !spurious)
    | _ => false
  | _ => false

/-- The contents of a cell are accessed (src/sink/asynchronous.p.cpp:106, 127). -/
def State.touch (s : State E) (t : Thread) (c : Nat) : State E := { s with events := s.events ++ [⟨t, .touch c⟩] }

/-- A releasing store to a sequence number (the queue of src/sink/asynchronous.hpp:45-47). -/
def State.store (s : State E) (t : Thread) (c v : Nat) : State E :=
  { s.learn t ((s.views t).raise c v) with
    past := upd s.past c (s.past c ++ [(v, (s.views t).raise c v)]), events := s.events ++ [⟨t, .store c v⟩] }

/-- What the steps that are no loads do to memory (src/sink/asynchronous.p.cpp:105-107, 126-128). -/
def State.note (cap : Nat) (s : State E) : Ring.Cmd E → State E
  | .producer p _ =>
    match s.ring.producers p with
    | .seen _ pos n => if n = pos then s.learn (.producer p) { s.views (.producer p) with tail := pos + 1 } else s
    | .claimed _ pos => s.touch (.producer p) (cell cap pos)
    | .writing _ pos => s.touch (.producer p) (cell cap pos)
    | .written _ pos => s.store (.producer p) (cell cap pos) (pos + 1)
    | _ => s
  | .consumer _ =>
    match s.ring.consumer with
    | .seen pos n => if n = pos + 1 then s.learn .worker { s.views .worker with head := pos + 1 } else s
    | .taken pos => s.touch .worker (cell cap pos)
    | .reading pos => s.touch .worker (cell cap pos)
    | .copied pos _ => s.store .worker (cell cap pos) (pos + cap)
    | _ => s
  | _ => s

/-- One command of a schedule (src/sink/asynchronous.p.cpp:85-145). -/
def State.step (cap : Nat) (policy : Policy) (s : State E) : Cmd E → Option (State E)
  | .load t v => s.load cap t v
  | .other c => if loads s.ring c then none else (s.ring.step cap policy c).map fun r => { s.note cap c with ring := r }

/-- Runs a schedule (src/sink/asynchronous.p.cpp:85-145). -/
def State.run (cap : Nat) (policy : Policy) (s : State E) : List (Cmd E) → Option (State E)
  | [] => some s
  | c :: cs => (s.step cap policy c).bind (·.run cap policy cs)

end Blackhole.RingWeak
