import Verif.Ring.Model

/-!
# Functions of attributes that run while a record is put into the queue

The lambda that `emit` of the asynchronous sink gives to the queue makes the copy of the record in its place there
(src/sink/asynchronous.p.cpp:105-107). For that it calls the functions of lazy attributes (src/recordbuf.hpp:37-41): the call has
its place already, and nobody can use it before the functions come back. Here such a function may log to the same sink, as often
as it likes and to any depth, or throw. The queue and the threads are those of `Verif.Ring`. A call that a function makes
is a producer of its own, and the call it was made from stands still until it has ended.

Simplification: an exception of a nested call ends this call only, since the root logger between them catches it
(src/root.cpp:190-198).
-/

namespace Blackhole.RingNest

open Async (Policy)
open Ring (upd)

variable {E : Type}

/-- The queue and the threads (src/sink/asynchronous.p.cpp:94-147), with the nesting of calls. -/
structure State (E : Type) where
  ring : Ring.State E
  /-- The call that a function of this call has made and that has not ended. -/
  inner : Nat → Option Nat
  /-- The call whose function has made this call. -/
  outer : Nat → Option Nat

/-- Right after construction (src/sink/asynchronous.p.cpp:67-83). -/
def State.init : State E := ⟨Ring.State.init, fun _ => none, fun _ => none⟩

/-- What a schedule may do next (src/sink/asynchronous.p.cpp:85-147, src/recordbuf.hpp:37-41). -/
inductive Cmd (E : Type) where
  /-- As without nested calls. `throws` is an exception of a function, or of the copy. -/
  | plain (c : Ring.Cmd E)
  /-- A function of a record of call `p` makes the call `q`, with `e`. -/
  | nest (p q : Nat) (e : E)

/-- The call that takes a step (src/sink/asynchronous.p.cpp:94-121). -/
def mover : Ring.Cmd E → Option Nat
  | .producer p _ => some p
  | .throws p => some p
  | _ => none

/-- If call `q` has ended, the function that made it goes on (src/recordbuf.hpp:39). -/
def State.leave (s : State E) (q : Nat) : State E :=
  match s.ring.producers q, s.outer q with
  | .idle, some p => { s with inner := upd s.inner p none, outer := upd s.outer q none }
  | _, _ => s

/-- One step (src/sink/asynchronous.p.cpp:85-147, src/recordbuf.hpp:37-41). -/
def State.step (cap : Nat) (policy : Policy) (s : State E) : Cmd E → Option (State E)
  | .plain c =>
    match mover c with
    | none => (s.ring.step cap policy c).map fun r => { s with ring := r }
    | some p =>
      match s.inner p with
      | some _ => none
      | none => (s.ring.step cap policy c).map fun r => { s with ring := r }.leave p
  | .nest p q e =>
    match s.ring.producers p, s.inner p with
    | .claimed _ _, none =>
      (s.ring.step cap policy (.emit q e)).map fun r => ⟨r, upd s.inner p (some q), upd s.outer q (some p)⟩
    | _, _ => none

/-- Runs a schedule (src/sink/asynchronous.p.cpp:85-147). -/
def State.run (cap : Nat) (policy : Policy) (s : State E) : List (Cmd E) → Option (State E)
  | [] => some s
  | c :: cs => (s.step cap policy c).bind (·.run cap policy cs)

end Blackhole.RingNest
