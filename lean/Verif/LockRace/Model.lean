import Verif.Lock.Model

/-!
# Accesses to the sinks in time

What the steps of the threads in `Lock/Model.lean` are to the memory model: taking and giving back a mutex
(`std::lock_guard` in src/sink/file.cpp:155, src/sink/console.cpp:100, 105, src/sink/socket/tcp.cpp:122,
src/handler/dev.cpp:187) and accesses to the object that the mutex is there for. Every action between the two may change the
object, so all accesses count as writes. Simplification: an action is one access, although it can be many; waiting for a
mutex and the end of a handler's loop access nothing.
-/

namespace Blackhole.LockRace

open Lock (State Op Task)

variable {K L W R : Type}

/-- What a step does in the memory: `std::lock_guard` gets the mutex or gives it back, or an action works on an object
(src/sink/file.cpp:152-157, src/sink/console.cpp:99-108). An access names the mutex that the emit holds meanwhile. -/
inductive Ev (K L : Type) where
  | acquire (l : L)
  | release (l : L)
  | touch (k : K) (under : Option L)
  deriving DecidableEq, Repr

/-- A thread and what it does (src/root.cpp:191-199 with the emits in it). -/
structure Event (K L : Type) where
  thread : Nat
  what : Ev K L
  deriving DecidableEq, Repr

/-- What thread `t` does in its next step, which is `State.step` (src/sink/file.cpp:152-157, src/sink/console.cpp:99-108,
src/root.cpp:191-199). -/
def events (s : State K L W R) (t : Nat) : List (Event K L) :=
  match (s.threads t).todo with
  | [] | [] :: _ => []
  | (op :: _) :: _ =>
    match (s.threads t).doing with
    | none => if s.free op.lock then (op.lock.map fun l => ⟨t, .acquire l⟩).toList else []
    | some (_ :: _) => [⟨t, .touch op.res op.lock⟩]
    | some [] => (op.lock.map fun l => ⟨t, .release l⟩).toList

/-- All events under a schedule, in their order (src/root.cpp:191-199). -/
def trace [DecidableEq K] [DecidableEq L] (s : State K L W R) : List Nat → List (Event K L)
  | [] => []
  | t :: ts => events s t ++ trace (s.step t) ts

end Blackhole.LockRace
