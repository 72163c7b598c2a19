import Verif.Base

/-!
# Threads and mutexes

Threads that run emits of sinks, each of which is a sequence of actions on one shared object between locking and unlocking
one mutex: `std::lock_guard` in `file_t::emit` (src/sink/file.cpp:152-157), `tcp_t::emit` (src/sink/socket/tcp.cpp:121-134),
`console_t::emit` (src/sink/console.cpp:90-109) and `dev_t::handle` (src/handler/dev.cpp:184-193). Some actions are done
without a mutex (src/root.cpp:194-198). A schedule is the sequence of the threads that take the next step. The areas that
use this say what the objects, the mutexes and the actions are. The mutex is sequentially consistent and `lock` waits; a
thread that waits takes a step without effect.
-/

namespace Blackhole.Lock

/-- One emit (the bodies of src/sink/file.cpp:152-157 and src/sink/console.cpp:99-108): the object it works on, the
mutex it holds meanwhile (or none), its actions, and whether it ends by an exception, which can be seen from the
object when it ends. `what` says what is emitted (kept for the statements). Objects are named by `K`, mutexes by `L`.
-/
structure Op (K L W R : Type) where
  res : K
  lock : Option L
  what : W
  steps : List (R → R)
  failed : R → Bool

/-- An emit and what is done instead of the rest of its group if it ends by an exception (the `catch` clauses in
src/root.cpp:192-198). -/
structure Task (K L W R : Type) extends Op K L W R where
  rescue : List (Op K L W R)

/-- An emit after which nothing else is to be done (src/root.cpp:191-199). -/
def Op.alone {K L W R : Type} (op : Op K L W R) : Task K L W R := { op with rescue := [] }

/-- A thread: the groups of emits it has still to do (src/handler/blocking.cpp:31-34: an exception ends the group), and
the rest of the emit that it is in. -/
structure Thread (K L W R : Type) where
  todo : List (List (Task K L W R))
  doing : Option (List (R → R))

/-- All threads, the mutexes (src/sink/file.hpp:62, src/sink/console.cpp:100, 105) and the objects. -/
structure State (K L W R : Type) where
  threads : Nat → Thread K L W R
  /-- The thread that holds a mutex. -/
  holder : L → Option Nat
  res : K → R
  /-- The finished emits in order, with their threads and whether they failed (kept for the statements). -/
  done : List (Nat × Op K L W R × Bool)

/-- A function changed at one place: how the states of src/sink/file.cpp:152-157 and the like change. -/
def upd {α β : Type} [DecidableEq α] (f : α → β) (a : α) (b : β) : α → β := fun x => if x = a then b else f x

variable {K L W R : Type}

/-- Before the first step: no mutex is held and no emit has begun (src/root.cpp:191-199). -/
def State.init (programs : Nat → List (List (Task K L W R))) (res : K → R) : State K L W R :=
  { threads := fun t => { todo := programs t, doing := none }, holder := fun _ => none, res := res, done := [] }

/-- Nobody holds the mutex (`std::mutex::lock`, src/sink/file.cpp:153, src/sink/console.cpp:100, 105). -/
def State.free (s : State K L W R) : Option L → Bool
  | none => true
  | some l => (s.holder l).isNone

/-- A mutex gets a holder (`std::lock_guard`, src/sink/file.cpp:153, src/sink/console.cpp:100, 105). -/
def State.lock [DecidableEq L] (s : State K L W R) (h : Option Nat) : Option L → L → Option Nat
  | none => s.holder
  | some l => upd s.holder l h

/-- Thread `t` takes a step (src/root.cpp:191-199 with the emits in it). -/
def State.step [DecidableEq K] [DecidableEq L] (s : State K L W R) (t : Nat) : State K L W R :=
  match (s.threads t).todo with
  | [] => s
  | [] :: groups => { s with threads := upd s.threads t { todo := groups, doing := none } }
  | (op :: ops) :: groups =>
    match (s.threads t).doing with
    | none =>
      if s.free op.lock then
        { s with holder := s.lock (some t) op.lock,
                 threads := upd s.threads t { todo := (op :: ops) :: groups, doing := some op.steps } }
      else s
    | some (f :: fs) => { s with res := upd s.res op.res (f (s.res op.res)),
                                 threads := upd s.threads t { todo := (op :: ops) :: groups, doing := some fs } }
    | some [] => { s with holder := s.lock none op.lock,
                          threads := upd s.threads t
                            { todo := (if op.failed (s.res op.res) then op.rescue.map Op.alone else ops) :: groups,
                              doing := none },
                          done := s.done ++ [(t, op.toOp, op.failed (s.res op.res))] }

/-- A schedule: which thread takes each step (src/root.cpp:191-199 with the emits in it). -/
def State.run [DecidableEq K] [DecidableEq L] (s : State K L W R) (schedule : List Nat) : State K L W R :=
  schedule.foldl State.step s

end Blackhole.Lock
