import Verif.Spin.Spec

/-!
# Which words the threads touch, and in which order

`Verif.Spin` runs the member functions of `root_logger_t` one access at a time. Here every step leaves a trace: the locks that
it takes and gives back and the words of memory that it touches.

Simplifications: the counts of `std::shared_ptr` are atomic and leave no trace; the destructors of configurations that are no
longer used leave none either (`Verif.Lifetime` shows that nobody uses them any more).
-/

namespace Blackhole.Race

open Spin (Lock State Access)
open RootConc (Pc Cmd)

/-- Memory that is not atomic: the two words of the pointer `inner` of a logger (include/blackhole/root.hpp:31), the two words
of the filter and the handlers of a configuration (src/root.cpp:75-76). -/
inductive Word where
  | obj (l : Nat)
  | ctl (l : Nat)
  | fa (c : Nat)
  | fb (c : Nat)
  | handlers (c : Nat)
  deriving DecidableEq, Repr

/-- Events of the memory model that src/root.cpp:41-201 gives rise to. -/
inductive Ev where
  | acquire (k : Lock)
  | release (k : Lock)
  /-- The constructor of a logger returns. -/
  | make (l : Nat)
  /-- A member function of a logger is called. -/
  | meet (l : Nat)
  | touch (w : Word) (write : Bool)
  deriving DecidableEq, Repr

/-- An event and the thread that does it (src/root.cpp:41-201). -/
structure Event where
  thread : Nat
  ev : Ev
  deriving DecidableEq, Repr

variable {A B H : Type}

/-- The words that a new logger consists of (src/root.cpp:98-106, 108-110). -/
def newLogger (l : Nat) : List Ev := [.touch (.obj l) true, .touch (.ctl l) true, .make l]

/-- What `Spin.State.pointerStep` touches (src/root.cpp:55-69). -/
def pointerEvents (s : State A B H) (t l : Nat) (store : Bool) : List Ev :=
  match (s.thr t).stage with
  | .outside =>
    match s.cells[l]? with
    | some x => if x.lock = none then [.acquire (.logger l)] else []
    | none => []
  | .locked => [.touch (.obj l) store]
  | .half _ => [.touch (.ctl l) store]
  | .ready _ _ _ =>
    .release (.logger l) :: match (s.thr t).pc with
      | .move _ => newLogger s.cells.length
      | _ => []
  | _ => []

/-- What `Spin.State.filterStep` touches (src/root.cpp:88-92), and the handlers that the call then uses
(src/root.cpp:186-201). -/
def filterEvents (s : State A B H) (t c : Nat) (store : Bool) : List Ev :=
  match (s.thr t).stage with
  | .outside =>
    match s.cfgs[c]? with
    | some x => if x.lock = none then [.acquire (.config c)] else []
    | none => []
  | .locked => [.touch (.fa c) store]
  | .halfF _ => [.touch (.fb c) store]
  | .fullF _ _ =>
    .release (.config c) :: match (s.thr t).pc with
      | .logLoaded _ _ _ => [.touch (.handlers c) false]
      | _ => []
  | _ => []

/-- What a command touches, and the thread that runs it (src/root.cpp:41-201). -/
def events (s : State A B H) : Cmd (A × B) H → Nat × List Ev
  | .construct t _ _ =>
    (t, [.touch (.fa s.cfgs.length) true, .touch (.fb s.cfgs.length) true, .touch (.handlers s.cfgs.length) true]
      ++ newLogger s.cells.length)
  | .log t l => (t, [.meet l])
  | .filter t l _ => (t, [.meet l])
  | .assign t dst src => (t, if dst = src then [] else [.meet dst, .meet src])
  | .move t src => (t, [.meet src])
  | .step t =>
    (t, match Spin.access (s.thr t).pc with
      | .none => []
      | .load l => pointerEvents s t l false
      | .store l _ => pointerEvents s t l true
      | .read c => filterEvents s t c false
      | .write c _ => filterEvents s t c true)

/-- The events of one command (src/root.cpp:41-201). -/
def step (s : State A B H) (c : Cmd (A × B) H) : List Event := (events s c).2.map fun e => ⟨(events s c).1, e⟩

/-- The trace of a schedule (src/root.cpp:41-201). -/
def trace (s : State A B H) : List (Cmd (A × B) H) → List Event
  | [] => []
  | c :: cs =>
    match s.act c with
    | none => []
    | some s' => step s c ++ trace s' cs

end Blackhole.Race
