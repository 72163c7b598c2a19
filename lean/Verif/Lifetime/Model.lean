import Verif.Base

/-!
# Who keeps a configuration alive (src/root.cpp)

The filter and the handlers of a root logger live in an `inner_t` that is held by `std::shared_ptr`s: one in every logger
that has it, and one in every call that works with it. Here the reference counts are explicit, and every step that takes
or gives up a pointer or that looks into the object is a step of its own. Any number of threads run, and any thread may take
the next step.

Simplifications: filters and handlers are not looked at (they are in `Verif.Root` and `Verif.RootConc`); a log call that
ends early because a filter rejects or because a filter, a supplier or an allocation throws gives up its pointer like one that
ends normally. A logger may be destroyed only while no thread is inside one of its member functions, and is not used
afterwards, as for any C++ object.
-/

namespace Blackhole.Lifetime

/-- `inner_t` with the reference count that `std::make_shared` puts beside it (src/root.cpp:72-96). -/
structure Cfg where
  count : Nat
  /-- The number of handlers. -/
  handlers : Nat
  deriving DecidableEq, Repr

/-- Where a thread is (src/root.cpp:108-148, 176-201). `l` is the logger whose member function it runs, `c` the
configuration it holds a pointer to. -/
inductive Pc where
  | idle
  /-- In `consume`, before `sync->load` (src/root.cpp:177). -/
  | log (l : Nat)
  /-- Before `inner->apply` (178). -/
  | loaded (l c : Nat)
  /-- Before the call of handler `i` (193), or, behind the last handler, before the end of the function. -/
  | calling (l c i : Nat)
  /-- Before the local pointer is given up at the end of the function (202; 136 for the assignment). `k` is the other logger
  that the function works with, if there is one. -/
  | releasing (l : Nat) (k : Option Nat) (c : Nat)
  /-- In `filter`, before `sync->load` (141). -/
  | filter (l : Nat)
  /-- Before `inner->apply` (143). -/
  | filterLoaded (l c : Nat)
  /-- Before `sync->store` (147). -/
  | filterSet (l c : Nat)
  /-- In `operator=`, before `other.sync->load` (127). -/
  | assign (dst src : Nat)
  /-- Before `sync->store` (128). -/
  | assignLoaded (dst src c : Nat)
  /-- In the move constructor, before `other.sync->load` (110). -/
  | move (src : Nat)
  deriving DecidableEq, Repr

/-- The loggers that a thread is inside of (src/root.cpp:108-148, 176-201). -/
def Pc.inside : Pc → List Nat
  | .idle => []
  | .log l | .loaded l _ | .calling l _ _ | .filter l | .filterLoaded l _ | .filterSet l _ | .move l => [l]
  | .releasing l k _ => l :: k.toList
  | .assign dst src | .assignLoaded dst src _ => [dst, src]

/-- What happens to configurations, in order (src/root.cpp:72-96, 187-199). -/
inductive Ev where
  /-- Thread `t` looks into configuration `c`: its filter, or one of its handlers. -/
  | use (t c : Nat)
  /-- The configuration is destroyed, with its filter and handlers. -/
  | destroyed (c : Nat)
  deriving DecidableEq, Repr

/-- The configurations, loggers and threads of a program (src/root.cpp:41-101). -/
structure State where
  cfgs : List Cfg
  /-- The pointer of every logger made so far; none once the logger is destroyed. -/
  loggers : List (Option Nat)
  threads : List Pc
  trace : List Ev
  deriving DecidableEq, Repr

/-- A program with so many threads, before anything is made (src/root.cpp:98-106). -/
def State.init (threads : Nat) : State :=
  { cfgs := [], loggers := [], threads := List.replicate threads .idle, trace := [] }

/-- A `shared_ptr` is copied (src/root.cpp:53-60, `return source`). -/
def State.acquire (s : State) (c : Nat) : State :=
  match s.cfgs[c]? with
  | some cfg => { s with cfgs := s.cfgs.set c { cfg with count := cfg.count + 1 } }
  | none => s

/-- A `shared_ptr` is given up (src/root.cpp:62-69, 119, and the ends of 139-148 and 176-201): the last one destroys
the object. -/
def State.release (s : State) (c : Nat) : State :=
  match s.cfgs[c]? with
  | some cfg =>
    { s with
      cfgs := s.cfgs.set c { cfg with count := cfg.count - 1 }
      trace := if cfg.count = 1 then s.trace ++ [.destroyed c] else s.trace }
  | none => s

/-- Thread `t` is at another place now (src/root.cpp:108-201). -/
def State.goTo (s : State) (t : Nat) (p : Pc) : State := { s with threads := s.threads.set t p }

/-- The pointer of a logger that exists (the member `inner`, src/root.cpp:98-110). -/
def State.ptr (s : State) (l : Nat) : Option Nat := (s.loggers[l]?).join

/-- What a schedule may do next (src/root.cpp:98-201). -/
inductive Cmd where
  /-- Thread `t` constructs a logger with so many handlers (src/root.cpp:98-106). -/
  | construct (t handlers : Nat)
  | log (t l : Nat)
  | filter (t l : Nat)
  | assign (t dst src : Nat)
  | move (t src : Nat)
  /-- Thread `t` destroys a logger (src/root.cpp:119). -/
  | destroy (t l : Nat)
  /-- Thread `t` takes its next step. -/
  | step (t : Nat)
  /-- Thread `t`, inside `consume` before the first handler, ends the call early: rejected, or an exception. -/
  | leave (t : Nat)

/-- A call by an idle thread of member functions of these loggers, which must exist (src/root.cpp:108-176). -/
def State.call (s : State) (t : Nat) (p : Pc) : Option State :=
  if s.threads[t]? = some .idle ∧ p.inside.all (fun l => (s.ptr l).isSome) then some (s.goTo t p) else none

/-- The next step of a thread (src/root.cpp:108-201). -/
def State.advance (s : State) (t : Nat) : Option State :=
  match s.threads[t]? with
  -- src/root.cpp:177, 55-60
  | some (.log l) => (s.ptr l).map fun c => (s.acquire c).goTo t (.loaded l c)
  -- src/root.cpp:178-180
  | some (.loaded l c) => some { s.goTo t (.calling l c 0) with trace := s.trace ++ [.use t c] }
  -- src/root.cpp:191-199
  | some (.calling l c i) =>
    match s.cfgs[c]? with
    | some cfg =>
      if i < cfg.handlers then some { s.goTo t (.calling l c (i + 1)) with trace := s.trace ++ [.use t c] }
      else some (s.goTo t (.releasing l none c))
    | none => none
  -- src/root.cpp:202, 136
  | some (.releasing _ _ c) => some ((s.release c).goTo t .idle)
  -- src/root.cpp:141
  | some (.filter l) => (s.ptr l).map fun c => (s.acquire c).goTo t (.filterLoaded l c)
  -- src/root.cpp:143-145
  | some (.filterLoaded l c) => some { s.goTo t (.filterSet l c) with trace := s.trace ++ [.use t c] }
  -- src/root.cpp:147, 62-69: the local pointer is moved into the logger, which gives up the one it had
  | some (.filterSet l c) =>
    (s.ptr l).map fun old => ({ s with loggers := s.loggers.set l (some c) }.release old).goTo t .idle
  -- src/root.cpp:127
  | some (.assign dst src) => (s.ptr src).map fun c => (s.acquire c).goTo t (.assignLoaded dst src c)
  -- src/root.cpp:128: the local pointer is `const`, so `std::move` copies it
  | some (.assignLoaded dst src c) =>
    (s.ptr dst).map fun old =>
      ({ s.acquire c with loggers := s.loggers.set dst (some c) }.release old).goTo t (.releasing dst (some src) c)
  -- src/root.cpp:108-110
  | some (.move src) => (s.ptr src).map fun c => { (s.acquire c).goTo t .idle with loggers := s.loggers ++ [some c] }
  | some .idle => none
  | none => none

/-- One command of a schedule (src/root.cpp:98-201). -/
def State.act (s : State) : Cmd → Option State
  | .construct t h =>
    if s.threads[t]? = some .idle then
      some { s with cfgs := s.cfgs ++ [{ count := 1, handlers := h }], loggers := s.loggers ++ [some s.cfgs.length] }
    else none
  | .log t l => s.call t (.log l)
  | .filter t l => s.call t (.filter l)
  -- src/root.cpp:123-125
  | .assign t dst src => if dst = src then some s else s.call t (.assign dst src)
  | .move t src => s.call t (.move src)
  | .destroy t l =>
    if s.threads[t]? = some .idle ∧ s.threads.all (fun p => !p.inside.contains l) then
      (s.ptr l).map fun c => { s with loggers := s.loggers.set l none }.release c
    else none
  | .step t => s.advance t
  | .leave t =>
    match s.threads[t]? with
    | some (.calling l c 0) => some (s.goTo t (.releasing l none c))
    | _ => none

/-- Runs a schedule (src/root.cpp:98-201). -/
def State.run (s : State) : List Cmd → Option State
  | [] => some s
  | c :: cs => (s.act c).bind (·.run cs)

end Blackhole.Lifetime
