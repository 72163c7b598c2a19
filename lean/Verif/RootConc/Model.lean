import Verif.Base

/-!
# Concurrent use of a root logger's configuration

Models the pointer `inner` of `root_logger_t`, guarded by the spinlock of `sync_t` (src/root.cpp:53-69), and the
filter inside `inner_t`, guarded by its own spinlock (src/root.cpp:88-95). Every lock section is one atomic step
of the machine; between two steps any other thread may run. `F` and `H` are arbitrary types of filters and of
handler lists.

Simplifications: loggers are never destroyed (a logger that is destroyed while another thread uses it is a user
error); the per-thread scope managers are modelled in `Verif.Scope`; a `shared_ptr` is an index into the list of
all `inner_t` objects ever made, as reference counts only decide when an object is freed.
-/

namespace Blackhole.RootConc

/-- `root_logger_t::inner_t` (src/root.cpp:72-96); `handlers` is `const`. -/
structure Cfg (F H : Type) where
  filter : F
  handlers : H

/-- Where a thread is inside a logger's member function (src/root.cpp:108-201). `begun` is the time of the call. -/
inductive Pc (F : Type) where
  | idle
  /-- `consume` called (src/root.cpp:176), before `sync->load` (177). -/
  | log (l begun : Nat)
  /-- After `sync->load` (177), before `inner->apply` (178). -/
  | logLoaded (l begun c : Nat)
  /-- `filter(fn)` called (src/root.cpp:140), before `sync->load` (141). -/
  | filter (l : Nat) (fn : F)
  /-- After 141, before `inner->apply` (143). -/
  | filterLoaded (l : Nat) (fn : F) (c : Nat)
  /-- After 143, before `sync->store` (147). -/
  | filterSet (l c : Nat)
  /-- `operator=` called (src/root.cpp:122), before `other.sync->load` (127). -/
  | assign (dst src : Nat)
  /-- After 127, before `sync->store` (128). -/
  | assignLoaded (dst c : Nat)
  /-- Move constructor called (src/root.cpp:108), before `other.sync->load` (110). -/
  | move (src : Nat)

/-- A completed log call (src/root.cpp:177-180): what it used, and when it was called and when it had read both. -/
structure Done (F H : Type) where
  logger : Nat
  begun : Nat
  ended : Nat
  filter : F
  handlers : H

/-- All configurations, loggers and threads (src/root.cpp:41-101). -/
structure State (F H : Type) where
  /-- Every `inner_t` object made so far. -/
  cfgs : List (Cfg F H)
  /-- The pointer `inner` of every logger. -/
  cells : List Nat
  pc : Nat → Pc F
  /-- Number of steps taken so far. -/
  time : Nat
  done : List (Done F H)

/-- What a schedule may do next (src/root.cpp:98-201): a thread calls a function, or takes its next step. -/
inductive Cmd (F H : Type) where
  /-- Constructors (src/root.cpp:98-106); no other thread can see the object yet. -/
  | construct (t : Nat) (f : F) (h : H)
  | log (t l : Nat)
  | filter (t l : Nat) (fn : F)
  | assign (t dst src : Nat)
  | move (t src : Nat)
  | step (t : Nat)

variable {F H : Type}

/-- Nothing exists yet (src/root.cpp:98-106). -/
def State.init : State F H := { cfgs := [], cells := [], pc := fun _ => .idle, time := 0, done := [] }

/-- Thread `t` is at another place now (src/root.cpp:108-201). -/
def State.setPc (s : State F H) (t : Nat) (p : Pc F) : State F H :=
  { s with pc := fun u => if u = t then p else s.pc u }

/-- A call by an idle thread (src/root.cpp:108-176). -/
def State.call (s : State F H) (t : Nat) (p : Pc F) : Option (State F H) :=
  match s.pc t with
  | .idle => some (s.setPc t p)
  | _ => none

/-- The next lock section of thread `t` (src/root.cpp:108-201). `none`: the thread has nothing to do, or uses a logger
that does not exist. -/
def State.advance (s : State F H) (t : Nat) : Option (State F H) :=
  match s.pc t with
  | .idle => none
  -- src/root.cpp:177
  | .log l b =>
    match s.cells[l]? with
    | some c => some (s.setPc t (.logLoaded l b c))
    | none => none
  -- src/root.cpp:178-180; the rest of `consume` uses only `inner->handlers` and the copied filter
  | .logLoaded l b c =>
    match s.cfgs[c]? with
    | some cfg =>
      some { s.setPc t .idle with
        done := s.done ++ [⟨l, b, s.time, cfg.filter, cfg.handlers⟩] }
    | none => none
  -- src/root.cpp:141
  | .filter l fn =>
    match s.cells[l]? with
    | some c => some (s.setPc t (.filterLoaded l fn c))
    | none => none
  -- src/root.cpp:143-145
  | .filterLoaded l fn c =>
    match s.cfgs[c]? with
    | some cfg => some { s.setPc t (.filterSet l c) with cfgs := s.cfgs.set c { cfg with filter := fn } }
    | none => none
  -- src/root.cpp:147
  | .filterSet l c => some { s.setPc t .idle with cells := s.cells.set l c }
  -- src/root.cpp:127
  | .assign dst src =>
    match s.cells[src]? with
    | some c => some (s.setPc t (.assignLoaded dst c))
    | none => none
  -- src/root.cpp:128
  | .assignLoaded dst c => some { s.setPc t .idle with cells := s.cells.set dst c }
  -- src/root.cpp:108-110
  | .move src =>
    match s.cells[src]? with
    | some c => some { s.setPc t .idle with cells := s.cells ++ [c] }
    | none => none

/-- One command of a schedule, without the clock (src/root.cpp:98-201). -/
def State.act (s : State F H) : Cmd F H → Option (State F H)
  | .construct t f h =>
    match s.pc t with
    | .idle => some { s with cfgs := s.cfgs ++ [⟨f, h⟩], cells := s.cells ++ [s.cfgs.length] }
    | _ => none
  | .log t l => s.call t (.log l s.time)
  | .filter t l fn => s.call t (.filter l fn)
  -- src/root.cpp:123-125: self assignment returns at once
  | .assign t dst src => if dst = src then some s else s.call t (.assign dst src)
  | .move t src => s.call t (.move src)
  | .step t => s.advance t

/-- One command of a schedule (src/root.cpp:98-201); every command takes one unit of time. -/
def State.next (s : State F H) (c : Cmd F H) : Option (State F H) :=
  (s.act c).map fun s' => { s' with time := s'.time + 1 }

/-- Runs a schedule (src/root.cpp:98-201). -/
def State.run (s : State F H) : List (Cmd F H) → Option (State F H)
  | [] => some s
  | c :: cs => (s.next c).bind (·.run cs)

end Blackhole.RootConc
