import Verif.RootConc.Model

/-!
# The spinlocks of the root logger, memory access by memory access

`Verif.RootConc` makes every lock section of `root_logger_t` one step. Here a thread takes the lock, reads or writes one
word at a time, runs the destructors that the section runs, and gives the lock back; any other thread may run between two
of these steps.

A `std::shared_ptr` is two words, the object and its control block; a `std::function` is two words of any types `A` and `B`.
A configuration and its control block have the same number, so a pointer is whole if its words are equal.

Simplifications: memory is sequentially consistent; a spinlock is taken or not taken in one step (`pthread_spin_lock` is not in
/repo); loggers are not destroyed (`Verif.Lifetime` has that, with atomic sections).
-/

namespace Blackhole.Spin

open RootConc (Pc)

/-- A logger: the pointer `inner` (include/blackhole/root.hpp:31) and the spinlock of `sync_t` (src/root.cpp:46-47) with
the thread that has it. -/
structure Cell where
  obj : Nat
  ctl : Nat
  lock : Option Nat
  deriving DecidableEq, Repr

/-- `root_logger_t::inner_t` (src/root.cpp:72-96) and its count of pointers. -/
structure Cfg (A B H : Type) where
  fa : A
  fb : B
  handlers : H
  lock : Option Nat
  count : Nat
  deriving DecidableEq, Repr

/-- How far a thread is in the lock section it is at (src/root.cpp:53-69, 88-92). -/
inductive Stage (A B : Type) where
  | outside
  /-- The lock is taken (src/root.cpp:58, 66, 90). -/
  | locked
  /-- The first word of the pointer is read, or exchanged. -/
  | half (obj : Nat)
  /-- Both words are. -/
  | full (obj ctl : Nat)
  /-- The pointer read is counted, or the one replaced is given up. `last`: it was the last one, and the destructors of the
  configuration are running. -/
  | ready (obj ctl : Nat) (last : Bool)
  /-- The first word of the filter is read, or exchanged. -/
  | halfF (a : A)
  /-- Both words are. The filter's copy constructor is running, or the destructor of the one that was replaced. -/
  | fullF (a : A) (b : B)
  /-- Behind the last section of the call, with a local pointer to a configuration (src/root.cpp:127-136, 177-202). -/
  | ending (c : Nat)
  deriving DecidableEq, Repr

/-- Where a thread is (src/root.cpp:108-201). -/
structure Thread (A B : Type) where
  pc : Pc (A × B)
  stage : Stage A B

/-- What a log call worked with (src/root.cpp:176-201). -/
structure Done (A B H : Type) where
  logger : Nat
  filter : A × B
  handlers : H
  deriving DecidableEq, Repr

/-- All configurations, loggers and threads (src/root.cpp:41-101). -/
structure State (A B H : Type) where
  cfgs : List (Cfg A B H)
  cells : List Cell
  thr : Nat → Thread A B
  done : List (Done A B H)

/-- The lock section that a thread is at (src/root.cpp:53-69, 88-92). -/
inductive Access (A B : Type) where
  | none
  /-- `sync_t::load` (src/root.cpp:55-60). -/
  | load (l : Nat)
  /-- `sync_t::store` (src/root.cpp:62-69). -/
  | store (l c : Nat)
  /-- `inner_t::apply` in `consume` (src/root.cpp:88-92, 178-180). -/
  | read (c : Nat)
  /-- `inner_t::apply` in `filter` (src/root.cpp:88-92, 143-145). -/
  | write (c : Nat) (f : A × B)

/-- Which section comes next (src/root.cpp:110, 127-128, 141-147, 177-180). -/
def access {A B : Type} : Pc (A × B) → Access A B
  | .idle => .none
  | .log l _ => .load l
  | .logLoaded _ _ c => .read c
  | .filter l _ => .load l
  | .filterLoaded _ fn c => .write c fn
  | .filterSet l c => .store l c
  | .assign _ src => .load src
  | .assignLoaded dst c => .store dst c
  | .move src => .load src

variable {A B H : Type}

/-- Nothing exists yet (src/root.cpp:98-106). -/
def State.init : State A B H := { cfgs := [], cells := [], thr := fun _ => ⟨.idle, .outside⟩, done := [] }

/-- Thread `t` is at another place now (src/root.cpp:108-201). -/
def State.goTo (s : State A B H) (t : Nat) (p : Thread A B) : State A B H :=
  { s with thr := fun u => if u = t then p else s.thr u }

/-- The pointer of a logger and its lock change (src/root.cpp:53-69). -/
def State.setCell (s : State A B H) (l : Nat) (x : Cell) : State A B H := { s with cells := s.cells.set l x }

/-- A configuration changes (src/root.cpp:72-96). -/
def State.setCfg (s : State A B H) (c : Nat) (x : Cfg A B H) : State A B H := { s with cfgs := s.cfgs.set c x }

/-- `count` of configuration `c` changes (`std::shared_ptr`, src/root.cpp:53-69). -/
def State.recount (s : State A B H) (c : Nat) (f : Nat → Nat) : State A B H :=
  match s.cfgs[c]? with
  | some x => s.setCfg c { x with count := f x.count }
  | none => s

/-- The number of owners of a configuration (`std::shared_ptr`, src/root.cpp:53-69). -/
def State.countOf (s : State A B H) (c : Nat) : Nat := ((s.cfgs[c]?).map (·.count)).getD 0

/-- How often the pointer just read is copied: `operator=` passes a copy of its local pointer to `store`, as that is `const`
(src/root.cpp:127-128). Simplified: that copy is made together with the other. -/
def copies : Pc (A × B) → Nat
  | .assign _ _ => 2
  | _ => 1

/-- `sync_t::load` or `sync_t::store` of logger `l` by thread `t` (src/root.cpp:55-69), one step; `new` is what `store`
writes. `std::shared_ptr` is assigned by exchanging it with a temporary object, which is destroyed before the lock is given
back. -/
def State.pointerStep (s : State A B H) (t l : Nat) (new : Option Nat) : Option (State A B H) :=
  match s.cells[l]? with
  | none => none
  | some x =>
    match (s.thr t).stage with
    | .outside =>
      match x.lock with
      | some _ => some s
      | none => some ((s.setCell l { x with lock := some t }).goTo t ⟨(s.thr t).pc, .locked⟩)
    | .locked => some ((s.setCell l { x with obj := new.getD x.obj }).goTo t ⟨(s.thr t).pc, .half x.obj⟩)
    | .half o => some ((s.setCell l { x with ctl := new.getD x.ctl }).goTo t ⟨(s.thr t).pc, .full o x.ctl⟩)
    | .full o k =>
      match new with
      | none => some ((s.recount k (· + copies (s.thr t).pc)).goTo t ⟨(s.thr t).pc, .ready o k false⟩)
      | some _ => some ((s.recount k (· - 1)).goTo t ⟨(s.thr t).pc, .ready o k (s.countOf k == 1)⟩)
    | .ready o k _ =>
      let s' := s.setCell l { x with lock := none }
      match (s.thr t).pc with
      | .log l b => some (s'.goTo t ⟨.logLoaded l b o, .outside⟩)
      | .filter l fn => some (s'.goTo t ⟨.filterLoaded l fn o, .outside⟩)
      | .assign dst _ => some (s'.goTo t ⟨.assignLoaded dst o, .outside⟩)
      | .move _ => some { s'.goTo t ⟨.idle, .outside⟩ with cells := s'.cells ++ [⟨o, k, none⟩] }
      | .filterSet _ _ => some (s'.goTo t ⟨.idle, .outside⟩)
      | .assignLoaded _ c => some (s'.goTo t ⟨.idle, .ending c⟩)
      | _ => none
    | _ => none

/-- `inner_t::apply` of configuration `c` by thread `t` (src/root.cpp:88-92), one step; `new` is the filter that
`root_logger_t::filter` puts there. -/
def State.filterStep (s : State A B H) (t c : Nat) (new : Option (A × B)) : Option (State A B H) :=
  match s.cfgs[c]? with
  | none => none
  | some x =>
    match (s.thr t).stage with
    | .outside =>
      match x.lock with
      | some _ => some s
      | none => some ((s.setCfg c { x with lock := some t }).goTo t ⟨(s.thr t).pc, .locked⟩)
    | .locked => some ((s.setCfg c { x with fa := (new.map Prod.fst).getD x.fa }).goTo t ⟨(s.thr t).pc, .halfF x.fa⟩)
    | .halfF a => some ((s.setCfg c { x with fb := (new.map Prod.snd).getD x.fb }).goTo t ⟨(s.thr t).pc, .fullF a x.fb⟩)
    | .fullF a b =>
      let s' := s.setCfg c { x with lock := none }
      match (s.thr t).pc with
      | .logLoaded l _ _ => some { s'.goTo t ⟨.idle, .ending c⟩ with done := s.done ++ [⟨l, (a, b), x.handlers⟩] }
      | .filterLoaded l _ _ => some (s'.goTo t ⟨.filterSet l c, .outside⟩)
      | _ => none
    | _ => none

/-- The next step of thread `t` (src/root.cpp:53-69, 88-92, 108-201). A thread that finds a lock taken stays where it
is. -/
def State.advance (s : State A B H) (t : Nat) : Option (State A B H) :=
  match (s.thr t).stage with
  -- src/root.cpp:136, 202
  | .ending c => some ((s.recount c (· - 1)).goTo t ⟨.idle, .outside⟩)
  | _ =>
    match access (s.thr t).pc with
    | .none => none
    | .load l => s.pointerStep t l none
    | .store l c => s.pointerStep t l (some c)
    | .read c => s.filterStep t c none
    | .write c f => s.filterStep t c (some f)

/-- A call by a thread that is outside of all calls (src/root.cpp:108-176). -/
def State.call (s : State A B H) (t : Nat) (p : Pc (A × B)) : Option (State A B H) :=
  match s.thr t with
  | ⟨.idle, .outside⟩ => some (s.goTo t ⟨p, .outside⟩)
  | _ => none

/-- The commands are those of `RootConc`, where `step` is now a single access (src/root.cpp:98-201). The time of a
call is not kept. -/
def State.act (s : State A B H) : RootConc.Cmd (A × B) H → Option (State A B H)
  | .construct t f h =>
    match s.thr t with
    | ⟨.idle, .outside⟩ =>
      some { s with
        cfgs := s.cfgs ++ [⟨f.1, f.2, h, none, 1⟩]
        cells := s.cells ++ [⟨s.cfgs.length, s.cfgs.length, none⟩] }
    | _ => none
  | .log t l => s.call t (.log l 0)
  | .filter t l fn => s.call t (.filter l fn)
  | .assign t dst src => if dst = src then some s else s.call t (.assign dst src)
  | .move t src => s.call t (.move src)
  | .step t => s.advance t

/-- Runs a schedule (src/root.cpp:98-201). -/
def State.run (s : State A B H) : List (RootConc.Cmd (A × B) H) → Option (State A B H)
  | [] => some s
  | c :: cs => (s.act c).bind (·.run cs)

end Blackhole.Spin
