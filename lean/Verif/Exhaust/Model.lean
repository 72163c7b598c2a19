import Verif.Scope.Model

/-! # Loggers and scopes when memory runs out (src/root.cpp, src/scope/watcher.cpp, src/scope/holder.cpp)

The operations of `Verif.Scope.Model`, with the places at which they allocate memory. Each allocation is answered by the
next element of a list: whether there is memory. A failed allocation throws `std::bad_alloc`; an exception that would
leave a function declared `noexcept`, or a destructor, ends the process. -/

namespace Blackhole.Exhaust

open Scope

/-- The memory of `Verif.Scope.Model`, and for which threads the thread-specific pointer of a logger's manager has a
node in the map of the thread: `boost::thread_specific_ptr::reset` (src/root.cpp:34-36) allocates one the first time. Since
the cleanup function is not empty (src/root.cpp:28) a node stays, with a null pointer, when the last scope is closed. -/
structure Mem where
  world : World
  nodes : Nat → Nat → Bool

/-- Before the program begins (src/root.cpp:98-106). -/
def Mem.init : Mem := ⟨World.init, fun _ _ => false⟩

/-- How an operation ends (src/root.cpp:98-212, src/scope/watcher.cpp:13-39). -/
inductive Outcome where
  /-- It returns; for a log call with the attributes of the scopes. -/
  | done (out : Option (List AttrList))
  /-- It throws `std::bad_alloc` to the caller. -/
  | threw
  | terminated
  | ub (u : UB)
  deriving DecidableEq, Repr

/-- How many allocations there are besides the nodes, which depends on the containers: for the list of views of a scope
(src/scope/holder.cpp:11-18), for the copy of the filter and the pack of attributes in a log call (src/root.cpp:178-186, with
the pack at src/scope/watcher.cpp:26), and for a new logger (src/root.cpp:98-106). -/
structure Needs where
  scope : AttrList → Nat
  log : List AttrList → Nat
  logger : Nat

/-- The next `n` allocations succeed (src/root.cpp:98-186). -/
def enough (n : Nat) (answers : List Bool) : Bool := (answers.take n).all id

/-- The allocation of the node in `manager_t::reset`, if there is none (src/root.cpp:34-36); `none` if it throws. -/
def Mem.node (m : Mem) (l t : Nat) (answers : List Bool) : Option (Mem × List Bool) :=
  if m.nodes l t then some (m, answers)
  else if enough 1 answers then some ({ m with nodes := upd m.nodes l (upd (m.nodes l) t true) }, answers.drop 1)
  else none

/-- `watcher_t::~watcher_t` (src/scope/watcher.cpp:20-23): exceptions in a destructor end the process. -/
def Mem.close (m : Mem) (t a : Nat) (answers : List Bool) : Outcome × Mem :=
  match m.world.watchers a with
  | none => (.ub .dangling, m)
  | some x =>
    match m.node x.manager t answers with
    | none => (.terminated, m)
    | some (m, _) =>
      match m.world.closeScope t a with
      | .error u => (.ub u, m)
      | .ok w => (.done none, { m with world := w })

/-- `holder_t::holder_t` (src/scope/holder.cpp:21-25): first the base class links itself into the list of the thread
(src/scope/watcher.cpp:13-18), then the views are made. If that throws, the destructor of the base class runs. The name of
the object that never came to life is used again. -/
def Mem.openScope (needs : Needs) (m : Mem) (t l : Nat) (attrs : AttrList) (answers : List Bool) : Outcome × Mem :=
  match m.node l t answers with
  | none => (.threw, m)
  | some (m, answers) =>
    match m.world.openScope t l attrs with
    | .error u => (.ub u, m)
    | .ok (w, a) =>
      if enough (needs.scope attrs) answers then (.done none, { m with world := w })
      else
        match Mem.close { m with world := w } t a (answers.drop (needs.scope attrs)) with
        | (.done _, m) => (.threw, { m with world := { m.world with next := a } })
        | (o, m) => (o, m)

/-- One operation, with the answers to its allocations (src/root.cpp:98-186, src/scope/watcher.cpp:13-39). The two moves are
`noexcept` (src/root.cpp:108, 122); the constructor of a logger undoes what it did. -/
def Mem.step (needs : Needs) (m : Mem) : Op → List Bool → Outcome × Mem
  | .construct l, answers =>
    if enough needs.logger answers then
      (.done none, { world := m.world.construct l, nodes := upd m.nodes l (fun _ => false) })
    else (.threw, m)
  | .open t l attrs, answers => m.openScope needs t l attrs answers
  | .close t a, answers => m.close t a answers
  | .log t l, answers =>
    match m.world.scoped t l with
    | .error u => (.ub u, m)
    | .ok out => if enough (needs.log out) answers then (.done (some out), m) else (.threw, m)
  | .moveConstruct t dst src, answers =>
    if enough 1 answers then
      match Mem.node { m with nodes := upd m.nodes dst (fun _ => false) } dst t (answers.drop 1) with
      | none => (.terminated, m)
      | some (m, _) =>
        match m.world.moveConstruct t dst src with
        | .error u => (.ub u, m)
        | .ok w => (.done none, { m with world := w })
    else (.terminated, m)
  | .moveAssign t dst src, answers =>
    if dst = src then (.done none, m)
    else
      match m.node dst t answers with
      | none => (.terminated, m)
      | some (m, _) =>
        match m.world.moveAssign t dst src with
        | .error u => (.ub u, m)
        | .ok w => (.done none, { m with world := w })
  | .destroy l, _ => (.done none, { m with world := m.world.destroy l })

end Blackhole.Exhaust
