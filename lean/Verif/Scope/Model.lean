import Verif.Attr.Model

/-!
# Scoped attributes and logger moves

Models the thread-local linked list of `scope::watcher_t` objects, the per-logger `thread_manager_t`, and
the two move operations of `root_logger_t`, on an explicit memory in which watchers and loggers can be
dead. Touching a dead object, or failing the `BOOST_ASSERT` of the destructor, is a `UB` outcome.

Identities: every `watcher_t` object is named by its creation serial number and every `root_logger_t`
object by an arbitrary natural number. A logger owns one `sync_t` from construction to destruction
(src/root.cpp:98-117; no operation ever replaces `sync`), so the manager of a logger is named by the logger.
-/

namespace Blackhole.Scope

@[inherit_doc Nat] scoped notation "Thread" => Nat
@[inherit_doc Nat] scoped notation "LoggerId" => Nat
@[inherit_doc Nat] scoped notation "Addr" => Nat

/-- `scope::watcher_t` / `scope::holder_t` (include/blackhole/scope/watcher.hpp:31-33,
include/blackhole/scope/holder.hpp:12-14): the manager it is bound to, the previous watcher and the
attribute list it holds. -/
structure Watcher where
  manager : LoggerId
  prev : Option Addr
  attrs : AttrList
  deriving DecidableEq, Repr

/-- Memory. `watchers a = none` when the object `a` does not exist (not created yet, or destroyed);
`managers l = none` when logger `l` does not exist. A live manager maps each thread to its current
watcher pointer, `thread_manager_t` (src/root.cpp:24-37, `boost::thread_specific_ptr` with a no-op cleanup). -/
structure World where
  watchers : Addr → Option Watcher
  managers : LoggerId → Option (Thread → Option Addr)
  /-- Serial number of the next watcher object. -/
  next : Nat

/-- Function update (as assignments in src/scope/watcher.cpp:13-39 change memory). -/
def upd {α β : Type} [DecidableEq α] (f : α → β) (a : α) (b : β) : α → β :=
  fun x => if x = a then b else f x

/-- The initial memory (src/root.cpp:98-106): nothing exists. -/
def World.init : World := { watchers := fun _ => none, managers := fun _ => none, next := 0 }

/-- `manager_t::get` of a logger, executed by thread `t` (src/root.cpp:30-32). -/
def World.get (w : World) (l : LoggerId) (t : Thread) : Except UB (Option Addr) :=
  match w.managers l with
  | none => .error .dangling
  | some m => .ok (m t)

/-- `manager_t::reset` (src/root.cpp:34-36). -/
def World.reset (w : World) (l : LoggerId) (t : Thread) (v : Option Addr) : Except UB World :=
  match w.managers l with
  | none => .error .dangling
  | some m => .ok { w with managers := upd w.managers l (some (upd m t v)) }

/-- `root_logger_t::root_logger_t(...)` (src/root.cpp:98-106): a new `sync_t` with an empty
thread-specific pointer. -/
def World.construct (w : World) (l : LoggerId) : World :=
  { w with managers := upd w.managers l (some fun _ => none) }

/-- `holder_t::holder_t` / `watcher_t::watcher_t` (src/scope/holder.cpp:21-25, src/scope/watcher.cpp:13-18):
remember the current watcher of the logger's manager as `prev`, then become the current one. -/
def World.openScope (w : World) (t : Thread) (l : LoggerId) (attrs : AttrList) :
    Except UB (World × Addr) := do
  let prev ← w.get l t
  let a := w.next
  let w := { w with
    watchers := upd w.watchers a (some { manager := l, prev := prev, attrs := attrs })
    next := a + 1 }
  let w ← w.reset l t (some a)
  return (w, a)

/-- `watcher_t::~watcher_t` (src/scope/watcher.cpp:20-23), run by thread `t`. -/
def World.closeScope (w : World) (t : Thread) (a : Addr) : Except UB World := do
  match w.watchers a with
  | none => .error .dangling
  | some x =>
    let cur ← w.get x.manager t
    if cur = some a then
      let w ← w.reset x.manager t x.prev
      return { w with watchers := upd w.watchers a none }
    else
      .error .assertion

/-- `watcher_t::collect` (src/scope/watcher.cpp:25-31): own attributes first, then the previous
watchers'. The recursion follows `prev` pointers; `fuel` bounds it (the theorems show that `next` is always
enough, so running out of fuel, reported as `assertion`, never happens). -/
def World.collect (w : World) : Nat → Addr → Except UB (List AttrList)
  | 0, _ => .error .assertion
  | fuel + 1, a =>
    match w.watchers a with
    | none => .error .dangling
    | some x =>
      match x.prev with
      | none => .ok [x.attrs]
      | some p => do
        let rest ← w.collect fuel p
        return x.attrs :: rest

/-- The scoped part of `root_logger_t::consume` (src/root.cpp:182-184): the lists appended to the pack. -/
def World.scoped (w : World) (t : Thread) (l : LoggerId) : Except UB (List AttrList) := do
  match ← w.get l t with
  | none => return []
  | some a => w.collect w.next a

/-- `watcher_t::rebind` (src/scope/watcher.cpp:33-39). -/
def World.rebind (w : World) (l : LoggerId) : Nat → Addr → Except UB World
  | 0, _ => .error .assertion
  | fuel + 1, a =>
    match w.watchers a with
    | none => .error .dangling
    | some x =>
      let w := { w with watchers := upd w.watchers a (some { x with manager := l }) }
      match x.prev with
      | none => .ok w
      | some p => w.rebind l fuel p

/-- The common tail of both moves (src/root.cpp:112-116 and 130-134): copy the moving thread's current
watcher pointer from `src`'s manager into `dst`'s and rebind the chain. -/
def World.takeScopes (w : World) (t : Thread) (dst src : LoggerId) : Except UB World := do
  let cur ← w.get src t
  let w ← w.reset dst t cur
  match cur with
  | none => return w
  | some a => w.rebind dst w.next a

/-- `root_logger_t::root_logger_t(root_logger_t&&)` (src/root.cpp:108-117). The source's manager keeps its
pointer: nothing resets it. -/
def World.moveConstruct (w : World) (t : Thread) (dst src : LoggerId) : Except UB World :=
  (w.construct dst).takeScopes t dst src

/-- `root_logger_t::operator=(root_logger_t&&)` (src/root.cpp:121-137), scope part. -/
def World.moveAssign (w : World) (t : Thread) (dst src : LoggerId) : Except UB World :=
  if dst = src then .ok w else w.takeScopes t dst src

/-- `root_logger_t::~root_logger_t` (src/root.cpp:119): the manager dies with the logger. -/
def World.destroy (w : World) (l : LoggerId) : World :=
  { w with managers := upd w.managers l none }

/-! ## Histories -/

/-- The operations a program performs on loggers and scopes. `close` names the watcher object, as the
C++ program does by ending its lifetime. Opening and logging through a `wrapper_t` uses the manager of
the wrapped logger (src/wrapper.cpp:33-35), so wrappers need no operations of their own. -/
inductive Op where
  | construct (l : LoggerId)
  | open (t : Thread) (l : LoggerId) (attrs : AttrList)
  | close (t : Thread) (a : Addr)
  | log (t : Thread) (l : LoggerId)
  | moveConstruct (t : Thread) (dst src : LoggerId)
  | moveAssign (t : Thread) (dst src : LoggerId)
  | destroy (l : LoggerId)
  deriving Repr

/-- One operation (src/scope/watcher.cpp:13-39, src/root.cpp:98-137, 182-184); the output is the scoped part of the
attribute pack for `log`, nothing otherwise. -/
def World.step (w : World) : Op → Except UB (World × Option (List AttrList))
  | .construct l => .ok (w.construct l, none)
  | .open t l attrs => do let (w, _) ← w.openScope t l attrs; return (w, none)
  | .close t a => do let w ← w.closeScope t a; return (w, none)
  | .log t l => do let out ← w.scoped t l; return (w, some out)
  | .moveConstruct t dst src => do let w ← w.moveConstruct t dst src; return (w, none)
  | .moveAssign t dst src => do let w ← w.moveAssign t dst src; return (w, none)
  | .destroy l => .ok (w.destroy l, none)

/-- A whole history (src/scope/watcher.cpp:13-39, src/root.cpp:98-137, 182-184): the outputs of its `log` operations,
in order. -/
def World.run (w : World) : List Op → Except UB (World × List (List AttrList))
  | [] => .ok (w, [])
  | op :: ops => do
    let (w, out) ← w.step op
    let (w, outs) ← w.run ops
    return (w, out.toList ++ outs)

end Blackhole.Scope
