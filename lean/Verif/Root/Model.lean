import Verif.Scope.Model

/-!
# Records, the root logger and wrappers (one log call)

Models `record_t` (src/record.cpp, src/record.hpp), `root_logger_t::log`/`consume` (src/root.cpp:150-201) and
`wrapper_t` (src/wrapper.cpp). User callables are arbitrary: each may depend on everything that happened before
(the trace), so stateful filters, suppliers and handlers are covered.
-/

namespace Blackhole.Root

open Scope (World)

/-- `record_t::inner_t` (src/record.hpp:8-20). References are modelled by what they refer to; `timestamp` counts
clock ticks since the epoch; `lwp` is never initialised nor read (src/record.cpp:18-34, 56-62) and is omitted. -/
structure Rec where
  message : Str
  formatted : Str
  severity : Int
  timestamp : Int
  tid : Nat
  attributes : Pack
  deriving DecidableEq, Repr

/-- `record_t::record_t(severity, message, attributes)` (src/record.cpp:18-34), on thread `tid`. -/
def Rec.mk' (severity : Int) (message : Str) (attributes : Pack) (tid : Nat) : Rec :=
  { message := message, formatted := message, severity := severity, timestamp := 0,
    tid := tid, attributes := attributes }

/-- `record_t::is_active` (src/record.cpp:76-78). -/
def Rec.isActive (r : Rec) : Bool := r.timestamp != 0

/-- `record_t::activate` (src/record.cpp:80-87). `none` is a view whose `data()` is null. `now` is the clock. -/
def Rec.activate (r : Rec) (formatted : Option Str) (now : Int) : Rec :=
  let r := match formatted with
    | some f => { r with formatted := f }
    | none => r
  { r with timestamp := now }

/-- How a handler call ends (src/root.cpp:192-198). -/
inductive HOut where
  | ok
  /-- An exception derived from `std::exception`, with its `what()`. -/
  | throwStd (what : Str)
  /-- Any other exception. -/
  | throwOther
  deriving DecidableEq, Repr

/-- What happens during a log call, in order (src/root.cpp:176-201). -/
inductive Ev where
  /-- The filter is asked about a record. -/
  | filter (r : Rec)
  /-- The lazy message supplier is called. -/
  | supply
  /-- The `i`-th handler is called, and how that call ends. -/
  | handle (i : Nat) (r : Rec) (o : HOut)
  /-- A line printed to standard output. -/
  | stdout (line : Str)
  deriving DecidableEq, Repr

/-- What happened so far in a log call (src/root.cpp:176-201). -/
abbrev Trace := List Ev

/-- `handler_t::handle` (src/root.cpp:193); it may depend on everything that happened in the call before. -/
abbrev Handler := Trace → Rec → HOut

/-- A filter, `std::function<bool(const record_t&)>` (src/root.cpp:75, 187); `none` means that it throws. -/
abbrev Filter := Trace → Rec → Option Bool

/-- `null_message_t` (src/root.cpp:152-158) or the supplier of a `lazy_message_t`
(include/blackhole/message.hpp). The outer `none` of a lazy supplier means that it throws; the inner one is a
null view. -/
inductive Supplier where
  | null
  | lazy (f : Trace → Option (Option Str))

/-- `root_logger_t::inner_t` (src/root.cpp:72-96) as seen by one call. -/
structure Inner where
  filter : Filter
  handlers : List Handler

/-- How a log call ends (src/root.cpp:176-201). -/
inductive Outcome where
  | returned
  | filterThrew
  | supplierThrew
  deriving DecidableEq, Repr

/-- Diagnostics of the two catch clauses (src/root.cpp:194-198). -/
def diagnostic : HOut → List Ev
  | .ok => []
  | .throwStd what => [.stdout (ch! "logging core error occurred: " ++ what)]
  | .throwOther => [.stdout (ch! "logging core error occurred: unknown")]

/-- The loop over the handlers (src/root.cpp:191-199), starting with handler number `i`. -/
def handleAll (r : Rec) : Nat → List Handler → Trace → Trace
  | _, [], tr => tr
  | i, h :: hs, tr => handleAll r (i + 1) hs (tr ++ [.handle i r (h tr r)] ++ diagnostic (h tr r))

/-- Result of a log call (src/root.cpp:162-201): the trace, how it ended, and the caller's pack afterwards (it is
passed by non-const reference and grows). -/
structure Result where
  trace : Trace
  outcome : Outcome
  pack : Pack

/-- `root_logger_t::consume` (src/root.cpp:175-201), called on thread `t` for logger `l` in memory `w`. The
snapshot `inner` is what lines 177-180 read. -/
def consume (w : World) (t l : Nat) (inner : Inner) (now : Int) (severity : Int) (pattern : Str)
    (pack : Pack) (supplier : Supplier) : Except UB Result := do
  let lists ← w.scoped t l
  let pack := pack ++ lists
  let record := Rec.mk' severity pattern pack t
  let tr := [Ev.filter record]
  match inner.filter [] record with
  | none => return { trace := tr, outcome := .filterThrew, pack := pack }
  | some false => return { trace := tr, outcome := .returned, pack := pack }
  | some true =>
    match supplier with
    | .null =>
      let record := record.activate none now
      return { trace := handleAll record 0 inner.handlers tr, outcome := .returned, pack := pack }
    | .lazy f =>
      match f tr with
      | none => return { trace := tr ++ [.supply], outcome := .supplierThrew, pack := pack }
      | some formatted =>
        let record := record.activate formatted now
        return { trace := handleAll record 0 inner.handlers (tr ++ [.supply]), outcome := .returned,
                 pack := pack }

/-- A logger as the user holds it: the root, or a `wrapper_t` around another logger
(include/blackhole/wrapper.hpp:10-13). -/
inductive Logger where
  | root
  | wrapper (attrs : Attrs) (inner : Logger)

/-- Everything about the environment of a call that the call does not change (src/root.cpp:176-186). -/
structure Env where
  world : World
  thread : Nat
  logger : Nat
  inner : Inner
  now : Int

/-- `log(severity, message, pack)`: src/root.cpp:167-169 and src/wrapper.cpp:23-26. -/
def Logger.logPack (e : Env) (severity : Int) (message : Str) : Logger → Pack → Except UB Result
  | .root, pack => consume e.world e.thread e.logger e.inner e.now severity message pack .null
  | .wrapper attrs inner, pack => inner.logPack e severity message (pack ++ [viewsOf attrs])

/-- `log(severity, lazy_message, pack)`: src/root.cpp:171-173 and src/wrapper.cpp:28-31. -/
def Logger.logLazy (e : Env) (severity : Int) (pattern : Str) (f : Trace → Option (Option Str)) :
    Logger → Pack → Except UB Result
  | .root, pack => consume e.world e.thread e.logger e.inner e.now severity pattern pack (.lazy f)
  | .wrapper attrs inner, pack => inner.logLazy e severity pattern f (pack ++ [viewsOf attrs])

/-- `log(severity, message)`: src/root.cpp:162-165 and src/wrapper.cpp:18-21. -/
def Logger.logMsg (e : Env) (severity : Int) (message : Str) : Logger → Except UB Result
  | .root => Logger.root.logPack e severity message []
  | .wrapper attrs inner => inner.logPack e severity message [viewsOf attrs]

end Blackhole.Root
