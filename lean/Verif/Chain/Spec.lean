import Verif.Chain.Model
import Verif.Async.Spec
import Verif.Pipeline.Spec

/-! # What can be seen of a chain of asynchronous sinks -/

namespace Blackhole.Chain

open Pipeline (Reply)
open Async (State Policy)

/-- The sink at the end of a configured chain. -/
def bottom : Essentials.Sink → Essentials.Sink
  | .asynchronous _ s => bottom s
  | s => s

/-- All asynchronous sinks of a chain wait when they are full. -/
def AllWait : Essentials.Sink → Prop
  | .asynchronous q s => q.policy = .wait ∧ AllWait s
  | _ => True

/-- The sink at the end, at work. -/
def Net.last : Net → Pipeline.Sink
  | .sink s _ => s
  | .stage _ _ _ _ below => below.last

/-- What the sink at the end was given, in order. -/
def Net.given : Net → List (Reply × Event)
  | .sink _ given => given
  | .stage _ _ _ _ below => below.given

/-- The sink at the end threw. -/
def Net.failed : Net → Prop
  | .sink _ _ => False
  | .stage _ _ q _ below => q.consumer = .terminated ∨ below.failed

/-- What happened at the outermost sink. -/
def Net.trace : Net → List (Async.Ev Event)
  | .sink _ _ => []
  | .stage _ _ q _ _ => q.trace

/-- Every destructor has returned. -/
def Net.destroyed : Net → Prop
  | .sink _ _ => True
  | .stage _ _ q _ below => q.joined = true ∧ below.destroyed

/-- The asynchronous sink at a depth. -/
def Net.stageAt : Nat → Net → Option (State Event)
  | _, .sink _ _ => none
  | 0, .stage _ _ q _ _ => some q
  | d + 1, .stage _ _ _ _ below => below.stageAt d

end Blackhole.Chain
