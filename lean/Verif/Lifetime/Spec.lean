import Verif.Lifetime.Model

/-! # What is expected of the lifetime of a configuration -/

namespace Blackhole.Lifetime

/-- The configuration that a call is working with. -/
def Pc.holds : Pc → Option Nat
  | .loaded _ c | .calling _ c _ | .releasing _ _ c | .filterLoaded _ c | .filterSet _ c | .assignLoaded _ _ c => some c
  | _ => none

/-- Somebody has the configuration: a logger, or a call that is working with it. -/
def InUse (s : State) (c : Nat) : Prop :=
  (∃ l : Nat, s.loggers[l]? = some (some c)) ∨ ∃ (t : Nat) (p : Pc), s.threads[t]? = some p ∧ p.holds = some c

/-- All calls have returned. -/
def Quiet (s : State) : Prop := ∀ (t : Nat) (p : Pc), s.threads[t]? = some p → p = .idle

end Blackhole.Lifetime
