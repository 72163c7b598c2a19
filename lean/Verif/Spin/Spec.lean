import Verif.Spin.Model

/-!
# What the locks are for

`Holds s t k`: thread `t` is in a section of lock `k`. `Thinned a b`: schedule `b` is schedule `a` without some of its `step`s.
-/

namespace Blackhole.Spin

variable {A B H : Type}

/-- The lock of a logger's pointer, or of a configuration's filter. -/
inductive Lock where
  | logger (l : Nat)
  | config (c : Nat)
  deriving DecidableEq, Repr

def Access.lock : Access A B → Option Lock
  | .none => Option.none
  | .load l => some (.logger l)
  | .store l _ => some (.logger l)
  | .read c => some (.config c)
  | .write c _ => some (.config c)

def Stage.inside : Stage A B → Bool
  | .outside => false
  | .ending _ => false
  | _ => true

def Holds (s : State A B H) (t : Nat) (k : Lock) : Prop :=
  (s.thr t).stage.inside = true ∧ (access (s.thr t).pc).lock = some k

/-- Thread `t` is outside of all calls. -/
def Idle (s : State A B H) (t : Nat) : Prop := s.thr t = ⟨.idle, .outside⟩

/-- The loggers that a call still has to look at. -/
def loggersOf {F : Type} : RootConc.Pc F → List Nat
  | .idle => []
  | .log l _ => [l]
  | .logLoaded _ _ _ => []
  | .filter l _ => [l]
  | .filterLoaded l _ _ => [l]
  | .filterSet l _ => [l]
  | .assign dst src => [dst, src]
  | .assignLoaded dst _ => [dst]
  | .move src => [src]

inductive Thinned {F : Type} : List (RootConc.Cmd F H) → List (RootConc.Cmd F H) → Prop where
  | nil : Thinned [] []
  | keep (c : RootConc.Cmd F H) {a b} (h : Thinned a b) : Thinned (c :: a) (c :: b)
  | drop (t : Nat) {a b} (h : Thinned a b) : Thinned (.step t :: a) b

end Blackhole.Spin
