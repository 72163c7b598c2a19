import Verif.Reenter.Model

/-! # Callbacks that use the library again: vocabulary of the statements -/

namespace Blackhole.Reenter

/-- Callbacks that run under a lock: the copy constructor and the destructor of a filter, the destructors of a configuration
that is replaced, the colour function of a console sink and attribute functions in the handler for development. -/
def Who.guarded : Who → Bool
  | .copyFilter | .dropFilter | .dropConfig | .colour | .devAttribute => true
  | _ => false

/-- In this execution such callbacks never call the library. Every other callback may, to any depth. -/
def Gentle : State → List Cmd → Prop
  | _, [] => True
  | s, c :: cs =>
    (∀ t a w rest, c = .call t a → s.stack t = .usr w :: rest → w.guarded = false) ∧ Gentle (s.step c) cs

/-- Thread `t` is in the library and waits for a lock that somebody holds. -/
def Waits (s : State) (t : Nat) (m : Mutex) : Prop :=
  s.holder m ≠ none ∧ ∃ n is rest, s.stack t = .lib n (.lock m :: is) :: rest

/-- A thread waits for a lock, now and whatever happens next. -/
def StuckForever (s : State) (t : Nat) : Prop := ∃ m, ∀ cs, Waits (s.run cs) t m ∧ (s.run cs).stack t = s.stack t

/-- Steps of calls that were made before, without failures, and callbacks that return. -/
def Cmd.finishing : Cmd → Bool
  | .tick _ false => true
  | .ret _ .yes => true
  | _ => false

/-- What happened in call `n`, in order. -/
def history (s : State) (n : Nat) : List What := (s.trace.filter (fun e => e.call = n)).map Ev.what

/-- One handler after the other from number `i` on, `k` of them, each with the end of its work. -/
inductive Blocks : Nat → Nat → List What → Prop
  | nil {i : Nat} : Blocks i 0 []
  | handled {i k : Nat} {ws : List What} : Blocks (i + 1) k ws → Blocks i (k + 1) (.handling i :: .handled i :: ws)
  | failed {i k : Nat} {ws : List What} : Blocks (i + 1) k ws → Blocks i (k + 1) (.handling i :: .failed i :: ws)

/-- The whole history of a call, where `handlers c` is the number of handlers of configuration `c`. -/
inductive Complete (handlers : Nat → Nat) : Api → List What → Prop
  /-- Copying the filter threw. -/
  | copy {l c f : Nat} : Complete handlers (.log l) [.called (.log l), .chose l c, .copied c f, .threw]
  | rejected {l c f : Nat} :
      Complete handlers (.log l) [.called (.log l), .chose l c, .copied c f, .verdict f .no, .returned]
  | filter {l c f : Nat} :
      Complete handlers (.log l) [.called (.log l), .chose l c, .copied c f, .verdict f .throws, .threw]
  /-- The supplier of the message threw. -/
  | message {l c f : Nat} :
      Complete handlers (.log l) [.called (.log l), .chose l c, .copied c f, .verdict f .yes, .threw]
  | accepted {l c f : Nat} {ws : List What} : Blocks 0 (handlers c) ws →
      Complete handlers (.log l) (.called (.log l) :: .chose l c :: .copied c f :: .verdict f .yes :: (ws ++ [.returned]))
  /-- The filter of the configuration that the logger had is replaced. -/
  | setFilter {l c f : Nat} :
      Complete handlers (.filter l f) [.called (.filter l f), .chose l c, .replaced c f, .stored l c, .returned]
  /-- The logger gets the configuration that the other one had. -/
  | assign {dst src c : Nat} : dst ≠ src →
      Complete handlers (.assign dst src) [.called (.assign dst src), .chose src c, .stored dst c, .returned]
  | self {l : Nat} : Complete handlers (.assign l l) [.called (.assign l l), .returned]

/-- The last configuration that was stored in the logger. -/
def lastStored (l : Nat) (before : List Ev) : Option Nat :=
  before.reverse.findSome? fun e =>
    match e.what with
    | .stored l' c => if l' = l then some c else none
    | _ => none

/-- The last filter that was set in the configuration. -/
def lastReplaced (c : Nat) (before : List Ev) : Option Nat :=
  before.reverse.findSome? fun e =>
    match e.what with
    | .replaced c' f => if c' = c then some f else none
    | _ => none

/-- The call has ended. -/
def What.isEnd : What → Bool
  | .returned | .threw => true
  | _ => false

end Blackhole.Reenter
