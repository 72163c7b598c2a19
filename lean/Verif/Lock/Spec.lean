import Verif.Lock.Model

/-! # What it means that emits happen one after the other -/

namespace Blackhole.Lock

variable {K L W R : Type} [DecidableEq K] [DecidableEq L]

/-- The actions of an emit, one after the other. -/
def Op.apply (op : Op K L W R) (r : R) : R := op.steps.foldl (fun r f => f r) r

/-- An object after the emits on it, one after the other. -/
def after (i : K) (done : List (Nat × Op K L W R × Bool)) (r : R) : R :=
  done.foldl (fun r d => if d.2.1.res = i then d.2.1.apply r else r) r

/-- What a thread did. -/
def doneBy (t : Nat) (done : List (Nat × Op K L W R × Bool)) : List (Op K L W R × Bool) :=
  (done.filter (·.1 = t)).map (·.2)

/-- What comes from one thread. -/
def byThread {α : Type} (t : Nat) (l : List (Nat × α)) : List α := (l.filter (·.1 = t)).map (·.2)

/-- `Ran program done rest`: a thread that does the emits of `done`, with these results, has `rest` left of its
program. An emit that fails ends its group; what was to be done then takes its place. -/
inductive Ran : List (List (Task K L W R)) → List (Op K L W R × Bool) → List (List (Task K L W R)) → Prop
  | refl {p : List (List (Task K L W R))} : Ran p [] p
  | next {p : List (List (Task K L W R))} {d : List (Op K L W R × Bool)} {groups : List (List (Task K L W R))} :
      Ran p d ([] :: groups) → Ran p d groups
  | ok {p : List (List (Task K L W R))} {d : List (Op K L W R × Bool)} {op : Task K L W R} {ops : List (Task K L W R)}
      {groups : List (List (Task K L W R))} :
      Ran p d ((op :: ops) :: groups) → Ran p (d ++ [(op.toOp, false)]) (ops :: groups)
  | failed {p : List (List (Task K L W R))} {d : List (Op K L W R × Bool)} {op : Task K L W R}
      {ops : List (Task K L W R)} {groups : List (List (Task K L W R))} :
      Ran p d ((op :: ops) :: groups) → Ran p (d ++ [(op.toOp, true)]) (op.rescue.map Op.alone :: groups)

/-- `Complete program done`: a thread that has done its whole program did the emits of `done`, with these results. -/
inductive Complete : List (List (Task K L W R)) → List (Op K L W R × Bool) → Prop
  | nil : Complete [] []
  | next {groups : List (List (Task K L W R))} {d : List (Op K L W R × Bool)} :
      Complete groups d → Complete ([] :: groups) d
  | ok {op : Task K L W R} {ops : List (Task K L W R)} {groups : List (List (Task K L W R))}
      {d : List (Op K L W R × Bool)} :
      Complete (ops :: groups) d → Complete ((op :: ops) :: groups) ((op.toOp, false) :: d)
  | failed {op : Task K L W R} {ops : List (Task K L W R)} {groups : List (List (Task K L W R))}
      {d : List (Op K L W R × Bool)} :
      Complete (op.rescue.map Op.alone :: groups) d → Complete ((op :: ops) :: groups) ((op.toOp, true) :: d)

/-- An emit is somewhere in the programs. -/
def Occurs (programs : Nat → List (List (Task K L W R))) (op : Op K L W R) : Prop :=
  ∃ t, ∃ g ∈ programs t, ∃ x ∈ g, op = x.toOp ∨ op ∈ x.rescue

/-- The object has a mutex: all emits on it hold the same one. -/
def Guarded (programs : Nat → List (List (Task K L W R))) (i : K) : Prop :=
  ∃ l, ∀ op, Occurs programs op → op.res = i → op.lock = some l

/-- The results of the emits on an object are those of doing them one after the other. -/
def Truthful (i : K) (r : R) (done : List (Nat × Op K L W R × Bool)) : Prop :=
  ∀ before d later, done = before ++ d :: later → d.2.1.res = i → d.2.2 = d.2.1.failed (d.2.1.apply (after i before r))

/-- Everything is done. -/
def State.finished (s : State K L W R) : Prop := ∀ t, (s.threads t).todo = []

/-- The most steps that emits need: one for each action, two for the mutex. -/
def costOf (ops : List (Op K L W R)) : Nat := (ops.map fun op => op.steps.length + 2).sum

/-- The most steps that a program needs; one for the end of each group. -/
def workOf (program : List (List (Task K L W R))) : Nat :=
  (program.map fun g => (g.map fun op => op.steps.length + 2 + costOf op.rescue).sum + 1).sum

end Blackhole.Lock
