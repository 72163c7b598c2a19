import Verif.RegLife.Model

/-!
# What is expected of registries, functions and builders

A function is what was registered, as a value; a registry is a table of such values until it is destroyed. Nothing is said
about owners.
-/

namespace Blackhole.RegLife

open Config (Node Json)
open Registry (Kind Error)

abbrev Table := Kind → Str → Option Make

structure Ideal where
  regs : List (Option Table)
  funs : List (Option Make)
  builders : List (Option (Nat × Json))

def Ideal.init : Ideal := ⟨[], [], []⟩

/-- The registry is there, with this table. -/
def Ideal.Has (i : Ideal) (r : Nat) (t : Table) : Prop := i.regs[r]? = some (some t)

def Ideal.Alive (i : Ideal) (r : Nat) : Prop := ∃ t, i.Has r t

/-- The state after an operation. -/
def Ideal.next (i : Ideal) : Op → Ideal
  | .create => { i with regs := i.regs ++ [some fun _ _ => none] }
  | .destroy r => { i with regs := i.regs.set r none }
  | .add r kind type make =>
    { i with regs := i.regs.modify r fun t => t.map fun t k s => if (k, s) = (kind, type) then some make else t k s }
  | .find r kind type => { i with funs := i.funs ++ [(i.regs[r]?.getD none).bind fun t => t kind type] }
  | .copy f => { i with funs := i.funs ++ [i.funs[f]?.getD none] }
  | .drop f => { i with funs := i.funs.set f none }
  | .call .. => i
  | .builder r doc => { i with builders := i.builders ++ [some (r, doc)] }
  | .dropBuilder b => { i with builders := i.builders.set b none }
  | .build .. => i

def Ideal.after (ops : List Op) : Ideal := ops.foldl Ideal.next .init

/-- A call gives a component or throws. What it asks for is looked up at that time. -/
inductive Ends (i : Ideal) : Script → Except Error Comp → Prop
  | done (r) : Ends i (.done r) r
  | missing {r t kind type n k res} : i.Has r t → t kind type = none →
    Ends i (k (.error (.notRegistered kind type))) res → Ends i (.ask r kind type n k) res
  | calls {r t kind type n k make v res} : i.Has r t → t kind type = some make → Ends i (make n) v →
    Ends i (k v) res → Ends i (.ask r kind type n k) res

/-- A call comes to ask a registry that is not there. -/
inductive Dangles (i : Ideal) : Script → Prop
  | dead {r kind type n k} : ¬ i.Alive r → Dangles i (.ask r kind type n k)
  | inside {r t kind type n k make} : i.Has r t → t kind type = some make → Dangles i (make n) →
    Dangles i (.ask r kind type n k)
  | missing {r t kind type n k} : i.Has r t → t kind type = none → Dangles i (k (.error (.notRegistered kind type))) →
    Dangles i (.ask r kind type n k)
  | later {r t kind type n k make v} : i.Has r t → t kind type = some make → Ends i (make n) v → Dangles i (k v) →
    Dangles i (.ask r kind type n k)

/-- An operation uses only what is there. -/
inductive Fine (i : Ideal) : Op → Prop
  | create : Fine i .create
  | destroy {r} : i.Alive r → Fine i (.destroy r)
  | add {r kind type make} : i.Alive r → Fine i (.add r kind type make)
  | find {r kind type} : i.Alive r → Fine i (.find r kind type)
  | copy {f make} : i.funs[f]? = some (some make) → Fine i (.copy f)
  | drop {f make} : i.funs[f]? = some (some make) → Fine i (.drop f)
  | call {f n make} : i.funs[f]? = some (some make) → ¬ Dangles i (make n) → Fine i (.call f n)
  | builder {r doc} : i.Alive r → Fine i (.builder r doc)
  | dropBuilder {b x} : i.builders[b]? = some (some x) → Fine i (.dropBuilder b)
  | build {b r doc name} : i.builders[b]? = some (some (r, doc)) → ¬ Dangles i (buildScript r doc name) →
    Fine i (.build b name)

/-- The outcome of a call that was seen, unless it took too long. -/
def Shows (i : Ideal) (s : Script) : Res → Prop
  | .got (.ok v) => Ends i s (.ok v)
  | .got (.thrown e) => Ends i s (.error e)
  | .got .more => True
  | _ => False

/-- What is seen of an operation. -/
inductive Sees (i : Ideal) : Op → Res → Prop
  | create : Sees i .create .unit
  | destroy {r} : Sees i (.destroy r) .unit
  | add {r kind type make} : Sees i (.add r kind type make) .unit
  | found {r t kind type make} : i.Has r t → t kind type = some make → Sees i (.find r kind type) .unit
  | missing {r t kind type} : i.Has r t → t kind type = none →
    Sees i (.find r kind type) (.got (.thrown (.notRegistered kind type)))
  | copy {f} : Sees i (.copy f) .unit
  | drop {f} : Sees i (.drop f) .unit
  | call {f n make res} : i.funs[f]? = some (some make) → Shows i (make n) res → Sees i (.call f n) res
  | builder {r doc} : Sees i (.builder r doc) .unit
  | dropBuilder {b} : Sees i (.dropBuilder b) .unit
  | build {b r doc name res} : i.builders[b]? = some (some (r, doc)) → Shows i (buildScript r doc name) res →
    Sees i (.build b name) res

/-- What is seen of a program that starts in a state. -/
inductive AllSeen : Ideal → List Op → List Res → Prop
  | nil {i} : AllSeen i [] []
  | cons {i op ops r rs} : Sees i op r → AllSeen (i.next op) ops rs → AllSeen i (op :: ops) (r :: rs)

/-- Every operation of a program uses only what is there. -/
inductive AllFine : Ideal → List Op → Prop
  | nil {i} : AllFine i []
  | cons {i op ops} : Fine i op → AllFine (i.next op) ops → AllFine i (op :: ops)

/-- The last registration of a type with a registry. -/
def LastAdded (ops : List Op) (r : Nat) (kind : Kind) (type : Str) (make : Make) : Prop :=
  ∃ before after, ops = before ++ .add r kind type make :: after ∧ ∀ other, .add r kind type other ∉ after

/-- A script asks nothing but registries of the set. -/
inductive Asks (P : Nat → Prop) : Script → Prop
  | done (r) : Asks P (.done r)
  | ask {r kind type n k} : P r → (∀ v, Asks P (k v)) → Asks P (.ask r kind type n k)

/-- What is registered with a registry asks, when it is called, at most the registry with which it is registered, as
everything in `registry::configured()` does (src/essentials.cpp:21-40). -/
def SelfContained (ops : List Op) : Prop :=
  ∀ r kind type make, .add r kind type make ∈ ops → ∀ n, Asks (· = r) (make n)

/-- The owners of a factory that can be seen in a world: entries of registries and functions. -/
def holders (w : World) (f : Nat) : Nat :=
  (w.regs.map fun m => ((m.getD []).filter fun e => e.2 = f).length).sum + (w.funs.filter (· = some f)).length

end Blackhole.RegLife
