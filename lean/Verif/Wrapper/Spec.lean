import Verif.Wrapper.Model

/-!
# Specification of wrappers as objects (C85)

No addresses: a wrapper shows the attributes that some constructor call was given. These are somewhere, with a *holder*,
as long as there is one.
-/

namespace Blackhole.Wrapper

open Attr (Value)

/-- What a constructor call was given, whether it survives a move, and the wrapper that has it now, if any. -/
structure Kept where
  attributes : Attrs
  steady : Bool
  holder : Option Nat

/-- Wrappers by their numbers: destroyed, moved from (or copied or moved from such a one), or looking at what constructor call `t` was given. -/
inductive Cell where
  | destroyed
  | moved
  | looks (t : Nat)
  deriving DecidableEq, Repr

structure SState where
  cells : List Cell
  kept : List Kept

def SState.init : SState := ⟨[], []⟩

/-- Moving a string with these characters does not move them. -/
def steadyText (lib : Lib) (roomy : Bool) (s : Str) : Bool := s.isEmpty || roomy || lib.sso < s.length

def steadyValue (lib : Lib) (roomy : Bool) : Value → Bool
  | .string s => steadyText lib roomy s
  | .function _ => false
  | _ => true

/-- Moving a wrapper with these attributes does not move what its views look at: the elements are on the heap, or all
their strings are. -/
def steady (lib : Lib) (spilled : Bool) (gs : List Given) : Bool :=
  spilled || lib.room < gs.length
    || gs.all fun g => steadyText lib g.roomyKey g.key && steadyValue lib g.roomyValue g.value

def attributesOf (gs : List Given) : Attrs := gs.map fun g => (g.key, g.value)

/-- A view of the attribute looks at memory: there are characters, or a function, to be seen. -/
def HasText (a : Str × Value) : Prop := a.1 ≠ [] ∨ (∃ s, a.2 = .string s ∧ s ≠ []) ∨ ∃ id, a.2 = .function id

/-- The holder gives away what it holds. -/
def Kept.moved (s d : Nat) (k : Kept) : Kept :=
  if k.holder = some s then { k with holder := if k.steady then some d else none } else k

def Kept.destroyed (o : Nat) (k : Kept) : Kept := if k.holder = some o then { k with holder := none } else k

/-- What each operation does; `none`: not allowed (there is no such wrapper). -/
def SState.step (lib : Lib) (s : SState) : Op → Option SState
  | .construct spilled gs =>
    some ⟨s.cells ++ [.looks s.kept.length],
      s.kept ++ [⟨attributesOf gs, Wrapper.steady lib spilled gs, some s.cells.length⟩]⟩
  | .copy w =>
    match s.cells[w]? with
    | some .destroyed | none => none
    | some c => some ⟨s.cells ++ [c], s.kept⟩
  | .move w =>
    match s.cells[w]? with
    | some .destroyed | none => none
    | some c => some ⟨s.cells.set w .moved ++ [c], s.kept.map (Kept.moved w s.cells.length)⟩
  | .destroy w =>
    match s.cells[w]? with
    | some .destroyed | none => none
    | some _ => some ⟨s.cells.set w .destroyed, s.kept.map (Kept.destroyed w)⟩

def SState.run (lib : Lib) (s : SState) : List Op → Option SState
  | [] => some s
  | op :: ops => (s.step lib op).bind (·.run lib ops)

/-- What a log call through wrapper `w` shows: what it looks at while somebody holds it; after that it is undefined
behaviour, unless nothing of it is in memory. Nothing is said about wrappers that were moved from (the library leaves it
open what moved containers contain). -/
inductive SState.Log (s : SState) (w : Nat) : Except UB AttrList → Prop
  | shows {t : Nat} {k : Kept} : s.cells[w]? = some (.looks t) → s.kept[t]? = some k →
      (k.holder ≠ none ∨ ∀ a ∈ k.attributes, ¬ HasText a) → s.Log w (.ok (viewsOf k.attributes))
  | lost {t : Nat} {k : Kept} : s.cells[w]? = some (.looks t) → s.kept[t]? = some k → k.holder = none →
      (∃ a ∈ k.attributes, HasText a) → s.Log w (.error .dangling)

/-- How many wrappers the operations make. They have the numbers from 0 on. -/
def made : List Op → Nat
  | [] => 0
  | .destroy _ :: ops => made ops
  | _ :: ops => made ops + 1

/-- The operations neither move from wrapper `w` nor destroy it. (They may copy it.) -/
def Untouched (w : Nat) (ops : List Op) : Prop := ∀ op ∈ ops, op ≠ .move w ∧ op ≠ .destroy w

end Blackhole.Wrapper
