import Verif.ValueMem.Model

/-!
# What attribute values are to their user: contents

Each living value has contents of its own; there is no memory and nothing is shared.
-/

namespace Blackhole.ValueMem

/-- The contents of the living values. -/
abbrev Vals := Nat → Option Content

def Vals.set (v : Vals) (o : Nat) (c : Option Content) : Vals := fun x => if x = o then c else v x

/-- The contents of a value that was moved elsewhere: a text is gone, anything else stays. -/
def Content.moved : Content → Content
  | .flat f => .flat f
  | .text _ => .text []

/-- What a program may do: make values where there are none, and use those that are alive. -/
def Legal (v : Vals) : Op → Prop
  | .construct o _ _ => v o = none
  | .copy o s _ => v o = none ∧ v s ≠ none
  | .move o s => v o = none ∧ v s ≠ none
  | .assign d s _ => v d ≠ none ∧ v s ≠ none
  | .moveAssign d s => v d ≠ none ∧ v s ≠ none
  | .destroy o => v o ≠ none

/-- What an operation does to the contents. One that throws does nothing. -/
def Vals.after (v : Vals) : Op → Outcome → Vals
  | _, .badAlloc => v
  | .construct o c _, .done => v.set o (some c)
  | .copy o s _, .done => v.set o (v s)
  | .move o s, .done => (v.set s ((v s).map Content.moved)).set o (v s)
  | .assign d s _, .done => v.set d (v s)
  | .moveAssign d s, .done => if d = s then v else (v.set s ((v s).map Content.moved)).set d (v s)
  | .destroy o, .done => v.set o none

/-- The allocation that an operation may need fails. -/
def Op.fails : Op → Bool
  | .construct _ _ f | .copy _ _ f | .assign _ _ f => f
  | _ => false

/-- The contents that an operation makes a copy of. -/
def Op.copies (v : Vals) : Op → Option Content
  | .construct _ c _ => some c
  | .copy _ s _ | .assign _ s _ => v s
  | _ => none

/-- Whether an operation changes the contents of a value or ends its life. -/
def Op.writes (o : Nat) : Op → Prop
  | .construct x _ _ => x = o
  | .copy x _ _ => x = o
  | .move x s => x = o ∨ s = o
  | .assign d s _ => d = o ∧ d ≠ s
  | .moveAssign d s => (d = o ∨ s = o) ∧ d ≠ s
  | .destroy x => x = o

/-- The states that a program can bring about, with the contents that it expects. -/
inductive Reaches (lib : Lib) : Mem → Vals → Prop where
  | init : Reaches lib Mem.init (fun _ => none)
  | step {m v op out m'} : Reaches lib m v → Legal v op → m.step lib op = .ok (out, m') →
      Reaches lib m' (v.after op out)

/-- A run of legal operations from one state to another. -/
inductive Run (lib : Lib) : Mem → Vals → List Op → Mem → Vals → Prop where
  | nil {m v} : Run lib m v [] m v
  | cons {m v op out m' ops m'' v''} : Legal v op → m.step lib op = .ok (out, m') →
      Run lib m' (v.after op out) ops m'' v'' → Run lib m v (op :: ops) m'' v''

/-- A view of characters inside the object itself. -/
def View.inside (o : Nat) : View → Bool
  | .text (.inObj x) len => x = o && 0 < len
  | _ => false

end Blackhole.ValueMem
