import Verif.Race.Model

/-! # Happens before -/

namespace Blackhole.Race

open Spin (State)
open RootConc (Cmd)

variable {A B H : Type}

/-- What happens before what: a thread's events in their order; giving a lock back before it is taken again; and the
construction of a logger before every call on it, for which the program has to care. -/
inductive HB (tr : List Event) : Nat → Nat → Prop where
  | thread {i j t e e'} (h : i < j) (hi : tr[i]? = some ⟨t, e⟩) (hj : tr[j]? = some ⟨t, e'⟩) : HB tr i j
  | lock {i j t u k} (h : i < j) (hi : tr[i]? = some ⟨t, .release k⟩) (hj : tr[j]? = some ⟨u, .acquire k⟩) : HB tr i j
  | made {i j t u l} (h : i < j) (hi : tr[i]? = some ⟨t, .make l⟩) (hj : tr[j]? = some ⟨u, .meet l⟩) : HB tr i j
  | trans {i j k} (h : HB tr i j) (h' : HB tr j k) : HB tr i k

/-- A data race: two accesses to a word, not both of them reading, neither of which happens before the other. -/
def Races (tr : List Event) : Prop :=
  ∃ i j t u w a b, tr[i]? = some ⟨t, .touch w a⟩ ∧ tr[j]? = some ⟨u, .touch w b⟩ ∧ i ≠ j ∧ (a = true ∨ b = true)
    ∧ ¬HB tr i j ∧ ¬HB tr j i

/-- The loggers that a call names. -/
def named {F : Type} : Cmd F H → List Nat
  | .construct .. | .step _ => []
  | .log _ l | .filter _ l _ | .move _ l => [l]
  | .assign _ dst src => [dst, src]

/-- No member function is called before the constructor has returned. -/
def Constructed (s : State A B H) : List (Cmd (A × B) H) → Prop
  | [] => True
  | c :: cs => (∀ l ∈ named c, l < s.cells.length) ∧ ∀ s', s.act c = some s' → Constructed s' cs

end Blackhole.Race
