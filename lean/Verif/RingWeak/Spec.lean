import Verif.RingWeak.Model

/-! # Happens before, in the queue -/

namespace Blackhole.RingWeak

/-- What happens before what: a thread's accesses in their order, and a releasing store before an acquiring load that reads its
value. No value is stored twice to a cell (`C109_once`). -/
inductive HB (tr : List Event) : Nat → Nat → Prop where
  | thread {i j t e e'} (h : i < j) (hi : tr[i]? = some (⟨t, e⟩ : Event)) (hj : tr[j]? = some (⟨t, e'⟩ : Event)) : HB tr i j
  | read {i j t u c v} (h : i < j) (hi : tr[i]? = some (⟨t, .store c v⟩ : Event)) (hj : tr[j]? = some (⟨u, .load c v⟩ : Event)) : HB tr i j
  | trans {i j k} (h : HB tr i j) (h' : HB tr j k) : HB tr i k

/-- A data race: two accesses to the contents of a cell, neither of which happens before the other. -/
def Races (tr : List Event) : Prop :=
  ∃ i j t u c, tr[i]? = some (⟨t, .touch c⟩ : Event) ∧ tr[j]? = some (⟨u, .touch c⟩ : Event) ∧ i ≠ j ∧ ¬HB tr i j ∧ ¬HB tr j i

end Blackhole.RingWeak
