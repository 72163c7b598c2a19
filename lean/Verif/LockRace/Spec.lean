import Verif.LockRace.Model

/-! # Happens before, with mutexes -/

namespace Blackhole.LockRace

variable {K L : Type}

/-- What happens before what ([intro.multithread] of C++11): a thread's events in their order, and giving a mutex back
before it is taken again. -/
inductive HB (tr : List (Event K L)) : Nat → Nat → Prop where
  | thread {i j t e e'} (h : i < j) (hi : tr[i]? = some ⟨t, e⟩) (hj : tr[j]? = some ⟨t, e'⟩) : HB tr i j
  | mutex {i j t u l} (h : i < j) (hi : tr[i]? = some ⟨t, .release l⟩) (hj : tr[j]? = some ⟨u, .acquire l⟩) : HB tr i j
  | trans {i j k} (h : HB tr i j) (h' : HB tr j k) : HB tr i k

/-- Two accesses to an object, neither of which happens before the other. -/
def RaceAt (tr : List (Event K L)) (k : K) (i j : Nat) : Prop :=
  i ≠ j ∧ (∃ t m, tr[i]? = some ⟨t, .touch k m⟩) ∧ (∃ u m, tr[j]? = some ⟨u, .touch k m⟩) ∧ ¬HB tr i j ∧ ¬HB tr j i

/-- There is a data race on an object. -/
def Races (tr : List (Event K L)) (k : K) : Prop := ∃ i j, RaceAt tr k i j

end Blackhole.LockRace
