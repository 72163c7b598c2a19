import Verif.LockRace.Spec
import Verif.Lock.Lemmas

/-! # Accesses under one mutex are ordered -/

namespace Blackhole.LockRace

open Lock (State Op Task Inv Inside upd upd_same upd_other)

variable {K L W R : Type}

theorem getElem?_snoc_old {α : Type} {l : List α} {i : Nat} {a : α} (x : List α) (h : l[i]? = some a) :
    (l ++ x)[i]? = some a := by
  have := (List.getElem?_eq_some_iff.1 h).1
  rw [List.getElem?_append_left this]
  exact h

theorem HB.mono {tr : List (Event K L)} (x : List (Event K L)) {i j : Nat} (h : HB tr i j) : HB (tr ++ x) i j := by
  induction h with
  | thread h hi hj => exact .thread h (getElem?_snoc_old x hi) (getElem?_snoc_old x hj)
  | mutex h hi hj => exact .mutex h (getElem?_snoc_old x hi) (getElem?_snoc_old x hj)
  | trans _ _ ih ih' => exact .trans ih ih'

theorem HB.lt {tr : List (Event K L)} {i j : Nat} (h : HB tr i j) : i < j := by
  induction h with
  | thread h _ _ => exact h
  | mutex h _ _ => exact h
  | trans _ _ ih ih' => omega

/-- What orders the events of two threads is a mutex that was given back in between. -/
theorem HB.through {tr : List (Event K L)} {i j : Nat} (h : HB tr i j) :
    (∃ t e e', tr[i]? = some ⟨t, e⟩ ∧ tr[j]? = some ⟨t, e'⟩) ∨ ∃ r t l, i ≤ r ∧ r ≤ j ∧ tr[r]? = some ⟨t, .release l⟩ := by
  induction h with
  | thread h hi hj => exact .inl ⟨_, _, _, hi, hj⟩
  | mutex h hi hj => exact .inr ⟨_, _, _, Nat.le_refl _, Nat.le_of_lt h, hi⟩
  | @trans i j k h h' ih ih' =>
    have := h.lt
    have := h'.lt
    rcases ih with ⟨t, e, e', hi, hj⟩ | ⟨r, t, l, h1, h2, h3⟩
    · rcases ih' with ⟨u, f, f', hj', hk⟩ | ⟨r, t, l, h1, h2, h3⟩
      · rw [hj] at hj'
        injection hj' with hj'
        injection hj' with ht _
        subst ht
        exact .inl ⟨_, _, _, hi, hk⟩
      · exact .inr ⟨r, t, l, by omega, h2, h3⟩
    · exact .inr ⟨r, t, l, h1, by omega, h3⟩

/-- An event that is known to a thread: whatever the thread does next comes after it. -/
def Known (tr : List (Event K L)) (i u : Nat) : Prop := ∃ j e, tr[j]? = some ⟨u, e⟩ ∧ (i = j ∨ HB tr i j)

/-- An event that is known to who takes the mutex next. -/
def Via (tr : List (Event K L)) (i : Nat) (l : L) : Prop := ∃ j u, tr[j]? = some ⟨u, .release l⟩ ∧ (i = j ∨ HB tr i j)

structure Ordered (tr : List (Event K L)) (s : State K L W R) : Prop where
  held : ∀ l u, s.holder l = some u → ∀ i v k, tr[i]? = some ⟨v, .touch k (some l)⟩ → Known tr i u
  idle : ∀ l, s.holder l = none → ∀ i v k, tr[i]? = some ⟨v, .touch k (some l)⟩ → Via tr i l
  all : ∀ l i j t u k k', tr[i]? = some ⟨t, .touch k (some l)⟩ → tr[j]? = some ⟨u, .touch k' (some l)⟩ → i < j → HB tr i j

theorem Known.mono {tr : List (Event K L)} (x : List (Event K L)) {i u : Nat} (h : Known tr i u) : Known (tr ++ x) i u := by
  obtain ⟨j, e, hj, h⟩ := h
  exact ⟨j, e, getElem?_snoc_old x hj, h.imp id fun h => h.mono x⟩

theorem Via.mono {tr : List (Event K L)} (x : List (Event K L)) {i : Nat} {l : L} (h : Via tr i l) : Via (tr ++ x) i l := by
  obtain ⟨j, u, hj, h⟩ := h
  exact ⟨j, u, getElem?_snoc_old x hj, h.imp id fun h => h.mono x⟩

theorem Known.last {tr : List (Event K L)} {i u : Nat} (h : Known tr i u) (e : Ev K L) :
    HB (tr ++ [⟨u, e⟩]) i tr.length := by
  obtain ⟨j, e', hj, h⟩ := h
  have hlt := (List.getElem?_eq_some_iff.1 hj).1
  have := HB.thread (tr := tr ++ [⟨u, e⟩]) hlt (getElem?_snoc_old _ hj) (by simp : (tr ++ [⟨u, e⟩])[tr.length]? = some ⟨u, e⟩)
  rcases h with rfl | h
  · exact this
  · exact (h.mono _).trans this

theorem Via.last {tr : List (Event K L)} {i : Nat} {l : L} (h : Via tr i l) (u : Nat) :
    HB (tr ++ [⟨u, .acquire l⟩]) i tr.length := by
  obtain ⟨j, v, hj, h⟩ := h
  have hlt := (List.getElem?_eq_some_iff.1 hj).1
  have := HB.mutex (tr := tr ++ [⟨u, .acquire l⟩]) hlt (getElem?_snoc_old _ hj) (by simp : (tr ++ [(⟨u, .acquire l⟩ : Event K L)])[tr.length]? = some ⟨u, .acquire l⟩)
  rcases h with rfl | h
  · exact this
  · exact (h.mono _).trans this

theorem last_at {α : Type} (l : List α) (a : α) : (l ++ [a])[l.length]? = some a := by simp

theorem at_snoc {α : Type} {l : List α} {a b : α} {i : Nat} (h : (l ++ [a])[i]? = some b) :
    l[i]? = some b ∨ i = l.length ∧ a = b := by
  by_cases hi : i < l.length
  · rw [List.getElem?_append_left hi] at h; exact .inl h
  · rw [List.getElem?_append_right (by omega)] at h
    by_cases h0 : i - l.length = 0
    · rw [h0] at h
      injection h with h
      exact .inr ⟨by omega, h⟩
    · rw [List.getElem?_eq_none (by simp; omega)] at h
      cases h

variable [DecidableEq K] [DecidableEq L]

theorem Ordered.step {programs : Nat → List (List (Task K L W R))} {init : K → R} {s : State K L W R}
    (hinv : Inv programs init s) {tr : List (Event K L)} (h : Ordered tr s) (t : Nat) :
    Ordered (tr ++ events s t) (s.step t) := by
  unfold events State.step
  split
  · rename_i e
    simp only [e, List.append_nil]
    exact h
  · rename_i g e
    simp only [e, List.append_nil]
    exact ⟨h.held, h.idle, h.all⟩
  · rename_i op ops groups e
    simp only [e]
    split
    · rename_i hd
      simp only [hd]
      cases hf : s.free op.lock with
      | false => simpa using h
      | true =>
        simp only [if_true]
        cases hl : op.lock with
        | none =>
          simp only [Option.map_none, Option.toList_none, List.append_nil, State.lock]
          exact ⟨h.held, h.idle, h.all⟩
        | some l =>
          have hnone : s.holder l = none := by rw [hl] at hf; simpa [State.free] using hf
          simp only [Option.map_some, Option.toList_some, State.lock]
          refine ⟨?_, ?_, ?_⟩
          · intro l' u hu i v k hi
            replace hi := at_snoc hi; rcases hi with hi | ⟨-, hi⟩
            · by_cases hll : l' = l
              · subst hll
                simp only [upd_same] at hu
                injection hu with hu
                subst hu
                exact ⟨tr.length, _, last_at tr _, .inr ((h.idle l' hnone i v k hi).last t)⟩
              · simp only [upd_other _ _ hll] at hu
                exact (h.held l' u hu i v k hi).mono _
            · cases hi
          · intro l' hu i v k hi
            replace hi := at_snoc hi; rcases hi with hi | ⟨-, hi⟩
            · by_cases hll : l' = l
              · subst hll
                simp only [upd_same] at hu
                cases hu
              · simp only [upd_other _ _ hll] at hu
                exact (h.idle l' hu i v k hi).mono _
            · cases hi
          · intro l' i j t' u k k' hi hj hij
            replace hi := at_snoc hi; rcases hi with hi | ⟨-, hi⟩
            · replace hj := at_snoc hj; rcases hj with hj | ⟨-, hj⟩
              · exact (h.all l' i j t' u k k' hi hj hij).mono _
              · cases hj
            · cases hi
    · rename_i f fs hd
      simp only [hd]
      obtain ⟨o, past, hin, hh⟩ := hinv.holds t _ hd
      obtain ⟨⟨x, ops', groups', e', rfl⟩, -, -⟩ := hin
      rw [e] at e'
      injection e' with e' _
      injection e' with e' _
      subst e'
      refine ⟨?_, ?_, ?_⟩
      · intro l u hu i v k hi
        replace hi := at_snoc hi; rcases hi with hi | ⟨rfl, hi⟩
        · exact (h.held l u hu i v k hi).mono _
        · injection hi with h1 h2
          injection h2 with h2 h3
          have := hh l h3
          have hu : s.holder l = some u := hu
          rw [this] at hu
          injection hu with hu
          subst hu
          exact ⟨tr.length, _, last_at tr _, .inl rfl⟩
      · intro l hu i v k hi
        replace hi := at_snoc hi; rcases hi with hi | ⟨rfl, hi⟩
        · exact (h.idle l hu i v k hi).mono _
        · injection hi with h1 h2
          injection h2 with h2 h3
          have := hh l h3
          have hu : s.holder l = none := hu
          rw [this] at hu
          cases hu
      · intro l i j t' u k k' hi hj hij
        replace hi := at_snoc hi; rcases hi with hi | ⟨rfl, hi⟩
        · replace hj := at_snoc hj; rcases hj with hj | ⟨rfl, hj⟩
          · exact (h.all l i j t' u k k' hi hj hij).mono _
          · injection hj with h1 h2
            injection h2 with h2 h3
            exact (h.held l t (hh l h3) i t' k hi).last _
        · have := (List.getElem?_eq_some_iff.1 hj).1
          simp at this
          omega
    · rename_i hd
      simp only [hd]
      obtain ⟨o, past, hin, hh⟩ := hinv.holds t _ hd
      obtain ⟨⟨x, ops', groups', e', rfl⟩, -, -⟩ := hin
      rw [e] at e'
      injection e' with e' _
      injection e' with e' _
      subst e'
      cases hl : op.lock with
      | none =>
        simp only [Option.map_none, Option.toList_none, List.append_nil, State.lock]
        exact ⟨h.held, h.idle, h.all⟩
      | some l =>
        have hold := hh l hl
        simp only [Option.map_some, Option.toList_some, State.lock]
        refine ⟨?_, ?_, ?_⟩
        · intro l' u hu i v k hi
          replace hi := at_snoc hi; rcases hi with hi | ⟨-, hi⟩
          · by_cases hll : l' = l
            · subst hll
              simp only [upd_same] at hu
              cases hu
            · simp only [upd_other _ _ hll] at hu
              exact (h.held l' u hu i v k hi).mono _
          · cases hi
        · intro l' hu i v k hi
          replace hi := at_snoc hi; rcases hi with hi | ⟨-, hi⟩
          · by_cases hll : l' = l
            · subst hll
              exact ⟨tr.length, t, last_at tr _, .inr ((h.held l' t hold i v k hi).last _)⟩
            · simp only [upd_other _ _ hll] at hu
              exact (h.idle l' hu i v k hi).mono _
          · cases hi
        · intro l' i j t' u k k' hi hj hij
          replace hi := at_snoc hi; rcases hi with hi | ⟨-, hi⟩
          · replace hj := at_snoc hj; rcases hj with hj | ⟨-, hj⟩
            · exact (h.all l' i j t' u k k' hi hj hij).mono _
            · cases hj
          · cases hi

theorem Ordered.run {programs : Nat → List (List (Task K L W R))} {init : K → R} {s : State K L W R}
    (hinv : Inv programs init s) {tr : List (Event K L)} (h : Ordered tr s) (schedule : List Nat) :
    Ordered (tr ++ trace s schedule) (s.run schedule) := by
  induction schedule generalizing s tr with
  | nil => simpa [trace, State.run] using h
  | cons t ts ih =>
    have := ih (hinv.step t) (h.step hinv t)
    rw [List.append_assoc] at this
    exact this

/-- Accesses under the same mutex are ordered as they come. -/
theorem ordered (programs : Nat → List (List (Task K L W R))) (init : K → R) (schedule : List Nat) {l : L} {i j t u : Nat}
    {k k' : K} (hi : (trace (State.init programs init) schedule)[i]? = some ⟨t, .touch k (some l)⟩)
    (hj : (trace (State.init programs init) schedule)[j]? = some ⟨u, .touch k' (some l)⟩) (h : i < j) :
    HB (trace (State.init programs init) schedule) i j := by
  have h0 : Ordered (W := W) (R := R) [] (State.init programs init) :=
    ⟨(by intro l u h; cases h), (by intro l _ i v k h; cases h), (by intro l i j t u k k' h; cases h)⟩
  have := h0.run (Inv.start programs init) schedule
  rw [List.nil_append] at this
  exact this.all l i j t u k k' hi hj h

/-- Every access belongs to an emit. -/
theorem trace_occurs {programs : Nat → List (List (Task K L W R))} {init : K → R} {s : State K L W R}
    (hinv : Inv programs init s) (schedule : List Nat) {t : Nat} {k : K} {m : Option L}
    (h : (⟨t, .touch k m⟩ : Event K L) ∈ trace s schedule) : ∃ op, Lock.Occurs programs op ∧ op.res = k ∧ op.lock = m := by
  induction schedule generalizing s with
  | nil => cases h
  | cons u us ih =>
    rcases List.mem_append.1 h with h | h
    · unfold events at h
      split at h
      · cases h
      · cases h
      · rename_i op ops groups e
        split at h
        · split at h
          · cases hl : op.lock <;> simp [hl] at h
          · cases h
        · rw [List.mem_singleton] at h
          injection h with _ h
          injection h with h1 h2
          exact ⟨op.toOp, hinv.occurs e, h1.symm, h2.symm⟩
        · cases hl : op.lock <;> simp [hl] at h
    · exact ih (hinv.step u) h

/-- No race on an object that is only worked on under one mutex. -/
theorem no_race (programs : Nat → List (List (Task K L W R))) (init : K → R) (schedule : List Nat) {k : K}
    (hg : Lock.Guarded programs k) : ¬Races (trace (State.init programs init) schedule) k := by
  rintro ⟨i, j, hne, ⟨t, m, hi⟩, ⟨u, m', hj⟩, h1, h2⟩
  obtain ⟨l, hl⟩ := hg
  obtain ⟨op, ho, hr, e⟩ := trace_occurs (Inv.start programs init) schedule (List.mem_of_getElem? hi)
  obtain ⟨op', ho', hr', e'⟩ := trace_occurs (Inv.start programs init) schedule (List.mem_of_getElem? hj)
  rw [hl op ho hr] at e
  rw [hl op' ho' hr'] at e'
  subst e e'
  rcases Nat.lt_or_gt_of_ne hne with h | h
  · exact h1 (ordered programs init schedule hi hj h)
  · exact h2 (ordered programs init schedule hj hi h)

end Blackhole.LockRace
