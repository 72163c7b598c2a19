import Verif.Ring.Spec

/-! # The queue inside the asynchronous sink: the invariant -/

namespace Blackhole.Ring
variable {E : Type} {cap : Nat} {policy : Async.Policy} {s s' : State E}

theorem cell_eq {k : Nat} (pos : Nat) : cell (2 ^ k) pos = pos % 2 ^ k := Nat.and_two_pow_sub_one_eq_mod pos k

/-- The oldest position whose cell is not given back. -/
def State.base (s : State E) : Nat :=
  match s.consumer with
  | .taken pos => pos
  | .reading pos => pos
  | .copied pos _ => pos
  | _ => s.head

/-- The position that a producer has claimed and not filled yet. -/
def PPc.place : PPc E → Option (E × Nat)
  | .claimed e pos => some (e, pos)
  | .writing e pos => some (e, pos)
  | .written e pos => some (e, pos)
  | _ => none

/-- What a producer has read before. -/
def PGood (s : State E) (cap : Nat) (p : Nat) : PPc E → Prop
  | .loaded _ pos => pos ≤ s.tail
  | .behind _ pos => pos ≤ s.tail
  | .seen _ pos n => pos ≤ s.tail ∧ (n = pos → s.tail = pos → s.seq (pos % cap) = pos)
  | .claimed e q => s.base ≤ q ∧ q < s.tail ∧ s.claims[q]? = some (p, e) ∧ s.seq (q % cap) = q
  | .writing e q => s.base ≤ q ∧ q < s.tail ∧ s.claims[q]? = some (p, e) ∧ s.seq (q % cap) = q
  | .written e q => s.base ≤ q ∧ q < s.tail ∧ s.claims[q]? = some (p, e) ∧ s.seq (q % cap) = q ∧
      s.data (q % cap) = some (p, e)
  | _ => True

/-- What the worker has read before. -/
def CGood (s : State E) (cap : Nat) : CPc E → Prop
  | .loaded pos => pos = s.head
  | .behind pos => pos = s.head
  | .seen pos n => pos = s.head ∧ (n = pos + 1 → s.seq (pos % cap) = pos + 1)
  | .taken pos => s.head = pos + 1 ∧ s.seq (pos % cap) = pos + 1 ∧ s.data (pos % cap) = s.claims[pos]?
  | .reading pos => s.head = pos + 1 ∧ s.seq (pos % cap) = pos + 1 ∧ s.data (pos % cap) = s.claims[pos]?
  | .copied pos x => s.head = pos + 1 ∧ s.seq (pos % cap) = pos + 1 ∧ s.claims[pos]? = some x
  | .corrupt => False
  | _ => True

structure Inv (cap : Nat) (s : State E) : Prop where
  count : s.claims.length = s.tail
  low : s.head ≤ s.tail
  high : s.tail ≤ s.base + cap
  /-- A position that is claimed is filled or not. -/
  used : ∀ q, s.head ≤ q → q < s.tail →
    (s.seq (q % cap) = q + 1 ∧ s.data (q % cap) = s.claims[q]?) ∨ s.seq (q % cap) = q
  free : ∀ q, s.tail ≤ q → q < s.base + cap → s.seq (q % cap) = q
  prod : ∀ p, PGood s cap p (s.producers p)
  cons : CGood s cap s.consumer

theorem inj {cap b q q' : Nat} (h1 : b ≤ q) (h2 : q < b + cap) (h3 : b ≤ q') (h4 : q' < b + cap) (h : q % cap = q' % cap) :
    q = q' := by
  rcases Nat.le_total q q' with hl | hl
  · have hd : cap ∣ q' - q := Nat.dvd_of_mod_eq_zero (Nat.sub_mod_eq_zero_of_mod_eq h.symm)
    have := Nat.eq_zero_of_dvd_of_lt hd (by omega)
    omega
  · have hd : cap ∣ q - q' := Nat.dvd_of_mod_eq_zero (Nat.sub_mod_eq_zero_of_mod_eq h)
    have := Nat.eq_zero_of_dvd_of_lt hd (by omega)
    omega

theorem upd_same {β : Type} (f : Nat → β) (a : Nat) (b : β) : upd f a b a = b := if_pos rfl

theorem upd_ne {β : Type} (f : Nat → β) {a x : Nat} (b : β) (h : x ≠ a) : upd f a b x = f x := if_neg h

theorem inv_init : Inv cap (State.init : State E) :=
  ⟨rfl, Nat.le_refl _, Nat.zero_le _, fun q _ h => absurd h (Nat.not_lt_zero _),
    fun q _ h => by
      show q % cap = q
      exact Nat.mod_eq_of_lt (by simpa [State.init, State.base] using h),
    fun _ => trivial, trivial⟩

/-- The base is the dequeue position or the one before. -/
theorem base_le (h : Inv cap s) : s.base ≤ s.head ∧ s.head ≤ s.base + 1 := by
  have := h.cons
  unfold State.base
  cases hc : s.consumer <;> rw [hc] at this <;> simp only [CGood] at this <;> simp only <;> omega

/-- A step of a producer that only changes where it is. -/
theorem inv_go (h : Inv cap s) {p : Nat} {x : PPc E} (hx : PGood s cap p x) : Inv cap (s.go p x) := by
  refine ⟨h.count, h.low, h.high, h.used, h.free, ?_, ?_⟩
  · intro q
    by_cases hq : q = p
    · subst hq
      simp only [State.go, upd_same]
      cases x <;> exact hx
    · have := h.prod q
      simp only [State.go, upd_ne _ _ hq]
      cases hp : s.producers q <;> rw [hp] at this <;> exact this
  · have := h.cons
    simp only [State.go]
    cases hp : s.consumer <;> rw [hp] at this <;> exact this

theorem inv_say (h : Inv cap s) (e : Ev E) : Inv cap (s.say e) := by
  refine ⟨h.count, h.low, h.high, h.used, h.free, ?_, ?_⟩
  · intro q
    have := h.prod q
    simp only [State.say]
    cases hp : s.producers q <;> rw [hp] at this <;> exact this
  · have := h.cons
    simp only [State.say]
    cases hp : s.consumer <;> rw [hp] at this <;> exact this

/-- The cell of the base position. -/
theorem base_cell (h : Inv cap s) (ht : s.base < s.tail) : s.seq (s.base % cap) = s.base ∨ s.seq (s.base % cap) = s.base + 1 := by
  by_cases hb : s.base = s.head
  · rw [hb] at ht ⊢
    rcases h.used _ (Nat.le_refl _) ht with ⟨h1, -⟩ | h1
    · exact .inr h1
    · exact .inl h1
  · have := h.cons
    unfold State.base at hb ⊢
    cases hc : s.consumer <;> rw [hc] at this hb <;> simp only [CGood] at this <;> simp only [not_true] at hb ⊢
    · exact .inr this.2.1
    · exact .inr this.2.1
    · exact .inr this.2.1

/-- There is room if the cell for the next position is free. -/
theorem room (hcap : 2 ≤ cap) (h : Inv cap s) (hs : s.seq (s.tail % cap) = s.tail) : s.tail < s.base + cap := by
  rcases Nat.lt_or_ge s.tail (s.base + cap) with h1 | h1
  · exact h1
  · have he : s.tail = s.base + cap := Nat.le_antisymm h.high h1
    have hm : s.tail % cap = s.base % cap := by rw [he, Nat.add_mod_right]
    have := base_cell h (by omega)
    rw [hm] at hs
    omega

theorem inv_claim (hcap : 2 ≤ cap) (h : Inv cap s) {p pos : Nat} {e : E} (hs : s.seq (pos % cap) = pos) (ht : s.tail = pos) :
    Inv cap ({ s with tail := pos + 1, claims := s.claims ++ [(p, e)] }.go p (.claimed e pos)) := by
  subst ht
  have hr := room hcap h hs
  have hb := base_le h
  have hl := h.low
  have hc := h.count
  have keep : ∀ q, q < s.tail → (s.claims ++ [(p, e)])[q]? = s.claims[q]? :=
    fun q hq => List.getElem?_append_left (by omega)
  refine ⟨by simp [State.go, hc], by simp only [State.go]; omega, by simp only [State.go]; exact hr, ?_, ?_, ?_, ?_⟩
  · intro q h1 h2
    simp only [State.go] at h1 h2 ⊢
    by_cases hq : q < s.tail
    · rw [keep q hq]; exact h.used q h1 hq
    · have : q = s.tail := by omega
      subst this
      exact .inr hs
  · intro q h1 h2
    simp only [State.go] at h1
    exact h.free q (by omega) h2
  · intro q
    by_cases hq : q = p
    · subst hq
      simp only [State.go, upd_same]
      refine ⟨by show s.base ≤ s.tail; omega, by show s.tail < s.tail + 1; omega, ?_, hs⟩
      show (s.claims ++ [(q, e)])[s.tail]? = _
      rw [← hc]; simp
    · have := h.prod q
      simp only [State.go, upd_ne _ _ hq]
      cases hp : s.producers q <;> rw [hp] at this <;> simp only [PGood] at this ⊢
      · exact Nat.le_succ_of_le this
      · exact ⟨Nat.le_succ_of_le this.1, fun _ h2 => by omega⟩
      · exact Nat.le_succ_of_le this
      all_goals exact ⟨this.1, by omega, by rw [keep _ this.2.1]; exact this.2.2.1, this.2.2.2⟩
  · have := h.cons
    simp only [State.go]
    cases hp : s.consumer <;> rw [hp] at this <;> simp only [CGood] at this ⊢ <;> try exact this
    · exact ⟨this.1, this.2.1, by rw [keep _ (by omega)]; exact this.2.2⟩
    · exact ⟨this.1, this.2.1, by rw [keep _ (by omega)]; exact this.2.2⟩
    · exact ⟨this.1, this.2.1, by rw [keep _ (by omega)]; exact this.2.2⟩

/-- Two positions that are in use have different cells. -/
theorem apart (h : Inv cap s) {q q' : Nat} (h1 : s.base ≤ q) (h2 : q < s.tail) (h3 : s.base ≤ q') (h4 : q' < s.tail)
    (hne : q ≠ q') : q % cap ≠ q' % cap := fun e => by
  have hh := h.high
  exact hne (inj h1 (by omega) h3 (by omega) e)

/-- A change of the contents of a cell that is claimed and not filled. -/
theorem inv_data (h : Inv cap s) {p pos : Nat} {d : Option (Nat × E)} {x : PPc E} (h1 : s.base ≤ pos) (h2 : pos < s.tail)
    (hs : s.seq (pos % cap) = pos) (hm : ∃ e, s.claims[pos]? = some (p, e))
    (hx : PGood { s with data := upd s.data (pos % cap) d } cap p x) :
    Inv cap ({ s with data := upd s.data (pos % cap) d }.go p x) := by
  have hb := base_le h
  refine ⟨h.count, h.low, h.high, ?_, h.free, ?_, ?_⟩
  · intro q h3 h4
    simp only [State.go]
    by_cases hq : q = pos
    · subst hq; exact .inr hs
    · have h3' : s.head ≤ q := h3
      rw [upd_ne _ _ (apart h (by omega) h4 h1 h2 hq)]
      exact h.used q h3 h4
  · intro q
    by_cases hq : q = p
    · subst hq
      simp only [State.go, upd_same]
      cases x <;> exact hx
    · have := h.prod q
      simp only [State.go, upd_ne _ _ hq]
      cases hp : s.producers q <;> rw [hp] at this <;> simp only [PGood] at this ⊢ <;> try exact this
      refine ⟨this.1, this.2.1, this.2.2.1, this.2.2.2.1, ?_⟩
      rw [upd_ne]
      · exact this.2.2.2.2
      · refine apart h this.1 this.2.1 h1 h2 ?_
        rintro rfl
        obtain ⟨e, hm⟩ := hm
        rw [this.2.2.1] at hm
        simp at hm
        exact hq hm.1
  · have := h.cons
    simp only [State.go]
    cases hp : s.consumer <;> rw [hp] at this <;> simp only [CGood] at this ⊢ <;> try exact this
    · refine ⟨this.1, this.2.1, ?_⟩
      rw [upd_ne]
      · exact this.2.2
      · rename_i q
        have hq : s.base = q := by rw [State.base, hp]
        have hl := h.low
        refine apart h (by omega) (by omega) h1 h2 ?_
        rintro rfl
        omega
    · refine ⟨this.1, this.2.1, ?_⟩
      rw [upd_ne]
      · exact this.2.2
      · rename_i q
        have hq : s.base = q := by rw [State.base, hp]
        have hl := h.low
        refine apart h (by omega) (by omega) h1 h2 ?_
        rintro rfl
        omega

/-- The position that is being taken out is not one that is being filled. -/
theorem taken_apart (h : Inv cap s) {q pos : Nat} (h1 : s.base ≤ pos) (h2 : pos < s.tail) (hs : s.seq (pos % cap) = pos)
    (hq : s.base = q) (hh : s.head = q + 1) (hg : s.seq (q % cap) = q + 1) : q % cap ≠ pos % cap := by
  have hl := h.low
  refine apart h (by omega) (by omega) h1 h2 ?_
  rintro rfl
  omega

theorem inv_publish (h : Inv cap s) {p pos : Nat} {e : E} (hp : s.producers p = .written e pos) :
    Inv cap ({ s with seq := upd s.seq (pos % cap) (pos + 1) }.go p .idle) := by
  have hb := base_le h
  have hl := h.low
  have hh := h.high
  have hg := h.prod p
  rw [hp] at hg
  obtain ⟨g1, g2, g3, g4, g5⟩ := hg
  refine ⟨h.count, h.low, h.high, ?_, ?_, ?_, ?_⟩
  · intro q h3 h4
    simp only [State.go]
    by_cases hq : q = pos
    · subst hq; exact .inl ⟨upd_same .., by rw [g5, g3]⟩
    · have h3' : s.head ≤ q := h3
      rw [upd_ne _ _ (apart h (by omega) h4 g1 g2 hq)]
      exact h.used q h3 h4
  · intro q h3 h4
    have h3' : s.tail ≤ q := h3
    have h4' : q < s.base + cap := h4
    simp only [State.go]
    rw [upd_ne]
    · exact h.free q h3 h4
    · intro e
      have := inj (b := s.base) (by omega) h4' g1 (by omega) e
      omega
  · intro q
    by_cases hq : q = p
    · subst hq
      simp only [State.go, upd_same]
      trivial
    · have := h.prod q
      simp only [State.go, upd_ne _ _ hq]
      have other : ∀ e' q', s.claims[q']? = some (q, e') → s.base ≤ q' → q' < s.tail → s.seq (q' % cap) = q' →
          upd s.seq (pos % cap) (pos + 1) (q' % cap) = q' := by
        intro e' q' k1 k2 k3 k4
        rw [upd_ne]
        · exact k4
        · refine apart h k2 k3 g1 g2 ?_
          rintro rfl
          rw [g3] at k1
          simp at k1
          exact hq k1.1.symm
      cases hp' : s.producers q <;> rw [hp'] at this <;> simp only [PGood] at this ⊢ <;> try exact this
      · refine ⟨this.1, fun k1 k2 => ?_⟩
        have k3 := this.2 k1 k2
        rw [upd_ne]
        · exact k3
        · intro k4
          rw [k4, g4] at k3
          omega
      · exact ⟨this.1, this.2.1, this.2.2.1, other _ _ this.2.2.1 this.1 this.2.1 this.2.2.2⟩
      · exact ⟨this.1, this.2.1, this.2.2.1, other _ _ this.2.2.1 this.1 this.2.1 this.2.2.2⟩
      · exact ⟨this.1, this.2.1, this.2.2.1, other _ _ this.2.2.1 this.1 this.2.1 this.2.2.2.1, this.2.2.2.2⟩
  · have := h.cons
    simp only [State.go]
    cases hc : s.consumer <;> rw [hc] at this <;> simp only [CGood] at this ⊢ <;> try exact this
    · refine ⟨this.1, fun k1 => ?_⟩
      have k2 := this.2 k1
      rw [upd_ne]
      · exact k2
      · intro k3
        have := this.1
        have hbs : s.base = s.head := by rw [State.base, hc]
        rw [k3, g4] at k2
        exact absurd k3 (apart h (by omega) (by omega) g1 g2 (by omega))
    all_goals
      refine ⟨this.1, ?_, this.2.2⟩
      rw [upd_ne]
      · exact this.2.1
      · exact taken_apart h g1 g2 g4 (by rw [State.base, hc]) this.1 this.2.1

/-- A step of the worker that only changes where it is. -/
theorem inv_cons (h : Inv cap s) {y : CPc E} (hb : ({ s with consumer := y } : State E).base = s.base) (hy : CGood s cap y) :
    Inv cap { s with consumer := y } := by
  refine ⟨h.count, h.low, by rw [hb]; exact h.high, h.used, by rw [hb]; exact h.free, ?_, ?_⟩
  · intro q
    have := h.prod q
    cases hp : s.producers q <;> rw [hp] at this <;> simp only [PGood] at this ⊢ <;> first | exact this | (rw [hb]; exact this)
  · show CGood _ cap y
    cases y <;> exact hy

theorem inv_take (hcap : 2 ≤ cap) (h : Inv cap s) {pos : Nat} (hc : s.consumer = .seen pos (pos + 1)) :
    Inv cap { s with head := pos + 1, consumer := .taken pos } := by
  have hg := h.cons
  rw [hc] at hg
  obtain ⟨g1, g2⟩ := hg
  have g2 := g2 rfl
  have hbs : s.base = pos := by rw [State.base, hc, g1]
  have hl := h.low
  have ht : pos < s.tail := by
    rcases Nat.lt_or_ge pos s.tail with h1 | h1
    · exact h1
    · have := h.free pos h1 (by omega)
      omega
  refine ⟨h.count, ht, by rw [show ({ s with head := pos + 1, consumer := .taken pos } : State E).base = s.base from hbs.symm]; exact h.high,
    fun q h1 h2 => h.used q (by simp only at h1; omega) h2,
    by rw [show ({ s with head := pos + 1, consumer := .taken pos } : State E).base = s.base from hbs.symm]; exact h.free, ?_, ?_⟩
  · intro q
    have := h.prod q
    cases hp : s.producers q <;> rw [hp] at this <;> simp only [PGood] at this ⊢ <;> first
      | exact this
      | (rw [show ({ s with head := pos + 1, consumer := .taken pos } : State E).base = s.base from hbs.symm]; exact this)
  · refine ⟨rfl, g2, ?_⟩
    rcases h.used pos (by omega) ht with h1 | h1
    · exact h1.2
    · omega

theorem inv_read (h : Inv cap s) {pos : Nat} {x : Nat × E} (hc : s.consumer = .reading pos) (hd : s.data (pos % cap) = some x) :
    Inv cap { s with consumer := .copied pos x, data := upd s.data (pos % cap) none } := by
  have hg := h.cons
  rw [hc] at hg
  obtain ⟨g1, g2, g3⟩ := hg
  have hbs : s.base = pos := by rw [State.base, hc]
  have hb : ({ s with consumer := .copied pos x, data := upd s.data (pos % cap) none } : State E).base = s.base := hbs.symm
  have hl := h.low
  refine ⟨h.count, h.low, by rw [hb]; exact h.high, ?_, by rw [hb]; exact h.free, ?_, ?_⟩
  · intro q h1 h2
    simp only at h1 h2 ⊢
    rw [upd_ne _ _ (apart h (by omega) h2 (q' := pos) (by omega) (by omega) (by omega))]
    exact h.used q h1 h2
  · intro q
    have := h.prod q
    cases hp : s.producers q <;> rw [hp] at this <;> simp only [PGood] at this ⊢ <;> first
      | exact this
      | (rw [hb]; exact this)
      | skip
    rw [hb]
    refine ⟨this.1, this.2.1, this.2.2.1, this.2.2.2.1, ?_⟩
    rw [upd_ne]
    · exact this.2.2.2.2
    · exact (taken_apart h this.1 this.2.1 this.2.2.2.1 hbs g1 g2).symm
  · exact ⟨g1, g2, by rw [← g3]; exact hd⟩

theorem inv_release (hcap : 2 ≤ cap) (h : Inv cap s) {pos : Nat} {x : Nat × E} (hc : s.consumer = .copied pos x) :
    Inv cap { s with consumer := .got (some x), seq := upd s.seq (pos % cap) (pos + cap) } := by
  have hg := h.cons
  rw [hc] at hg
  obtain ⟨g1, g2, g3⟩ := hg
  have hbs : s.base = pos := by rw [State.base, hc]
  have hb : ({ s with consumer := .got (some x), seq := upd s.seq (pos % cap) (pos + cap) } : State E).base = pos + 1 := g1
  have hl := h.low
  have hh := h.high
  refine ⟨h.count, h.low, by rw [hb]; show s.tail ≤ _; omega, ?_, ?_, ?_, trivial⟩
  · intro q h1 h2
    simp only at h1 h2 ⊢
    rw [upd_ne _ _ (apart h (by omega) h2 (q' := pos) (by omega) (by omega) (by omega))]
    exact h.used q h1 h2
  · intro q h1 h2
    rw [hb] at h2
    simp only at h1 ⊢
    by_cases hq : q = pos + cap
    · subst hq; rw [Nat.add_mod_right, upd_same]
    · rw [upd_ne]
      · exact h.free q h1 (by omega)
      · intro e
        rw [← Nat.add_mod_right pos] at e
        exact hq (inj (b := pos + 1) (by omega) h2 (by omega) (by omega) e)
  · intro q
    have := h.prod q
    have other : ∀ q', s.base ≤ q' → q' < s.tail → s.seq (q' % cap) = q' →
        pos + 1 ≤ q' ∧ upd s.seq (pos % cap) (pos + cap) (q' % cap) = q' := by
      intro q' k1 k2 k3
      have hne := taken_apart h k1 k2 k3 hbs g1 g2
      refine ⟨?_, by rw [upd_ne _ _ hne.symm]; exact k3⟩
      rcases Nat.lt_or_ge pos q' with k | k
      · exact k
      · have : q' = pos := by omega
        subst this
        exact absurd rfl hne
    cases hp : s.producers q <;> rw [hp] at this <;> simp only [PGood] at this ⊢ <;> try exact this
    · refine ⟨this.1, fun k1 k2 => ?_⟩
      have k3 := this.2 k1 k2
      rw [upd_ne]
      · exact k3
      · intro k4
        rw [k4, g2] at k3
        rw [← k3] at k4
        have := inj (b := pos) (cap := cap) (by omega) (by omega) (by omega) (by omega) k4
        omega
    · rw [hb]
      have k := other _ this.1 this.2.1 this.2.2.2
      exact ⟨k.1, this.2.1, this.2.2.1, k.2⟩
    · rw [hb]
      have k := other _ this.1 this.2.1 this.2.2.2
      exact ⟨k.1, this.2.1, this.2.2.1, k.2⟩
    · rw [hb]
      have k := other _ this.1 this.2.1 this.2.2.2.1
      exact ⟨k.1, this.2.1, this.2.2.1, k.2, this.2.2.2.2⟩

theorem inv_produce {k p : Nat} {b : Bool} (hk : 1 ≤ k) (h : Inv (2 ^ k) s) (hs : s.produce (2 ^ k) policy p b = some s') :
    Inv (2 ^ k) s' := by
  have hcap : 2 ≤ 2 ^ k := by
    have := Nat.pow_le_pow_right (n := 2) (by omega) hk
    simpa using this
  have hg := h.prod p
  simp only [State.produce] at hs
  split at hs
  · cases hs
  · cases hs; exact inv_go h (Nat.le_refl _)
  · rename_i e pos hp
    cases hs
    rw [hp] at hg
    refine inv_go h ⟨hg, fun k1 _ => ?_⟩
    rw [cell_eq] at k1
    exact k1
  · rename_i e pos n hp
    rw [hp] at hg
    split at hs
    · rename_i hn
      split at hs
      · rename_i ht
        cases hs
        exact inv_say (inv_claim hcap h (hg.2 hn ht.1) ht.1) _
      · cases hs
        exact inv_go h (Nat.le_refl _)
    · split at hs
      · cases hs; exact inv_go h hg.1
      · cases hs; exact inv_go h trivial
  · rename_i e pos hp
    cases hs
    split
    · exact inv_go h trivial
    · exact inv_go h trivial
  · split at hs
    · cases hs; exact inv_go h trivial
    · cases hs; refine inv_say ?_ _; exact inv_go h trivial
  · rename_i e pos hp
    cases hs
    rw [hp] at hg
    obtain ⟨g1, g2, g3, g4⟩ := hg
    simp only [cell_eq]
    exact inv_data h g1 g2 g4 ⟨_, g3⟩ ⟨g1, g2, g3, g4⟩
  · rename_i e pos hp
    cases hs
    rw [hp] at hg
    obtain ⟨g1, g2, g3, g4⟩ := hg
    simp only [cell_eq]
    exact inv_data h g1 g2 g4 ⟨_, g3⟩ ⟨g1, g2, g3, g4, upd_same ..⟩
  · rename_i e pos hp
    cases hs
    simp only [cell_eq]
    exact inv_say (inv_publish h hp) _

theorem inv_consume {k : Nat} {b : Bool} (hk : 1 ≤ k) (h : Inv (2 ^ k) s) (hs : s.consume (2 ^ k) b = some s') :
    Inv (2 ^ k) s' := by
  have hcap : 2 ≤ 2 ^ k := by
    have := Nat.pow_le_pow_right (n := 2) (by omega) hk
    simpa using this
  have hg := h.cons
  simp only [State.consume] at hs
  have plain : ∀ {y : CPc E}, s.base = s.head → ({ s with consumer := y } : State E).base = s.head → CGood s (2 ^ k) y →
      Inv (2 ^ k) { s with consumer := y } := fun h1 h2 h3 => inv_cons h (by rw [h1, h2]) h3
  split at hs
  · rename_i hc
    cases hs; exact plain (by rw [State.base, hc]) rfl rfl
  · rename_i pos hc
    cases hs
    rw [hc] at hg
    refine plain (by rw [State.base, hc]) rfl ⟨hg, fun k1 => ?_⟩
    rw [cell_eq] at k1
    exact k1
  · rename_i pos n hc
    have hg' := hg
    rw [hc] at hg
    split at hs
    · rename_i hn
      subst hn
      split at hs
      · cases hs; exact inv_take hcap h hc
      · cases hs; exact plain (by rw [State.base, hc]) rfl rfl
    · split at hs
      · cases hs; exact plain (by rw [State.base, hc]) rfl hg.1
      · cases hs; exact plain (by rw [State.base, hc]) rfl trivial
  · rename_i pos hc
    cases hs
    split
    · exact plain (by rw [State.base, hc]) rfl trivial
    · exact plain (by rw [State.base, hc]) rfl trivial
  · rename_i pos hc
    cases hs
    rw [hc] at hg
    exact inv_cons h (by simp only [State.base, hc]) hg
  · rename_i pos hc
    rw [hc] at hg
    obtain ⟨g1, g2, g3⟩ := hg
    simp only [cell_eq] at hs
    split at hs
    · rename_i x hd
      cases hs
      exact inv_read h hc hd
    · rename_i hd
      rw [g3] at hd
      have := h.low
      have := h.count
      rw [List.getElem?_eq_none_iff] at hd
      omega
  · rename_i pos x hc
    cases hs
    simp only [cell_eq]
    exact inv_release hcap h hc
  · rename_i hc
    split at hs
    · cases hs; exact plain (by rw [State.base, hc]) rfl trivial
    · cases hs; exact plain (by rw [State.base, hc]) rfl trivial
  · rename_i hc
    cases hs; exact plain (by rw [State.base, hc]) rfl trivial
  · rename_i hc
    cases hs
    refine inv_say ?_ _
    exact plain (by rw [State.base, hc]) rfl trivial
  · rename_i hc
    cases hs; exact plain (by rw [State.base, hc]) rfl trivial
  · cases hs
  · cases hs
  · cases hs

theorem inv_step {k : Nat} {c : Cmd E} (hk : 1 ≤ k) (h : Inv (2 ^ k) s) (hs : s.step (2 ^ k) policy c = some s') :
    Inv (2 ^ k) s' := by
  cases c with
  | emit p e =>
    simp only [State.step] at hs
    split at hs
    · cases hs; refine inv_say ?_ _; exact inv_go h trivial
    · cases hs
  | producer p b => exact inv_produce hk h hs
  | throws p =>
    simp only [State.step, State.fail] at hs
    split at hs
    · cases hs; refine inv_say ?_ _; exact inv_go h trivial
    · cases hs; refine inv_say ?_ _; exact inv_go h trivial
    · cases hs
  | consumer b => exact inv_consume hk h hs
  | consumerThrows =>
    simp only [State.step] at hs
    split at hs
    · rename_i hc
      cases hs
      refine inv_say ?_ _
      exact inv_cons h (by simp only [State.base, hc]) trivial
    · cases hs
  | stop =>
    simp only [State.step] at hs
    split at hs
    · cases hs
    · cases hs
      refine inv_say ?_ _
      refine ⟨h.count, h.low, h.high, h.used, h.free, ?_, ?_⟩
      · intro q
        have := h.prod q
        simp only
        cases hp : s.producers q <;> rw [hp] at this <;> exact this
      · have := h.cons
        simp only
        cases hp : s.consumer <;> rw [hp] at this <;> exact this
  | join =>
    simp only [State.step] at hs
    split at hs
    · cases hs
      refine inv_say ?_ _
      refine ⟨h.count, h.low, h.high, h.used, h.free, ?_, ?_⟩
      · intro q
        have := h.prod q
        simp only
        cases hp : s.producers q <;> rw [hp] at this <;> exact this
      · have := h.cons
        simp only
        cases hp : s.consumer <;> rw [hp] at this <;> exact this
    · cases hs

theorem inv_run {k : Nat} {cs : List (Cmd E)} (hk : 1 ≤ k) (h : Inv (2 ^ k) s) (hs : s.run (2 ^ k) policy cs = some s') :
    Inv (2 ^ k) s' := by
  induction cs generalizing s with
  | nil => cases hs; exact h
  | cons c cs ih =>
    simp only [State.run, Option.bind_eq_some_iff] at hs
    obtain ⟨m, h1, h2⟩ := hs
    exact ih (inv_step hk h h1) h2

end Blackhole.Ring
