import Verif.RingWeak.Order

/-! # The queue on weak memory: every step keeps the order -/

namespace Blackhole.RingWeak

open Ring (cell upd upd_same upd_ne cell_eq Inv PPc CPc)

variable {E : Type} {cap : Nat} {policy : Async.Policy} {tr : List Event}

theorem ord_go {r : Ring.State E} (o : Ordered cap r tr) {p : Nat} {x : PPc E} (hx : PKnows tr cap p x) :
    Ordered cap (r.go p x) tr :=
  ord_quiet o rfl rfl rfl rfl (prod_go o.prod hx) o.cons

theorem ord_say {r : Ring.State E} (o : Ordered cap r tr) (e : Ring.Ev E) : Ordered cap (r.say e) tr :=
  ord_quiet o rfl rfl rfl rfl o.prod o.cons

theorem ord_works {r : Ring.State E} (o : Ordered cap r tr) {y : CPc E}
    (hb : ({ r with consumer := y } : Ring.State E).base = r.base) (hy : CKnows tr cap y) :
    Ordered cap { r with consumer := y } tr :=
  ord_quiet o rfl rfl rfl hb o.prod hy

theorem same_tail {s m : State E} {t : Thread} {v : Nat} (hs : s.loadTail t v = some m) : m.ring = s.ring ∧ m.events = s.events := by
  simp only [State.loadTail] at hs
  split at hs
  · cases hs; exact ⟨rfl, rfl⟩
  · cases hs

theorem same_head {s m : State E} {t : Thread} {v : Nat} (hs : s.loadHead t v = some m) : m.ring = s.ring ∧ m.events = s.events := by
  simp only [State.loadHead] at hs
  split at hs
  · cases hs; exact ⟨rfl, rfl⟩
  · cases hs

theorem ord_loads {k : Nat} {s s' : State E} (h : Safe (2 ^ k) s) (o : Ordered (2 ^ k) s.ring s.events) {t : Thread} {v : Nat}
    (hs : s.load (2 ^ k) t v = some s') : Ordered (2 ^ k) s'.ring s'.events := by
  simp only [State.load] at hs
  split at hs
  · next p =>
    split at hs
    · obtain ⟨m, h1, rfl⟩ := Option.map_eq_some_iff.1 hs
      obtain ⟨i1, i2⟩ := same_tail h1
      show Ordered _ (m.ring.go p _) m.events
      rw [i1, i2]
      exact ord_go o trivial
    · next e pos hp =>
      obtain ⟨m, h1, rfl⟩ := Option.map_eq_some_iff.1 hs
      obtain ⟨-, i1, i2, i3⟩ := safe_seq h h1
      show Ordered _ (m.ring.go p _) m.events
      rw [i1, i2]
      refine ord_go (ord_load o i3) ?_
      rintro rfl
      rw [cell_eq]
      exact ⟨_, last _ _⟩
    · split at hs
      · obtain ⟨m, h1, rfl⟩ := Option.map_eq_some_iff.1 hs
        obtain ⟨i1, i2⟩ := same_tail h1
        show Ordered _ (m.ring.go p _) m.events
        rw [i1, i2]
        exact ord_go o trivial
      · cases hs
    · obtain ⟨m, h1, rfl⟩ := Option.map_eq_some_iff.1 hs
      obtain ⟨i1, i2⟩ := same_head h1
      show Ordered _ (m.ring.go p _) m.events
      rw [i1, i2]
      refine ord_go o ?_
      split <;> exact trivial
    · cases hs
  · split at hs
    · next hc =>
      obtain ⟨m, h1, rfl⟩ := Option.map_eq_some_iff.1 hs
      obtain ⟨i1, i2⟩ := same_head h1
      show Ordered _ { m.ring with consumer := _ } m.events
      rw [i1, i2]
      exact ord_works o (by simp only [Ring.State.base, hc]) trivial
    · next pos hc =>
      obtain ⟨m, h1, rfl⟩ := Option.map_eq_some_iff.1 hs
      obtain ⟨-, i1, i2, i3⟩ := safe_seq h h1
      show Ordered _ { m.ring with consumer := _ } m.events
      rw [i1, i2]
      refine ord_works (ord_load o i3) (by simp only [Ring.State.base, hc]) ?_
      rintro rfl
      rw [cell_eq]
      exact ⟨_, last _ _⟩
    · next pos n hc =>
      split at hs
      · obtain ⟨m, h1, rfl⟩ := Option.map_eq_some_iff.1 hs
        obtain ⟨i1, i2⟩ := same_head h1
        show Ordered _ { m.ring with consumer := _ } m.events
        rw [i1, i2]
        exact ord_works o (by simp only [Ring.State.base, hc]) trivial
      · cases hs
    · next pos hc =>
      obtain ⟨m, h1, rfl⟩ := Option.map_eq_some_iff.1 hs
      obtain ⟨i1, i2⟩ := same_tail h1
      show Ordered _ { m.ring with consumer := _ } m.events
      rw [i1, i2]
      by_cases hv : pos = v
      · simp only [hv, if_true]
        exact ord_works o (by simp only [Ring.State.base, hc]) trivial
      · simp only [hv, if_false]
        exact ord_works o (by simp only [Ring.State.base, hc]) trivial
    · cases hs

/-- A producer gets a place. -/
theorem ord_claim {r : Ring.State E} (hcap : 2 ≤ cap) (h : Inv cap r) (o : Ordered cap r tr) {p pos : Nat} {e : E}
    (hp : r.producers p = .seen e pos pos) (ht : r.tail = pos) :
    Ordered cap ({ r with tail := pos + 1, claims := r.claims ++ [(p, e)] }.go p (.claimed e pos)) tr := by
  have hg := h.prod p
  have hk := o.prod p
  rw [hp] at hg hk
  subst ht
  have hs := hg.2 rfl rfl
  have hr := Ring.room hcap h hs
  have hkn : Known tr (.producer p) (r.tail % cap) := (o.free _ (Nat.le_refl _) hr).known o (hk rfl)
  exact {
    small := o.small
    stored := o.stored
    once := o.once
    after := o.after
    free := fun q h1 h2 => o.free q (Nat.le_of_succ_le h1) h2
    used := fun q h1 h2 h3 => by
      by_cases hq : q = r.tail
      · subst hq
        have h3' : r.seq (r.tail % cap) = r.tail + 1 := h3
        omega
      · exact o.used q h1 (by have : q < r.tail + 1 := h2; omega) h3
    prod := prod_go o.prod hkn
    cons := o.cons
    ord := o.ord }

/-- Positions in the hands of producers have different cells. -/
theorem apart_places {r : Ring.State E} (h : Inv cap r) {p p' : Nat} {q q' : Nat} {e e' : E} (hne : p' ≠ p)
    (h1 : r.base ≤ q) (h2 : q < r.tail) (h3 : r.claims[q]? = some (p, e)) (h1' : r.base ≤ q') (h2' : q' < r.tail)
    (h3' : r.claims[q']? = some (p', e')) : q' % cap ≠ q % cap := by
  refine Ring.apart h h1' h2' h1 h2 ?_
  rintro rfl
  rw [h3] at h3'
  cases h3'
  exact hne rfl

/-- A producer accesses the contents of its cell. -/
theorem ord_write {r r' : Ring.State E} (h : Inv cap r) (o : Ordered cap r tr) {p pos : Nat} {e : E}
    (h1 : r.base ≤ pos) (h2 : pos < r.tail) (h3 : r.claims[pos]? = some (p, e)) (hs : r.seq (pos % cap) = pos)
    (hk : Known tr (.producer p) (pos % cap))
    (g1 : r'.seq = r.seq) (g2 : r'.tail = r.tail) (g3 : r'.head = r.head) (g4 : r'.consumer = r.consumer)
    (gp : ∀ q, q ≠ p → r'.producers q = r.producers q)
    (gx : PKnows (tr ++ [⟨.producer p, .touch (pos % cap)⟩]) cap p (r'.producers p)) :
    Ordered cap r' (tr ++ [⟨.producer p, .touch (pos % cap)⟩]) := by
  have hh := h.high
  have hb := Ring.base_le h
  refine ord_touch o hk g1 g2 g3 (by simp only [Ring.State.base, g3, g4]) ?_ ?_ ?_ ?_
  · intro q a1 a2 e
    have := Ring.inj (b := r.base) (by omega) a2 h1 (by omega) e
    omega
  · intro q a1 a2 a3 e
    have := Ring.inj (b := r.base) (by omega) (by omega) h1 (by omega) e
    subst this
    omega
  · intro q
    by_cases hq : q = p
    · subst hq; exact gx
    · rw [gp q hq]
      refine (o.prod q).snoc ?_
      intro q' hq' he
      have hg := h.prod q
      simp only [Access.touch.injEq] at he
      cases hx : r.producers q <;> rw [hx] at hq' hg <;> simp only [PPc.place, Option.map_none, Option.map_some, reduceCtorEq,
        Option.some.injEq] at hq'
      all_goals
        subst hq'
        exact apart_places h hq h1 h2 h3 hg.1 hg.2.1 hg.2.2.1 he.symm
  · rw [g4]
    refine o.cons.snoc ?_
    intro q hq he
    have hg := h.cons
    simp only [Access.touch.injEq] at he
    rcases hq with hq | hq | ⟨x, hq⟩ <;> rw [hq] at hg
    all_goals exact Ring.taken_apart h h1 h2 hs (by simp only [Ring.State.base, hq]) hg.1 hg.2.1 he.symm

/-- A producer gives its cell to the worker. -/
theorem ord_publish {r r' : Ring.State E} (h : Inv cap r) (o : Ordered cap r tr) {p pos : Nat}
    (h1 : r.base ≤ pos) (h2 : pos < r.tail) (hs : r.seq (pos % cap) = pos) (hk : Known tr (.producer p) (pos % cap))
    (g1 : r'.seq = upd r.seq (pos % cap) (pos + 1)) (g2 : r'.tail = r.tail) (g3 : r'.head = r.head)
    (g4 : r'.consumer = r.consumer) (gp : ∀ q, PKnows tr cap q (r'.producers q)) :
    Ordered cap r' (tr ++ [⟨.producer p, .store (pos % cap) (pos + 1)⟩]) := by
  have hh := h.high
  have hb := Ring.base_le h
  refine ord_store o (by omega) g1 ?_ ?_ gp (by rw [g4]; exact o.cons)
  · intro q a1 a2
    rw [g2] at a1
    simp only [Ring.State.base, g3, g4] at a2
    exact (o.free q a1 a2).snoc (by simp)
  · intro q a1 a2 a3
    rw [g3] at a1; rw [g2] at a2; rw [g1] at a3
    by_cases hq : q % cap = pos % cap
    · have := Ring.inj (b := r.base) (by omega) (by omega) h1 (by omega) hq
      subst this
      exact hk.store _
    · rw [upd_ne _ _ hq] at a3
      exact (o.used q a1 a2 a3).snoc (by simp)

/-- The worker takes a record. -/
theorem ord_take {r : Ring.State E} (hcap : 2 ≤ cap) (h : Inv cap r) (o : Ordered cap r tr) {pos : Nat}
    (hc : r.consumer = .seen pos (pos + 1)) : Ordered cap { r with head := pos + 1, consumer := .taken pos } tr := by
  have hg := h.cons
  have hk := o.cons
  rw [hc] at hg hk
  obtain ⟨g1, g2⟩ := hg
  have hb : r.base = r.head := by simp only [Ring.State.base, hc]
  have g3 := g2 rfl
  have hlt : pos < r.tail := by
    rcases Nat.lt_or_ge pos r.tail with hl | hl
    · exact hl
    · have := h.free pos hl (by omega)
      omega
  exact {
    small := o.small
    stored := o.stored
    once := o.once
    after := o.after
    free := fun q h1 h2 => o.free q h1 (by rw [hb, ← g1]; exact h2)
    used := fun q h1 h2 h3 => o.used q (by have : pos + 1 ≤ q := h1; omega) h2 h3
    prod := o.prod
    cons := (o.used pos (by omega) hlt g3).known o (hk rfl)
    ord := o.ord }

/-- The worker accesses the contents of the cell. -/
theorem ord_read {r r' : Ring.State E} (h : Inv cap r) (o : Ordered cap r tr) {pos : Nat}
    (hb : r.base = pos) (hh : r.head = pos + 1) (hs : r.seq (pos % cap) = pos + 1) (hk : Known tr .worker (pos % cap))
    (g1 : r'.seq = r.seq) (g2 : r'.tail = r.tail) (g3 : r'.head = r.head) (g4 : r'.base = r.base)
    (gp : r'.producers = r.producers) (gx : CKnows (tr ++ [⟨.worker, .touch (pos % cap)⟩]) cap r'.consumer) :
    Ordered cap r' (tr ++ [⟨.worker, .touch (pos % cap)⟩]) := by
  have hl := h.low
  refine ord_touch o hk g1 g2 g3 g4 ?_ ?_ ?_ gx
  · intro q a1 a2 e
    have := Ring.inj (b := r.base) (by omega) a2 (q' := pos) (by omega) (by omega) e
    omega
  · intro q a1 a2 a3
    exact Ring.apart h (by omega) a2 (by omega) (by omega) (by omega)
  · intro q
    rw [gp]
    refine (o.prod q).snoc ?_
    intro q' hq' he
    have hg := h.prod q
    simp only [Access.touch.injEq] at he
    cases hx : r.producers q <;> rw [hx] at hq' hg <;> simp only [PPc.place, Option.map_none, Option.map_some, reduceCtorEq,
      Option.some.injEq] at hq'
    · subst hq'; exact Ring.taken_apart h hg.1 hg.2.1 hg.2.2.2 hb hh hs he
    · subst hq'; exact Ring.taken_apart h hg.1 hg.2.1 hg.2.2.2 hb hh hs he
    · subst hq'; exact Ring.taken_apart h hg.1 hg.2.1 hg.2.2.2.1 hb hh hs he

/-- The worker gives the cell back. -/
theorem ord_back {r : Ring.State E} (hcap : 2 ≤ cap) (h : Inv cap r) (o : Ordered cap r tr) {pos : Nat} {x : Nat × E}
    (hc : r.consumer = .copied pos x) :
    Ordered cap { r with consumer := .got (some x), seq := upd r.seq (pos % cap) (pos + cap) }
      (tr ++ [⟨.worker, .store (pos % cap) (pos + cap)⟩]) := by
  have hg := h.cons
  have hk := o.cons
  rw [hc] at hg hk
  obtain ⟨g1, g2, -⟩ := hg
  have hb : r.base = pos := by simp only [Ring.State.base, hc]
  have hl := h.low
  have hk' : Known tr .worker (pos % cap) := hk
  refine ord_store o (by omega) rfl ?_ ?_ o.prod trivial
  · intro q a1 a2
    have a2' : q < r.head + cap := a2
    by_cases hq : q = pos + cap
    · subst hq
      rw [Nat.add_mod_right]
      exact hk'.store _
    · exact (o.free q a1 (by omega)).snoc (by simp)
  · intro q a1 a2 a3
    have a1' : r.head ≤ q := a1
    have hne : q % cap ≠ pos % cap := Ring.apart h (by omega) a2 (by omega) (by omega) (by omega)
    have a3' : upd r.seq (pos % cap) (pos + cap) (q % cap) = q + 1 := a3
    rw [upd_ne _ _ hne] at a3'
    exact (o.used q a1 a2 a3').snoc (by simp)

theorem ord_other {k : Nat} (hk : 1 ≤ k) {s : State E} (h : Safe (2 ^ k) s) (o : Ordered (2 ^ k) s.ring s.events)
    {c : Ring.Cmd E} {r : Ring.State E} (hl : loads s.ring c = false) (hs : s.ring.step (2 ^ k) policy c = some r) :
    Ordered (2 ^ k) r (s.note (2 ^ k) c).events := by
  have hcap : 2 ≤ 2 ^ k := by
    have := Nat.pow_le_pow_right (n := 2) (by omega) hk
    simpa using this
  cases c with
  | emit p e =>
    simp only [Ring.State.step] at hs
    split at hs
    · cases hs; refine ord_say ?_ _; exact ord_go o trivial
    · cases hs
  | producer p b =>
    have hg := h.inv.prod p
    have hn := o.prod p
    simp only [loads] at hl
    simp only [Ring.State.step, Ring.State.produce] at hs
    simp only [State.note]
    cases hp : s.ring.producers p <;> simp only [hp, reduceCtorEq] at hs hl hg hn ⊢
    · next e pos n =>
      split at hs
      · next hn' =>
        subst hn'
        split at hs
        · next ht =>
          cases hs
          simp only [if_true, State.learn]
          exact ord_say (ord_claim hcap h.inv o hp ht.1) _
        · next ht =>
          exfalso
          apply ht
          simp only [decide_true, Bool.true_and, Bool.not_eq_false', Bool.and_eq_true, decide_eq_true_eq, Bool.not_eq_true'] at hl
          exact hl
      · next hn' =>
        rw [if_neg hn']
        split at hs <;> cases hs <;> exact ord_go o trivial
    · split at hs
      · cases hs; exact ord_go o trivial
      · cases hs; refine ord_say ?_ _; exact ord_go o trivial
    · next e pos =>
      cases hs
      simp only [State.touch, cell_eq]
      refine ord_write h.inv o hg.1 hg.2.1 hg.2.2.1 hg.2.2.2 hn rfl rfl rfl rfl ?_ ?_
      · intro q hq; simp only [Ring.State.go, upd_ne _ _ hq]
      · simp only [Ring.State.go, upd_same]; exact Known.touch hn
    · next e pos =>
      cases hs
      simp only [State.touch, cell_eq]
      refine ord_write h.inv o hg.1 hg.2.1 hg.2.2.1 hg.2.2.2 hn rfl rfl rfl rfl ?_ ?_
      · intro q hq; simp only [Ring.State.go, upd_ne _ _ hq]
      · simp only [Ring.State.go, upd_same]; exact Known.touch hn
    · next e pos =>
      cases hs
      simp only [State.store, cell_eq]
      exact ord_publish h.inv o hg.1 hg.2.1 hg.2.2.2.1 hn rfl rfl rfl rfl (prod_go o.prod trivial)
  | throws p =>
    simp only [Ring.State.step, Ring.State.fail] at hs
    split at hs
    · cases hs; refine ord_say ?_ _; exact ord_go o trivial
    · cases hs; refine ord_say ?_ _; exact ord_go o trivial
    · cases hs
  | consumer b =>
    have hg := h.inv.cons
    have hn := o.cons
    simp only [loads] at hl
    simp only [Ring.State.step, Ring.State.consume] at hs
    simp only [State.note]
    cases hc : s.ring.consumer <;> simp only [hc, reduceCtorEq] at hs hl hg hn ⊢
    · next pos n =>
      split at hs
      · next hn' =>
        subst hn'
        split at hs
        · next ht =>
          cases hs
          simp only [if_true, State.learn]
          exact ord_take hcap h.inv o hc
        · next ht =>
          exfalso
          apply ht
          simp only [decide_true, Bool.true_and, Bool.not_eq_false', Bool.and_eq_true, decide_eq_true_eq, Bool.not_eq_true'] at hl
          exact hl
      · next hn' =>
        rw [if_neg hn']
        split at hs <;> cases hs <;> exact ord_works o (by simp only [Ring.State.base, hc]) trivial
    · next pos =>
      cases hs
      simp only [State.touch, cell_eq]
      exact ord_read h.inv o (by simp only [Ring.State.base, hc]) hg.1 hg.2.1 hn rfl rfl rfl (by simp only [Ring.State.base, hc]) rfl
        (Known.touch hn)
    · next pos =>
      simp only [State.touch, cell_eq] at hs ⊢
      split at hs
      · cases hs
        exact ord_read h.inv o (by simp only [Ring.State.base, hc]) hg.1 hg.2.1 hn rfl rfl rfl (by simp only [Ring.State.base, hc]) rfl
          (Known.touch hn)
      · next hd =>
        exfalso
        have hlen := h.inv.count
        have hlow := h.inv.low
        have h2 := hg.2.2
        rw [hd] at h2
        have := List.getElem?_eq_none_iff.1 h2.symm
        have := hg.1
        omega
    · next pos x =>
      cases hs
      simp only [State.store, cell_eq]
      exact ord_back hcap h.inv o hc
    · next x =>
      cases x with
      | none =>
        simp only at hs
        split at hs <;> cases hs <;> exact ord_works o (by simp only [Ring.State.base, hc]) trivial
      | some e => cases hs; exact ord_works o (by simp only [Ring.State.base, hc]) trivial
    · cases hs; refine ord_say ?_ _; exact ord_works o (by simp only [Ring.State.base, hc]) trivial
    · cases hs; exact ord_works o (by simp only [Ring.State.base, hc]) trivial
  | consumerThrows =>
    simp only [Ring.State.step] at hs
    split at hs
    · next hc => cases hs; refine ord_say ?_ _; exact ord_works o (by simp only [Ring.State.base, hc]) trivial
    · cases hs
  | stop =>
    simp only [Ring.State.step] at hs
    split at hs
    · cases hs
    · cases hs; exact ord_quiet o rfl rfl rfl rfl o.prod o.cons
  | join =>
    simp only [Ring.State.step] at hs
    split at hs
    · cases hs; exact ord_quiet o rfl rfl rfl rfl o.prod o.cons
    · cases hs

theorem ord_run {k : Nat} (hk : 1 ≤ k) {s s' : State E} (h : Safe (2 ^ k) s) (o : Ordered (2 ^ k) s.ring s.events) {cs : List (Cmd E)}
    (hs : s.run (2 ^ k) policy cs = some s') : Ordered (2 ^ k) s'.ring s'.events := by
  induction cs generalizing s with
  | nil => cases hs; exact o
  | cons c cs ih =>
    simp only [State.run, Option.bind_eq_some_iff] at hs
    obtain ⟨m, h1, h2⟩ := hs
    refine ih (safe_step hk h h1) ?_ h2
    cases c with
    | load t v => exact ord_loads h o h1
    | other c =>
      simp only [State.step] at h1
      split at h1
      · cases h1
      · next hl =>
        obtain ⟨r, h3, rfl⟩ := Option.map_eq_some_iff.1 h1
        exact ord_other hk h o (by simpa using hl) h3

end Blackhole.RingWeak
