import Verif.RingWeak.Lemmas

/-! # C109: sequentially consistent memory is a special case -/

namespace Blackhole.RingWeak

open Ring (cell upd upd_same upd_ne cell_eq)

variable {E : Type} {policy : Async.Policy} {s : State E}

/-- Nobody knows more than there is, and the last value of each sequence number can be loaded. -/
structure Fresh (s : State E) : Prop where
  tails : ∀ t, (s.views t).tail ≤ s.ring.tail
  heads : ∀ t, (s.views t).head ≤ s.ring.head
  seqs : ∀ t c, (s.views t).seq c ≤ s.ring.seq c
  pasts : ∀ c, ∀ m ∈ s.past c, m.2.tail ≤ s.ring.tail ∧ m.2.head ≤ s.ring.head ∧ ∀ d, m.2.seq d ≤ s.ring.seq d
  here : ∀ c, ∃ m ∈ s.past c, m.1 = s.ring.seq c

theorem fresh_init : Fresh (State.init : State E) where
  tails := fun _ => Nat.le_refl _
  heads := fun _ => Nat.le_refl _
  seqs := fun _ _ => Nat.le_refl _
  pasts := fun c m hm => by
    simp only [State.init, List.mem_singleton] at hm
    subst hm
    exact ⟨Nat.le_refl _, Nat.le_refl _, fun _ => Nat.le_refl _⟩
  here := fun c => ⟨_, List.mem_singleton.2 rfl, rfl⟩

theorem fresh_learn (h : Fresh s) {t : Thread} {w : View} {ev : List Event} {r : Ring.State E} (hr1 : r.tail = s.ring.tail)
    (hr2 : r.head = s.ring.head) (hr3 : r.seq = s.ring.seq) (h1 : w.tail ≤ s.ring.tail) (h2 : w.head ≤ s.ring.head)
    (h3 : ∀ c, w.seq c ≤ s.ring.seq c) : Fresh { s.learn t w with events := ev, ring := r } where
  tails := fun u => by
    simp only [State.learn, hr1]
    split
    · exact h1
    · exact h.tails u
  heads := fun u => by
    simp only [State.learn, hr2]
    split
    · exact h2
    · exact h.heads u
  seqs := fun u c => by
    simp only [State.learn, hr3]
    split
    · exact h3 c
    · exact h.seqs u c
  pasts := fun c m hm => by
    simp only [hr1, hr2, hr3]
    exact h.pasts c m hm
  here := fun c => by
    simp only [hr3]
    exact h.here c

theorem fresh_tail (h : Fresh s) (t : Thread) : ∃ m, s.loadTail t s.ring.tail = some m ∧ m.ring = s.ring
    ∧ ∀ r : Ring.State E, r.tail = s.ring.tail → r.head = s.ring.head → r.seq = s.ring.seq → Fresh { m with ring := r } := by
  refine ⟨s.learn t { s.views t with tail := s.ring.tail }, if_pos ⟨h.tails t, Nat.le_refl _⟩, rfl, fun r h1 h2 h3 => ?_⟩
  exact fresh_learn h h1 h2 h3 (Nat.le_refl _) (h.heads t) (h.seqs t)

theorem fresh_head (h : Fresh s) (t : Thread) : ∃ m, s.loadHead t s.ring.head = some m ∧ m.ring = s.ring
    ∧ ∀ r : Ring.State E, r.tail = s.ring.tail → r.head = s.ring.head → r.seq = s.ring.seq → Fresh { m with ring := r } := by
  refine ⟨s.learn t { s.views t with head := s.ring.head }, if_pos ⟨h.heads t, Nat.le_refl _⟩, rfl, fun r h1 h2 h3 => ?_⟩
  exact fresh_learn h h1 h2 h3 (h.tails t) (Nat.le_refl _) (h.seqs t)

theorem fresh_seq (h : Fresh s) (t : Thread) (c : Nat) : ∃ m, s.loadSeq t c (s.ring.seq c) = some m ∧ m.ring = s.ring
    ∧ ∀ r : Ring.State E, r.tail = s.ring.tail → r.head = s.ring.head → r.seq = s.ring.seq → Fresh { m with ring := r } := by
  obtain ⟨x, hx, he⟩ := h.here c
  cases hf : (s.past c).find? (fun m => decide (m.1 = s.ring.seq c)) with
  | none => exact absurd he (by simpa using List.find?_eq_none.1 hf x hx)
  | some m =>
    obtain ⟨p1, p2, p3⟩ := h.pasts c m (List.mem_of_find?_eq_some hf)
    refine ⟨{ s.learn t (((s.views t).join m.2).raise c (s.ring.seq c)) with
        events := s.events ++ [⟨t, .load c (s.ring.seq c)⟩] },
      by simp only [State.loadSeq, hf]; exact if_pos (h.seqs t c), rfl, fun r h1 h2 h3 => ?_⟩
    refine fresh_learn h h1 h2 h3 (Nat.max_le.2 ⟨h.tails t, p1⟩) (Nat.max_le.2 ⟨h.heads t, p2⟩) fun d => ?_
    simp only [View.raise, View.join]
    by_cases hd : d = c
    · subst hd; rw [upd_same]; exact Nat.le_refl _
    · rw [upd_ne _ _ hd]; exact Nat.max_le.2 ⟨h.seqs t d, p3 d⟩

/-- Steps that are no loads. -/
theorem fresh_note (h : Fresh s) {r : Ring.State E} (g1 : s.ring.tail ≤ r.tail) (g2 : s.ring.head ≤ r.head)
    (g3 : r.seq = s.ring.seq) : Fresh { s with ring := r } where
  tails := fun t => Nat.le_trans (h.tails t) g1
  heads := fun t => Nat.le_trans (h.heads t) g2
  seqs := fun t c => by simp only [g3]; exact h.seqs t c
  pasts := fun c m hm => ⟨Nat.le_trans (h.pasts c m hm).1 g1, Nat.le_trans (h.pasts c m hm).2.1 g2, by
    simp only [g3]; exact (h.pasts c m hm).2.2⟩
  here := fun c => by simp only [g3]; exact h.here c

theorem fresh_store (h : Fresh s) {r : Ring.State E} {t : Thread} {c v : Nat} (hv : s.ring.seq c ≤ v) (g1 : r.tail = s.ring.tail)
    (g2 : r.head = s.ring.head) (g3 : r.seq = upd s.ring.seq c v) : Fresh { s.store t c v with ring := r } := by
  have up : ∀ x, s.ring.seq x ≤ r.seq x := by
    intro x
    rw [g3]
    by_cases hx : x = c
    · subst hx; rw [upd_same]; exact hv
    · rw [upd_ne _ _ hx]; exact Nat.le_refl _
  have new : ∀ d, ((s.views t).raise c v).seq d ≤ r.seq d := by
    intro d
    rw [g3]
    simp only [View.raise]
    by_cases hd : d = c
    · subst hd; rw [upd_same, upd_same]; exact Nat.le_refl _
    · rw [upd_ne _ _ hd, upd_ne _ _ hd]; exact h.seqs t d
  exact {
    tails := fun u => by
      simp only [State.store, State.learn, g1]
      split
      · exact h.tails t
      · exact h.tails u
    heads := fun u => by
      simp only [State.store, State.learn, g2]
      split
      · exact h.heads t
      · exact h.heads u
    seqs := fun u d => by
      simp only [State.store, State.learn]
      split
      · exact new d
      · exact Nat.le_trans (h.seqs u d) (up d)
    pasts := fun d m hm => by
      have old : ∀ m ∈ s.past d, m.2.tail ≤ r.tail ∧ m.2.head ≤ r.head ∧ ∀ x, m.2.seq x ≤ r.seq x := fun m hm => by
        obtain ⟨p1, p2, p3⟩ := h.pasts d m hm
        exact ⟨by omega, by omega, fun x => Nat.le_trans (p3 x) (up x)⟩
      simp only [State.store] at hm
      by_cases hd : d = c
      · subst hd
        rw [upd_same] at hm
        rcases List.mem_append.1 hm with hm | hm
        · exact old m hm
        · simp only [List.mem_singleton] at hm
          subst hm
          exact ⟨by rw [g1]; exact h.tails t, by rw [g2]; exact h.heads t, new⟩
      · rw [upd_ne _ _ hd] at hm
        exact old m hm
    here := fun d => by
      simp only [State.store, g3]
      by_cases hd : d = c
      · subst hd
        rw [upd_same, upd_same]
        exact ⟨_, List.mem_append_right _ (List.mem_singleton.2 rfl), rfl⟩
      · rw [upd_ne _ _ hd, upd_ne _ _ hd]
        exact h.here d }

theorem fresh_other {k : Nat} (hi : Ring.Inv (2 ^ k) s.ring) (hk : 1 ≤ k) (h : Fresh s) {c : Ring.Cmd E} {r : Ring.State E}
    (hl : loads s.ring c = false) (hs : s.ring.step (2 ^ k) policy c = some r) : Fresh { s.note (2 ^ k) c with ring := r } := by
  have hcap : 2 ≤ 2 ^ k := by
    have := Nat.pow_le_pow_right (n := 2) (by omega) hk
    simpa using this
  have same : r.tail = s.ring.tail → r.head = s.ring.head → r.seq = s.ring.seq → Fresh { s with ring := r } :=
    fun g1 g2 g3 => fresh_note h (by omega) (by omega) g3
  cases c with
  | emit p e =>
    simp only [Ring.State.step] at hs
    split at hs
    · cases hs; exact same rfl rfl rfl
    · cases hs
  | producer p b =>
    have hg := hi.prod p
    simp only [loads] at hl
    simp only [Ring.State.step, Ring.State.produce] at hs
    simp only [State.note]
    cases hp : s.ring.producers p <;> simp only [hp, reduceCtorEq] at hs hl hg ⊢
    · next e pos n =>
      split at hs
      · next hn =>
        rw [if_pos hn]
        split at hs
        · next ht =>
          cases hs
          have hx := fresh_note h (r := ({ s.ring with tail := pos + 1, claims := s.ring.claims ++ [(p, e)] }.go p (.claimed e pos)).say
            (.claim p e)) (by show s.ring.tail ≤ pos + 1; omega) (Nat.le_refl _) rfl
          exact fresh_learn (t := .producer p) (w := { s.views (.producer p) with tail := pos + 1 }) (ev := s.events) hx rfl rfl rfl
            (Nat.le_refl _) (h.heads _) (h.seqs _)
        · cases hs
          have hx := same rfl rfl rfl
          next ht =>
          exfalso
          apply ht
          simp only [hn, decide_true, Bool.true_and, Bool.not_eq_false', Bool.and_eq_true, decide_eq_true_eq, Bool.not_eq_true'] at hl
          exact hl
      · next hn =>
        rw [if_neg hn]
        split at hs <;> cases hs <;> exact same rfl rfl rfl
    · split at hs <;> cases hs <;> exact same rfl rfl rfl
    · cases hs
      exact fresh_note (s := s.touch _ _) ⟨h.tails, h.heads, h.seqs, h.pasts, h.here⟩ (Nat.le_refl _) (Nat.le_refl _) rfl
    · cases hs
      exact fresh_note (s := s.touch _ _) ⟨h.tails, h.heads, h.seqs, h.pasts, h.here⟩ (Nat.le_refl _) (Nat.le_refl _) rfl
    · cases hs
      refine fresh_store h ?_ rfl rfl rfl
      have := hg.2.2.2.1
      rw [cell_eq, this]
      omega
  | throws p =>
    simp only [Ring.State.step, Ring.State.fail] at hs
    split at hs <;> cases hs <;> exact same rfl rfl rfl
  | consumer b =>
    have hg := hi.cons
    simp only [loads] at hl
    simp only [Ring.State.step, Ring.State.consume] at hs
    simp only [State.note]
    cases hc : s.ring.consumer <;> simp only [hc, reduceCtorEq] at hs hl hg ⊢
    · next pos n =>
      split at hs
      · next hn =>
        rw [if_pos hn]
        split at hs
        · next ht =>
          cases hs
          have hx := fresh_note h (r := { s.ring with head := pos + 1, consumer := .taken pos }) (Nat.le_refl _)
            (by show s.ring.head ≤ pos + 1; omega) rfl
          exact fresh_learn (t := .worker) (w := { s.views .worker with head := pos + 1 }) (ev := s.events) hx rfl rfl rfl
            (h.tails _) (Nat.le_refl _) (h.seqs _)
        · next ht =>
          exfalso
          apply ht
          simp only [hn, decide_true, Bool.true_and, Bool.not_eq_false', Bool.and_eq_true, decide_eq_true_eq, Bool.not_eq_true'] at hl
          exact hl
      · next hn =>
        rw [if_neg hn]
        split at hs <;> cases hs <;> exact same rfl rfl rfl
    · cases hs
      exact fresh_note (s := s.touch _ _) ⟨h.tails, h.heads, h.seqs, h.pasts, h.here⟩ (Nat.le_refl _) (Nat.le_refl _) rfl
    · split at hs <;> cases hs <;>
      exact fresh_note (s := s.touch _ _) ⟨h.tails, h.heads, h.seqs, h.pasts, h.here⟩ (Nat.le_refl _) (Nat.le_refl _) rfl
    · cases hs
      refine fresh_store h ?_ rfl rfl rfl
      have := hg.2.1
      rw [cell_eq, this]
      omega
    · next x =>
      cases x with
      | none =>
        simp only at hs
        split at hs <;> cases hs <;> exact same rfl rfl rfl
      | some e => cases hs; exact same rfl rfl rfl
    · cases hs; exact same rfl rfl rfl
    · cases hs; exact same rfl rfl rfl
  | consumerThrows =>
    simp only [Ring.State.step] at hs
    split at hs
    · cases hs; exact same rfl rfl rfl
    · cases hs
  | stop =>
    simp only [Ring.State.step] at hs
    split at hs
    · cases hs
    · cases hs; exact same rfl rfl rfl
  | join =>
    simp only [Ring.State.step] at hs
    split at hs
    · cases hs; exact same rfl rfl rfl
    · cases hs

/-- A load that returns the last value does what the load of `Verif.Ring` does. -/
theorem fresh_load {k : Nat} (h : Fresh s) {c : Ring.Cmd E} {r : Ring.State E} (hl : loads s.ring c = true)
    (hs : s.ring.step (2 ^ k) policy c = some r) : ∃ t v s', s.load (2 ^ k) t v = some s' ∧ s'.ring = r ∧ Fresh s' := by
  cases c with
  | producer p b =>
    simp only [loads] at hl
    simp only [Ring.State.step, Ring.State.produce] at hs
    cases hp : s.ring.producers p <;> simp only [hp, reduceCtorEq, Bool.false_eq_true] at hs hl
    · cases hs
      obtain ⟨m, h1, h2, h3⟩ := fresh_tail h (.producer p)
      refine ⟨.producer p, s.ring.tail, _, by simp only [State.load, hp]; rw [h1]; rfl, by simp only [State.goes, h2], ?_⟩
      exact h3 _ (by rw [h2]; rfl) (by rw [h2]; rfl) (by rw [h2]; rfl)
    · next e pos =>
      cases hs
      obtain ⟨m, h1, h2, h3⟩ := fresh_seq h (.producer p) (cell (2 ^ k) pos)
      refine ⟨.producer p, s.ring.seq (cell (2 ^ k) pos), _, by simp only [State.load, hp]; rw [h1]; rfl, by simp only [State.goes, h2], ?_⟩
      exact h3 _ (by rw [h2]; rfl) (by rw [h2]; rfl) (by rw [h2]; rfl)
    · next e pos n =>
      simp only [Bool.and_eq_true, decide_eq_true_eq, Bool.not_eq_true', Bool.and_eq_false_iff, decide_eq_false_iff_not,
        Bool.not_eq_false'] at hl
      rw [if_pos hl.1, if_neg (by rintro ⟨h1, h2⟩; rcases hl.2 with h3 | h3 <;> simp_all)] at hs
      cases hs
      obtain ⟨m, h1, h2, h3⟩ := fresh_tail h (.producer p)
      refine ⟨.producer p, s.ring.tail, _, by simp only [State.load, hp]; rw [if_pos hl.1, h1]; rfl,
        by simp only [State.goes, h2], ?_⟩
      exact h3 _ (by rw [h2]; rfl) (by rw [h2]; rfl) (by rw [h2]; rfl)
    · cases hs
      obtain ⟨m, h1, h2, h3⟩ := fresh_head h (.producer p)
      refine ⟨.producer p, s.ring.head, _, by simp only [State.load, hp]; rw [h1]; rfl, by simp only [State.goes, h2], ?_⟩
      exact h3 _ (by rw [h2]; rfl) (by rw [h2]; rfl) (by rw [h2]; rfl)
  | consumer b =>
    simp only [loads] at hl
    simp only [Ring.State.step, Ring.State.consume] at hs
    cases hc : s.ring.consumer <;> simp only [hc, reduceCtorEq, Bool.false_eq_true] at hs hl
    · cases hs
      obtain ⟨m, h1, h2, h3⟩ := fresh_head h .worker
      refine ⟨.worker, s.ring.head, _, by simp only [State.load, hc]; rw [h1]; rfl, by simp only [State.works, h2], ?_⟩
      exact h3 _ (by rw [h2]) (by rw [h2]) (by rw [h2])
    · next pos =>
      cases hs
      obtain ⟨m, h1, h2, h3⟩ := fresh_seq h .worker (cell (2 ^ k) pos)
      refine ⟨.worker, s.ring.seq (cell (2 ^ k) pos), _, by simp only [State.load, hc]; rw [h1]; rfl, by simp only [State.works, h2], ?_⟩
      exact h3 _ (by rw [h2]) (by rw [h2]) (by rw [h2])
    · next pos n =>
      simp only [Bool.and_eq_true, decide_eq_true_eq, Bool.not_eq_true', Bool.and_eq_false_iff, decide_eq_false_iff_not,
        Bool.not_eq_false'] at hl
      rw [if_pos hl.1, if_neg (by rintro ⟨h1, h2⟩; rcases hl.2 with h3 | h3 <;> simp_all)] at hs
      cases hs
      obtain ⟨m, h1, h2, h3⟩ := fresh_head h .worker
      refine ⟨.worker, s.ring.head, _, by simp only [State.load, hc]; rw [if_pos hl.1, h1]; rfl,
        by simp only [State.works, h2], ?_⟩
      exact h3 _ (by rw [h2]) (by rw [h2]) (by rw [h2])
    · cases hs
      obtain ⟨m, h1, h2, h3⟩ := fresh_tail h .worker
      refine ⟨.worker, s.ring.tail, _, by simp only [State.load, hc]; rw [h1]; rfl, by simp only [State.works, h2], ?_⟩
      exact h3 _ (by rw [h2]) (by rw [h2]) (by rw [h2])
  | _ => cases hl

/-- **C109.** What the queue can do on sequentially consistent memory (`Verif.Ring`), it can do here, too. -/
theorem C109_includes {k : Nat} (hk : 1 ≤ k) {cs : List (Ring.Cmd E)} {r : Ring.State E}
    (hs : (Ring.State.init : Ring.State E).run (2 ^ k) policy cs = some r) :
    ∃ ds s, (State.init : State E).run (2 ^ k) policy ds = some s ∧ s.ring = r := by
  have all : ∀ (cs : List (Ring.Cmd E)) (s : State E), Ring.Inv (2 ^ k) s.ring → Fresh s →
      s.ring.run (2 ^ k) policy cs = some r → ∃ ds s', s.run (2 ^ k) policy ds = some s' ∧ s'.ring = r := by
    intro cs
    induction cs with
    | nil =>
      intro s _ _ hs
      cases hs
      exact ⟨[], s, rfl, rfl⟩
    | cons c cs ih =>
      intro s hi hf hs
      simp only [Ring.State.run, Option.bind_eq_some_iff] at hs
      obtain ⟨m, h1, h2⟩ := hs
      have hm := Ring.inv_step hk hi h1
      have : ∃ d s', s.step (2 ^ k) policy d = some s' ∧ s'.ring = m ∧ Fresh s' := by
        cases hl : loads s.ring c with
        | true =>
          obtain ⟨t, v, s', g1, g2, g3⟩ := fresh_load hf hl h1
          exact ⟨.load t v, s', g1, g2, g3⟩
        | false =>
          refine ⟨.other c, { s.note (2 ^ k) c with ring := m }, ?_, rfl, fresh_other hi hk hf hl h1⟩
          simp only [State.step, hl, h1, Bool.false_eq_true, if_false, Option.map_some]
      obtain ⟨d, s', g1, rfl, g3⟩ := this
      obtain ⟨ds, s'', i1, i2⟩ := ih s' hm g3 h2
      exact ⟨d :: ds, s'', by simp only [State.run, g1, Option.bind_some]; exact i1, i2⟩
  exact all cs State.init Ring.inv_init fresh_init hs

end Blackhole.RingWeak
