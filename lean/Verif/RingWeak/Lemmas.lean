import Verif.RingWeak.Model
import Verif.Ring.History

/-! # The queue on weak memory: the invariant -/

namespace Blackhole.RingWeak

open Ring (cell upd upd_same upd_ne cell_eq Inv Told CallsOf PPc CPc)

variable {E : Type} {cap : Nat} {policy : Async.Policy} {s s' : State E}

structure Safe (cap : Nat) (s : State E) : Prop where
  inv : Inv cap s.ring
  told : Told s.ring
  calls : CallsOf s.ring
  past : ∀ c, ∀ m ∈ s.past c, m.1 ≤ s.ring.seq c ∧ m.2.head ≤ s.ring.head
  views : ∀ t, (s.views t).head ≤ s.ring.head
  own : (s.views .worker).head = s.ring.head

theorem safe_init : Safe cap (State.init : State E) where
  inv := Ring.inv_init
  told := ⟨rfl, rfl⟩
  calls := fun _ => ⟨[], .none, rfl⟩
  past := fun c m hm => by
    simp only [State.init, List.mem_singleton] at hm
    subst hm
    exact ⟨Nat.le_refl _, Nat.le_refl _⟩
  views := fun _ => Nat.le_refl _
  own := rfl

/-- A producer is at another place of the same call. -/
theorem safe_go (h : Safe cap s) {p : Nat} {x : PPc E} (hx : Ring.PGood s.ring cap p x)
    (hc : x.begun p = (s.ring.producers p).begun p) : Safe cap (s.goes p x) :=
  ⟨Ring.inv_go h.inv hx, ⟨h.told.claimed, h.told.delivered⟩, Ring.calls_go h.calls hc, h.past, h.views, h.own⟩

/-- The worker is at another place, without a record. -/
theorem safe_works (h : Safe cap s) {y : CPc E} (hb : ({ s.ring with consumer := y } : Ring.State E).base = s.ring.base)
    (hy : Ring.CGood s.ring cap y) (hc : y.hand s.ring.claims = s.ring.consumer.hand s.ring.claims) : Safe cap (s.works y) :=
  ⟨Ring.inv_cons h.inv hb hy, ⟨h.told.claimed, by
    show Ring.delivered s.ring.trace ++ y.hand s.ring.claims = _
    rw [hc]; exact h.told.delivered⟩, h.calls, h.past, h.views, h.own⟩

/-- Something is learned. -/
theorem safe_learn (h : Safe cap s) {t : Thread} {w : View} {ev : List Event} (h1 : w.head ≤ s.ring.head)
    (h2 : t = .worker → w.head = s.ring.head) : Safe cap { s.learn t w with events := ev } where
  inv := h.inv
  told := h.told
  calls := h.calls
  past := h.past
  views := fun u => by
    simp only [State.learn]
    split
    · exact h1
    · exact h.views u
  own := by
    simp only [State.learn]
    split
    · next he => exact h2 he.symm
    · exact h.own

theorem safe_tail (h : Safe cap s) {t : Thread} {v : Nat} {m : State E} (hs : s.loadTail t v = some m) :
    Safe cap m ∧ m.ring = s.ring ∧ m.events = s.events ∧ v ≤ s.ring.tail := by
  simp only [State.loadTail] at hs
  split at hs
  · next hv =>
    cases hs
    exact ⟨safe_learn h (h.views t) (fun e => by subst e; exact h.own), rfl, rfl, hv.2⟩
  · cases hs

theorem safe_head (h : Safe cap s) {t : Thread} {v : Nat} {m : State E} (hs : s.loadHead t v = some m) :
    Safe cap m ∧ m.ring = s.ring ∧ m.events = s.events ∧ v ≤ s.ring.head ∧ (t = .worker → v = s.ring.head) := by
  simp only [State.loadHead] at hs
  split at hs
  · next hv =>
    cases hs
    have he : t = .worker → v = s.ring.head := fun e => by
      subst e
      have := h.own
      omega
    exact ⟨safe_learn h hv.2 he, rfl, rfl, hv.2, he⟩
  · cases hs

theorem safe_seq (h : Safe cap s) {t : Thread} {c v : Nat} {m : State E} (hs : s.loadSeq t c v = some m) :
    Safe cap m ∧ m.ring = s.ring ∧ m.events = s.events ++ [⟨t, .load c v⟩] ∧ v ≤ s.ring.seq c := by
  simp only [State.loadSeq] at hs
  split at hs
  · next x hx =>
    have hm := List.mem_of_find?_eq_some hx
    have he := List.find?_some hx
    simp only [decide_eq_true_eq] at he
    obtain ⟨p1, p2⟩ := h.past c x hm
    split at hs
    · cases hs
      refine ⟨safe_learn h ?_ ?_, rfl, rfl, by omega⟩
      · have := h.views t
        simp only [View.raise, View.join]
        omega
      · rintro rfl
        have := h.own
        simp only [View.raise, View.join]
        omega
    · cases hs
  · cases hs

/-- An old value of the sequence number is enough for a producer, as long as the position is the next one. -/
theorem next_cell (hcap : 2 ≤ cap) {r : Ring.State E} (h : Inv cap r) (hs : r.tail ≤ r.seq (r.tail % cap)) :
    r.seq (r.tail % cap) = r.tail := by
  rcases Nat.lt_or_ge r.tail (r.base + cap) with h1 | h1
  · exact h.free _ (Nat.le_refl _) h1
  · have he : r.tail = r.base + cap := Nat.le_antisymm h.high h1
    have hm : r.tail % cap = r.base % cap := by rw [he, Nat.add_mod_right]
    have := Ring.base_cell h (by omega)
    rw [hm] at hs
    omega

/-- And for the worker. -/
theorem first_cell (hcap : 2 ≤ cap) {r : Ring.State E} (h : Inv cap r) (hb : r.base = r.head)
    (hs : r.head + 1 ≤ r.seq (r.head % cap)) : r.seq (r.head % cap) = r.head + 1 := by
  rcases Nat.lt_or_ge r.head r.tail with h1 | h1
  · rcases h.used _ (Nat.le_refl _) h1 with ⟨h2, -⟩ | h2
    · exact h2
    · omega
  · have := h.free r.head h1 (by omega)
    omega

theorem safe_load {k : Nat} (hk : 1 ≤ k) (h : Safe (2 ^ k) s) {t : Thread} {v : Nat} (hs : s.load (2 ^ k) t v = some s') :
    Safe (2 ^ k) s' := by
  have hcap : 2 ≤ 2 ^ k := by
    have := Nat.pow_le_pow_right (n := 2) (by omega) hk
    simpa using this
  simp only [State.load] at hs
  split at hs
  · next p =>
    have hg := h.inv.prod p
    split at hs
    · next e hp =>
      obtain ⟨m, h1, rfl⟩ := Option.map_eq_some_iff.1 hs
      obtain ⟨i1, i2, -, i3⟩ := safe_tail h h1
      exact safe_go i1 (by rw [i2]; exact i3) (by rw [i2, hp]; rfl)
    · next e pos hp =>
      obtain ⟨m, h1, rfl⟩ := Option.map_eq_some_iff.1 hs
      obtain ⟨i1, i2, -, i3⟩ := safe_seq h h1
      rw [hp] at hg
      refine safe_go i1 ?_ (by rw [i2, hp]; rfl)
      rw [i2]
      refine ⟨hg, fun h2 h3 => ?_⟩
      rw [cell_eq] at i3
      subst h2 h3
      exact next_cell hcap h.inv i3
    · next e pos n hp =>
      split at hs
      · obtain ⟨m, h1, rfl⟩ := Option.map_eq_some_iff.1 hs
        obtain ⟨i1, i2, -, i3⟩ := safe_tail h h1
        exact safe_go i1 (by rw [i2]; exact i3) (by rw [i2, hp]; rfl)
      · cases hs
    · next e pos hp =>
      obtain ⟨m, h1, rfl⟩ := Option.map_eq_some_iff.1 hs
      obtain ⟨i1, i2, -, i3, -⟩ := safe_head h h1
      refine safe_go i1 ?_ ?_
      · split <;> exact trivial
      · rw [i2, hp]; split <;> rfl
    · cases hs
  · have hg := h.inv.cons
    split at hs
    · next hc =>
      obtain ⟨m, h1, rfl⟩ := Option.map_eq_some_iff.1 hs
      obtain ⟨i1, i2, -, i3, i4⟩ := safe_head h h1
      exact safe_works i1 (by rw [i2]; simp only [Ring.State.base, hc]) (by rw [i2]; exact i4 rfl) (by rw [i2, hc]; rfl)
    · next pos hc =>
      obtain ⟨m, h1, rfl⟩ := Option.map_eq_some_iff.1 hs
      obtain ⟨i1, i2, -, i3⟩ := safe_seq h h1
      rw [hc] at hg
      refine safe_works i1 (by rw [i2]; simp only [Ring.State.base, hc]) ?_ (by rw [i2, hc]; rfl)
      rw [i2]
      refine ⟨hg, fun h2 => ?_⟩
      rw [cell_eq] at i3
      have hg' : pos = s.ring.head := hg
      subst h2 hg'
      exact first_cell hcap h.inv (by simp only [Ring.State.base, hc]) i3
    · next pos n hc =>
      split at hs
      · obtain ⟨m, h1, rfl⟩ := Option.map_eq_some_iff.1 hs
        obtain ⟨i1, i2, -, i3, i4⟩ := safe_head h h1
        exact safe_works i1 (by rw [i2]; simp only [Ring.State.base, hc]) (by rw [i2]; exact i4 rfl) (by rw [i2, hc]; rfl)
      · cases hs
    · next pos hc =>
      obtain ⟨m, h1, rfl⟩ := Option.map_eq_some_iff.1 hs
      obtain ⟨i1, i2, -, i3⟩ := safe_tail h h1
      refine safe_works i1 ?_ ?_ ?_
      · rw [i2]; by_cases hv : pos = v <;> simp [Ring.State.base, hc, hv]
      · by_cases hv : pos = v <;> simp [hv, Ring.CGood]
      · rw [i2, hc]; by_cases hv : pos = v <;> simp [hv, CPc.hand]
    · cases hs

/-- The words of the queue only grow. -/
theorem grows {k : Nat} (hk : 1 ≤ k) {r r' : Ring.State E} (h : Inv (2 ^ k) r) {c : Ring.Cmd E}
    (hs : r.step (2 ^ k) policy c = some r') : (∀ x, r.seq x ≤ r'.seq x) ∧ r.head ≤ r'.head := by
  have hcap : 2 ≤ 2 ^ k := by
    have := Nat.pow_le_pow_right (n := 2) (by omega) hk
    simpa using this
  have up : ∀ {c v : Nat}, r.seq c ≤ v → ∀ x, r.seq x ≤ upd r.seq c v x := by
    intro c v hv x
    by_cases hx : x = c
    · subst hx; rw [upd_same]; exact hv
    · rw [upd_ne _ _ hx]; exact Nat.le_refl _
  cases c with
  | emit p e =>
    simp only [Ring.State.step] at hs
    split at hs
    · cases hs; exact ⟨fun _ => Nat.le_refl _, Nat.le_refl _⟩
    · cases hs
  | producer p b =>
    have hg := h.prod p
    simp only [Ring.State.step, Ring.State.produce] at hs
    split at hs
    case h_9 e pos hp =>
      rw [hp] at hg
      cases hs
      refine ⟨up ?_, Nat.le_refl _⟩
      have := hg.2.2.2.1
      rw [cell_eq, this]
      omega
    all_goals (repeat' split at hs) <;> first
      | (cases hs; done)
      | (cases hs; exact ⟨fun _ => Nat.le_refl _, Nat.le_refl _⟩)
  | throws p =>
    simp only [Ring.State.step, Ring.State.fail] at hs
    split at hs <;> cases hs <;> exact ⟨fun _ => Nat.le_refl _, Nat.le_refl _⟩
  | consumer b =>
    have hg := h.cons
    simp only [Ring.State.step, Ring.State.consume] at hs
    split at hs
    case h_3 pos n hc =>
      (repeat' split at hs) <;> cases hs
      · next hh => exact ⟨fun _ => Nat.le_refl _, by show r.head ≤ pos + 1; omega⟩
      all_goals exact ⟨fun _ => Nat.le_refl _, Nat.le_refl _⟩
    case h_7 pos x hc =>
      rw [hc] at hg
      cases hs
      refine ⟨up ?_, Nat.le_refl _⟩
      have := hg.2.1
      rw [cell_eq, this]
      omega
    all_goals (repeat' split at hs) <;> first
      | (cases hs; done)
      | (cases hs; exact ⟨fun _ => Nat.le_refl _, Nat.le_refl _⟩)
  | consumerThrows =>
    simp only [Ring.State.step] at hs
    split at hs
    · cases hs; exact ⟨fun _ => Nat.le_refl _, Nat.le_refl _⟩
    · cases hs
  | stop =>
    simp only [Ring.State.step] at hs
    split at hs
    · cases hs
    · cases hs; exact ⟨fun _ => Nat.le_refl _, Nat.le_refl _⟩
  | join =>
    simp only [Ring.State.step] at hs
    split at hs
    · cases hs; exact ⟨fun _ => Nat.le_refl _, Nat.le_refl _⟩
    · cases hs

/-- Everything that memory has does not depend on what only the queue has. -/
theorem safe_with {k : Nat} (hk : 1 ≤ k) (h : Safe (2 ^ k) s) {c : Ring.Cmd E} {r : Ring.State E}
    (hs : s.ring.step (2 ^ k) policy c = some r) {m : State E} (hp : ∀ x, ∀ y ∈ m.past x, y.1 ≤ r.seq x ∧ y.2.head ≤ r.head)
    (hv : ∀ t, (m.views t).head ≤ r.head) (ho : (m.views .worker).head = r.head) : Safe (2 ^ k) { m with ring := r } :=
  ⟨Ring.inv_step hk h.inv hs, Ring.told_step hk h.inv h.told hs, Ring.calls_step h.calls hs, hp, hv, ho⟩

theorem safe_other {k : Nat} (hk : 1 ≤ k) (h : Safe (2 ^ k) s) {c : Ring.Cmd E} {r : Ring.State E}
    (hl : loads s.ring c = false) (hs : s.ring.step (2 ^ k) policy c = some r) :
    Safe (2 ^ k) { s.note (2 ^ k) c with ring := r } := by
  obtain ⟨g1, g2⟩ := grows hk h.inv hs
  have past : ∀ x, ∀ y ∈ s.past x, y.1 ≤ r.seq x ∧ y.2.head ≤ r.head := fun x y hy =>
    ⟨Nat.le_trans (h.past x y hy).1 (g1 x), Nat.le_trans (h.past x y hy).2 g2⟩
  have views : ∀ t, (s.views t).head ≤ r.head := fun t => Nat.le_trans (h.views t) g2
  have same : r.head = s.ring.head → Safe (2 ^ k) { s with ring := r } := fun e =>
    safe_with hk h hs past views (by rw [e]; exact h.own)
  have touch : r.head = s.ring.head → ∀ t c, Safe (2 ^ k) { s.touch t c with ring := r } := fun e t c =>
    safe_with hk h hs past views (by rw [e]; exact h.own)
  have store : r.head = s.ring.head → ∀ t c v, r.seq c = v → Safe (2 ^ k) { s.store t c v with ring := r } := by
    intro e t c v hv
    refine safe_with hk h hs ?_ ?_ ?_
    · intro x y hy
      simp only [State.store] at hy
      by_cases hx : x = c
      · subst hx
        rw [upd_same] at hy
        rcases List.mem_append.1 hy with hy | hy
        · exact past x y hy
        · simp only [List.mem_singleton] at hy
          subst hy
          exact ⟨Nat.le_of_eq hv.symm, views t⟩
      · rw [upd_ne _ _ hx] at hy
        exact past x y hy
    · intro u
      simp only [State.store, State.learn]
      split
      · exact views t
      · exact views u
    · simp only [State.store, State.learn]
      rw [e]
      split
      · next he => rw [← he]; exact h.own
      · exact h.own
  cases c with
  | emit p e =>
    refine same ?_
    simp only [Ring.State.step] at hs
    split at hs
    · cases hs; rfl
    · cases hs
  | producer p b =>
    simp only [Ring.State.step, Ring.State.produce] at hs
    simp only [State.note]
    cases hp : s.ring.producers p <;> simp only [hp] at hs ⊢
    · cases hs
    · cases hs; exact same rfl
    · cases hs; exact same rfl
    · have hh : r.head = s.ring.head := by
        (repeat' split at hs) <;> cases hs <;> rfl
      split
      · refine safe_learn (ev := s.events) (s := { s with ring := r }) (same hh) ?_ (fun e => nomatch e)
        exact views _
      · exact same hh
    · cases hs; exact same rfl
    · have hh : r.head = s.ring.head := by
        split at hs <;> cases hs <;> rfl
      exact same hh
    · cases hs; exact touch rfl _ _
    · cases hs; exact touch rfl _ _
    · cases hs; exact store rfl _ _ _ (upd_same _ _ _)
  | throws p =>
    refine same ?_
    simp only [Ring.State.step, Ring.State.fail] at hs
    split at hs <;> cases hs <;> rfl
  | consumer b =>
    simp only [loads] at hl
    simp only [Ring.State.step, Ring.State.consume] at hs
    simp only [State.note]
    cases hc : s.ring.consumer <;> simp only [hc, reduceCtorEq] at hs hl ⊢
    · next pos n =>
      split at hs
      · next hn =>
        split at hs
        · next ht =>
          cases hs
          rw [if_pos hn]
          have hx : Safe (2 ^ k) { s.learn .worker { s.views .worker with head := pos + 1 } with
              ring := { s.ring with head := pos + 1, consumer := .taken pos } } := by
            refine safe_with (c := .consumer false) (policy := policy) hk h ?_ past ?_ ?_
            · simp only [Ring.State.step, Ring.State.consume, hc, hn, ht.1, if_true, and_self]
            · intro u
              simp only [State.learn]
              split
              · exact Nat.le_refl _
              · exact views u
            · simp only [State.learn, if_true]
          exact hx
        · next ht =>
          exfalso
          apply ht
          simp only [hn, decide_true, Bool.true_and, Bool.not_eq_false', Bool.and_eq_true, decide_eq_true_eq, Bool.not_eq_true'] at hl
          exact hl
      · next hn =>
        rw [if_neg hn]
        split at hs <;> cases hs <;> exact same rfl
    · cases hs; exact touch rfl _ _
    · have hh : r.head = s.ring.head := by
        split at hs <;> cases hs <;> rfl
      exact touch hh _ _
    · cases hs; exact store rfl _ _ _ (upd_same _ _ _)
    · next o =>
      cases o with
      | none =>
        simp only at hs
        split at hs <;> cases hs <;> exact same rfl
      | some e => cases hs; exact same rfl
    · cases hs; exact same rfl
    · cases hs; exact same rfl
  | consumerThrows =>
    refine same ?_
    simp only [Ring.State.step] at hs
    split at hs
    · cases hs; rfl
    · cases hs
  | stop =>
    refine same ?_
    simp only [Ring.State.step] at hs
    split at hs
    · cases hs
    · cases hs; rfl
  | join =>
    refine same ?_
    simp only [Ring.State.step] at hs
    split at hs
    · cases hs; rfl
    · cases hs

theorem safe_step {k : Nat} (hk : 1 ≤ k) (h : Safe (2 ^ k) s) {c : Cmd E} (hs : s.step (2 ^ k) policy c = some s') :
    Safe (2 ^ k) s' := by
  cases c with
  | load t v => exact safe_load hk h hs
  | other c =>
    simp only [State.step] at hs
    split at hs
    · cases hs
    · next hl =>
      obtain ⟨r, h1, rfl⟩ := Option.map_eq_some_iff.1 hs
      exact safe_other hk h (by simpa using hl) h1

theorem safe_run {k : Nat} {cs : List (Cmd E)} (hk : 1 ≤ k) (h : Safe (2 ^ k) s) (hs : s.run (2 ^ k) policy cs = some s') :
    Safe (2 ^ k) s' := by
  induction cs generalizing s with
  | nil => cases hs; exact h
  | cons c cs ih =>
    simp only [State.run, Option.bind_eq_some_iff] at hs
    obtain ⟨m, h1, h2⟩ := hs
    exact ih (safe_step hk h h1) h2

end Blackhole.RingWeak
