import Verif.Ring.History

/-! # The queue inside the asynchronous sink: everything can be finished -/

namespace Blackhole.Ring
variable {E : Type} {policy : Async.Policy} {s s' : State E}

theorem run_append {cap : Nat} (cs ds : List (Cmd E)) :
    s.run cap policy (cs ++ ds) = (s.run cap policy cs).bind (·.run cap policy ds) := by
  induction cs generalizing s with
  | nil => rfl
  | cons c cs ih =>
    simp only [List.cons_append, State.run]
    cases s.step cap policy c with
    | none => rfl
    | some b => exact ih

/-- Every position that is claimed and not filled belongs to a call that goes on. -/
def Owned (cap : Nat) (s : State E) : Prop :=
  ∀ q, s.head ≤ q → q < s.tail → s.seq (q % cap) = q → ∃ p e, (s.producers p).place = some (e, q)

/-- The place of a producer that goes on does not change what others own. -/
theorem owned_go {cap : Nat} (h : Owned cap s) {p : Nat} {x : PPc E} (hx : x.place = (s.producers p).place) :
    Owned cap (s.go p x) := by
  intro q h1 h2 h3
  obtain ⟨r, e, hr⟩ := h q h1 h2 h3
  refine ⟨r, e, ?_⟩
  simp only [State.go]
  by_cases hq : r = p
  · subst hq; rw [upd_same, hx]; exact hr
  · rw [upd_ne _ _ hq]; exact hr

theorem owned_same {cap : Nat} {t : State E} (h : Owned cap s) (h1 : t.seq = s.seq) (h2 : t.head = s.head)
    (h3 : t.tail = s.tail) (h4 : t.producers = s.producers) : Owned cap t := by
  unfold Owned
  rw [h1, h2, h3, h4]
  exact h

theorem owned_step {k : Nat} {c : Cmd E} (hk : 1 ≤ k) (h : Inv (2 ^ k) s) (ho : Owned (2 ^ k) s) (hc : ∀ p, c ≠ .throws p)
    (hs : s.step (2 ^ k) policy c = some s') : Owned (2 ^ k) s' := by
  have hcap : 2 ≤ 2 ^ k := by
    have := Nat.pow_le_pow_right (n := 2) (by omega) hk
    simpa using this
  have hb := base_le h
  cases c with
  | emit p e =>
    simp only [State.step] at hs
    split at hs
    · rename_i hp
      cases hs
      exact owned_same (owned_go ho (x := .start e) (by rw [hp]; rfl)) rfl rfl rfl rfl
    · cases hs
  | producer p b =>
    simp only [State.step, State.produce] at hs
    split at hs
    · cases hs
    · rename_i hp
      cases hs; exact owned_go ho (by rw [hp]; rfl)
    · rename_i hp
      cases hs; exact owned_go ho (by rw [hp]; rfl)
    · rename_i e pos n hp
      split at hs
      · split at hs
        · rename_i ht
          cases hs
          intro q h1 h2 h3
          simp only [State.say, State.go] at h1 h2 h3 ⊢
          by_cases hq : q < s.tail
          · obtain ⟨r, e', hr⟩ := ho q h1 hq h3
            refine ⟨r, e', ?_⟩
            by_cases hrp : r = p
            · subst hrp; rw [hp] at hr; cases hr
            · rw [upd_ne _ _ hrp]; exact hr
          · refine ⟨p, e, ?_⟩
            rw [upd_same]
            have : q = pos := by omega
            rw [this]; rfl
        · cases hs; exact owned_go ho (by rw [hp]; rfl)
      · split at hs
        · cases hs; exact owned_go ho (by rw [hp]; rfl)
        · cases hs; exact owned_go ho (by rw [hp]; rfl)
    · rename_i hp
      cases hs
      refine owned_go ho ?_
      rw [hp]
      split <;> rfl
    · rename_i hp
      split at hs
      · cases hs; exact owned_go ho (by rw [hp]; rfl)
      · cases hs
        exact owned_same (owned_go ho (x := .idle) (by rw [hp]; rfl)) rfl rfl rfl rfl
    · rename_i e pos hp
      cases hs
      exact owned_go (s := { s with data := upd s.data (cell (2 ^ k) pos) none }) (owned_same ho rfl rfl rfl rfl)
        (by simp only [hp]; rfl)
    · rename_i e pos hp
      cases hs
      exact owned_go (s := { s with data := upd s.data (cell (2 ^ k) pos) (some (p, e)) }) (owned_same ho rfl rfl rfl rfl)
        (by simp only [hp]; rfl)
    · rename_i e pos hp
      cases hs
      have hg := h.prod p
      rw [hp] at hg
      obtain ⟨g1, g2, g3, g4, g5⟩ := hg
      intro q h1 h2 h3
      simp only [State.say, State.go, cell_eq] at h1 h2 h3 ⊢
      by_cases hq : q = pos
      · subst hq
        rw [upd_same] at h3
        omega
      · rw [upd_ne _ _ (apart h (by omega) h2 g1 g2 hq)] at h3
        obtain ⟨r, e', hr⟩ := ho q h1 h2 h3
        refine ⟨r, e', ?_⟩
        by_cases hrp : r = p
        · subst hrp
          rw [hp] at hr
          simp only [PPc.place, Option.some.injEq, Prod.mk.injEq] at hr
          exact absurd hr.2.symm hq
        · rw [upd_ne _ _ hrp]; exact hr
  | throws p => exact absurd rfl (hc p)
  | consumer b =>
    have hg := h.cons
    simp only [State.step, State.consume] at hs
    split at hs
    · cases hs; exact owned_same ho rfl rfl rfl rfl
    · cases hs; exact owned_same ho rfl rfl rfl rfl
    · rename_i pos n hcc
      split at hs
      · split at hs
        · rename_i ht
          cases hs
          intro q h1 h2 h3
          exact ho q (by simp only at h1; omega) h2 h3
        · cases hs; exact owned_same ho rfl rfl rfl rfl
      · split at hs
        · cases hs; exact owned_same ho rfl rfl rfl rfl
        · cases hs; exact owned_same ho rfl rfl rfl rfl
    · cases hs; exact owned_same ho rfl rfl rfl rfl
    · cases hs; exact owned_same ho rfl rfl rfl rfl
    · split at hs
      · cases hs; exact owned_same ho rfl rfl rfl rfl
      · cases hs; exact owned_same ho rfl rfl rfl rfl
    · rename_i pos x hcc
      cases hs
      rw [hcc] at hg
      obtain ⟨g1, g2, g3⟩ := hg
      have hbs : s.base = pos := by rw [State.base, hcc]
      intro q h1 h2 h3
      simp only [cell_eq] at h1 h2 h3 ⊢
      rw [upd_ne _ _ (apart h (by omega) h2 (q' := pos) (by omega) (by omega) (by omega))] at h3
      exact ho q h1 h2 h3
    · split at hs
      · cases hs; exact owned_same ho rfl rfl rfl rfl
      · cases hs; exact owned_same ho rfl rfl rfl rfl
    · cases hs; exact owned_same ho rfl rfl rfl rfl
    · cases hs; exact owned_same ho rfl rfl rfl rfl
    · cases hs; exact owned_same ho rfl rfl rfl rfl
    · cases hs
    · cases hs
    · cases hs
  | consumerThrows =>
    simp only [State.step] at hs
    split at hs
    · cases hs; exact owned_same ho rfl rfl rfl rfl
    · cases hs
  | stop =>
    simp only [State.step] at hs
    split at hs
    · cases hs
    · cases hs; exact owned_same ho rfl rfl rfl rfl
  | join =>
    simp only [State.step] at hs
    split at hs
    · cases hs; exact owned_same ho rfl rfl rfl rfl
    · cases hs

/-- What a state of an execution without failures is known to be. -/
structure Sound (k : Nat) (s : State E) : Prop where
  inv : Inv (2 ^ k) s
  told : Told s
  owned : Owned (2 ^ k) s

theorem sound_init {k : Nat} : Sound k (State.init : State E) :=
  ⟨inv_init, ⟨rfl, rfl⟩, fun _ _ h => absurd h (Nat.not_lt_zero _)⟩

theorem sound_step {k : Nat} {c : Cmd E} (hk : 1 ≤ k) (h : Sound k s) (hc : ∀ p, c ≠ .throws p)
    (hs : s.step (2 ^ k) policy c = some s') : Sound k s' :=
  ⟨inv_step hk h.inv hs, told_step hk h.inv h.told hs, owned_step hk h.inv h.owned hc hs⟩

theorem sound_run {k : Nat} {cs : List (Cmd E)} (hk : 1 ≤ k) (h : Sound k s) (hf : NoFailure cs)
    (hs : s.run (2 ^ k) policy cs = some s') : Sound k s' := by
  induction cs generalizing s with
  | nil => cases hs; exact h
  | cons c cs ih =>
    simp only [State.run, Option.bind_eq_some_iff] at hs
    obtain ⟨m, h1, h2⟩ := hs
    exact ih (sound_step hk h (fun p e => hf p (by simp [e])) h1) (fun p hp => hf p (by simp [hp])) h2

/-- Some finishing steps lead to a state where the same has been claimed and the destructor has not begun. -/
def Reaches (k : Nat) (policy : Async.Policy) (s s' : State E) : Prop :=
  ∃ cs, (∀ c ∈ cs, c.finishing = true) ∧ s.run (2 ^ k) policy cs = some s' ∧ s'.claims = s.claims ∧ s'.stopped = s.stopped

theorem Reaches.refl {k : Nat} : Reaches k policy s s := ⟨[], by simp, rfl, rfl, rfl⟩

theorem Reaches.trans {k : Nat} {a b c : State E} (h1 : Reaches k policy a b) (h2 : Reaches k policy b c) :
    Reaches k policy a c := by
  obtain ⟨cs, a1, a2, a3, a4⟩ := h1
  obtain ⟨ds, b1, b2, b3, b4⟩ := h2
  refine ⟨cs ++ ds, ?_, by rw [run_append, a2]; exact b2, b3.trans a3, b4.trans a4⟩
  intro c hc
  rcases List.mem_append.1 hc with hc | hc
  · exact a1 c hc
  · exact b1 c hc

theorem Reaches.one {k : Nat} (c : Cmd E) (hc : c.finishing = true) (hs : s.step (2 ^ k) policy c = some s')
    (h1 : s'.claims = s.claims) (h2 : s'.stopped = s.stopped) : Reaches k policy s s' :=
  ⟨[c], by simpa using hc, by simp [State.run, hs], h1, h2⟩

theorem Reaches.sound {k : Nat} (hk : 1 ≤ k) (h : Reaches k policy s s') (hs : Sound k s) : Sound k s' := by
  obtain ⟨cs, h1, h2, -⟩ := h
  refine sound_run hk hs ?_ h2
  intro p hp
  have := h1 _ hp
  cases this

/-- How far the worker is from the beginning of its loop. -/
def CPc.rank : CPc E → Nat
  | .loop => 0
  | .sleep => 1
  | .got none => 2
  | .deliver _ => 3
  | .got (some _) => 4
  | .copied _ _ => 5
  | .reading _ => 6
  | .taken _ => 7
  | .behind _ => 8
  | .seen _ _ => 9
  | .loaded _ => 10
  | _ => 0

/-- The worker goes on. -/
def CPc.working : CPc E → Bool
  | .exited | .terminated | .corrupt => false
  | _ => true

/-- The worker can come back to the beginning of its loop. -/
theorem to_loop {k : Nat} (hk : 1 ≤ k) : ∀ (n : Nat) (s : State E), s.consumer.rank ≤ n → Sound k s → s.stopped = false →
    s.consumer.working = true → ∃ s', Reaches k policy s s' ∧ s'.consumer = .loop ∧ s.head ≤ s'.head ∧ s'.tail = s.tail := by
  intro n
  induction n with
  | zero =>
    intro s hr _ _ hw
    refine ⟨s, .refl, ?_, Nat.le_refl _, rfl⟩
    cases hc : s.consumer <;> rw [hc] at hr hw <;> first | rfl | (simp [CPc.rank, CPc.working] at hr hw; done) | skip
    rename_i o
    cases o <;> simp [CPc.rank] at hr
  | succ n ih =>
    intro s hr hs hst hw
    have next : ∀ {t : State E}, s.step (2 ^ k) policy (.consumer false) = some t → t.claims = s.claims →
        t.stopped = s.stopped → s.head ≤ t.head → t.tail = s.tail → t.consumer.rank ≤ n → t.consumer.working = true →
        ∃ s', Reaches k policy s s' ∧ s'.consumer = .loop ∧ s.head ≤ s'.head ∧ s'.tail = s.tail := by
      intro t h1 h2 h3 h4 h5 h6 h7
      have ht := sound_step hk hs (by simp) h1
      obtain ⟨s', r, l, m, m'⟩ := ih t h6 ht (by rw [h3]; exact hst) h7
      exact ⟨s', (Reaches.one _ rfl h1 h2 h3).trans r, l, by omega, by omega⟩
    have hg := hs.inv.cons
    have hcount := hs.inv.count
    have hlow := hs.inv.low
    cases hc : s.consumer with
    | loop => exact ⟨s, .refl, hc, Nat.le_refl _, rfl⟩
    | loaded pos =>
      rw [hc] at hr
      exact next (t := { s with consumer := .seen pos (s.seq (cell (2 ^ k) pos)) }) (by simp [State.step, State.consume, hc])
        rfl rfl (Nat.le_refl _) rfl (by simp [CPc.rank] at hr ⊢; omega) rfl
    | seen pos m =>
      rw [hc] at hr hg
      obtain ⟨g1, g2⟩ := hg
      by_cases hm : m = pos + 1
      · exact next (t := { s with head := pos + 1, consumer := .taken pos })
          (by simp [State.step, State.consume, hc, hm, g1.symm]) rfl rfl (by simp only; omega) rfl
          (by simp [CPc.rank] at hr ⊢; omega) rfl
      · by_cases hl : m < pos + 1
        · exact next (t := { s with consumer := .behind pos }) (by simp [State.step, State.consume, hc, hm, hl])
            rfl rfl (Nat.le_refl _) rfl (by simp [CPc.rank] at hr ⊢; omega) rfl
        · exact next (t := { s with consumer := .loop }) (by simp [State.step, State.consume, hc, hm, hl])
            rfl rfl (Nat.le_refl _) rfl (by simp [CPc.rank]) rfl
    | behind pos =>
      rw [hc] at hr
      by_cases ht : pos = s.tail
      · exact next (t := { s with consumer := .got none }) (by simp [State.step, State.consume, hc, ht])
          rfl rfl (Nat.le_refl _) rfl (by simp [CPc.rank] at hr ⊢; omega) rfl
      · exact next (t := { s with consumer := .loop }) (by simp [State.step, State.consume, hc, ht])
          rfl rfl (Nat.le_refl _) rfl (by simp [CPc.rank]) rfl
    | taken pos =>
      rw [hc] at hr
      exact next (t := { s with consumer := .reading pos }) (by simp [State.step, State.consume, hc])
        rfl rfl (Nat.le_refl _) rfl (by simp [CPc.rank] at hr ⊢; omega) rfl
    | reading pos =>
      rw [hc] at hr hg
      obtain ⟨g1, g2, g3⟩ := hg
      have hd : s.data (pos % 2 ^ k) = some (s.claims[pos]'(by omega)) := by
        rw [g3, List.getElem?_eq_getElem]
      exact next (t := { s with consumer := .copied pos (s.claims[pos]'(by omega)), data := upd s.data (pos % 2 ^ k) none })
        (by simp [State.step, State.consume, hc, cell_eq, hd])
        rfl rfl (Nat.le_refl _) rfl (by simp [CPc.rank] at hr ⊢; omega) rfl
    | copied pos x =>
      rw [hc] at hr
      exact next (t := { s with consumer := .got (some x), seq := upd s.seq (cell (2 ^ k) pos) (pos + 2 ^ k) })
        (by simp [State.step, State.consume, hc])
        rfl rfl (Nat.le_refl _) rfl (by simp [CPc.rank] at hr ⊢; omega) rfl
    | got o =>
      rw [hc] at hr
      cases o with
      | none =>
        exact next (t := { s with consumer := .sleep }) (by simp [State.step, State.consume, hc, hst])
          rfl rfl (Nat.le_refl _) rfl (by simp [CPc.rank] at hr ⊢; omega) rfl
      | some x =>
        exact next (t := { s with consumer := .deliver x }) (by simp [State.step, State.consume, hc])
          rfl rfl (Nat.le_refl _) rfl (by simp [CPc.rank] at hr ⊢; omega) rfl
    | deliver x =>
      rw [hc] at hr
      exact next (t := { s with consumer := .loop }.say (.deliver x.1 x.2)) (by simp [State.step, State.consume, hc])
        rfl rfl (Nat.le_refl _) rfl (by simp [CPc.rank, State.say]) rfl
    | sleep =>
      exact next (t := { s with consumer := .loop }) (by simp [State.step, State.consume, hc])
        rfl rfl (Nat.le_refl _) rfl (by simp [CPc.rank]) rfl
    | exited => rw [hc] at hw; cases hw
    | terminated => rw [hc] at hw; cases hw
    | corrupt => rw [hc] at hw; cases hw

/-- A call that has a place can fill it. -/
theorem fill {k p pos : Nat} {e : E} (hp : (s.producers p).place = some (e, pos)) :
    ∃ s', Reaches k policy s s' ∧ s'.consumer = s.consumer ∧ s'.head = s.head ∧ s'.tail = s.tail ∧
      s'.seq (cell (2 ^ k) pos) = pos + 1 := by
  have last : ∀ (t : State E), t.producers p = .written e pos → ∃ s', Reaches k policy t s' ∧ s'.consumer = t.consumer ∧
      s'.head = t.head ∧ s'.tail = t.tail ∧ s'.seq (cell (2 ^ k) pos) = pos + 1 := by
    intro t ht
    refine ⟨({ t with seq := upd t.seq (cell (2 ^ k) pos) (pos + 1) }.go p .idle).say (.returned p e), ?_, rfl, rfl, rfl,
      upd_same ..⟩
    exact Reaches.one (.producer p false) rfl (by simp only [State.step, State.produce, ht]) rfl rfl
  have second : ∀ (t : State E), t.producers p = .writing e pos → ∃ s', Reaches k policy t s' ∧ s'.consumer = t.consumer ∧
      s'.head = t.head ∧ s'.tail = t.tail ∧ s'.seq (cell (2 ^ k) pos) = pos + 1 := by
    intro t ht
    obtain ⟨s', r, a, b, c, d⟩ := last ({ t with data := upd t.data (cell (2 ^ k) pos) (some (p, e)) }.go p (.written e pos))
      (upd_same ..)
    refine ⟨s', ?_, a, b, c, d⟩
    refine Reaches.trans ?_ r
    exact Reaches.one (.producer p false) rfl (by simp only [State.step, State.produce, ht]) rfl rfl
  cases hx : s.producers p <;> rw [hx] at hp <;> simp only [PPc.place, Option.some.injEq, Prod.mk.injEq, reduceCtorEq] at hp <;>
    obtain ⟨rfl, rfl⟩ := hp
  · rename_i e pos
    obtain ⟨s', r, a, b, c, d⟩ := second ({ s with data := upd s.data (cell (2 ^ k) pos) none }.go p (.writing e pos))
      (upd_same ..)
    refine ⟨s', ?_, a, b, c, d⟩
    refine Reaches.trans ?_ r
    exact Reaches.one (.producer p false) rfl (by simp only [State.step, State.produce, hx]) rfl rfl
  · exact second s hx
  · exact last s hx

/-- Everything that is claimed can be delivered. -/
theorem drain {k : Nat} (hk : 1 ≤ k) : ∀ (n : Nat) (s : State E), s.tail - s.head ≤ n → Sound k s → s.stopped = false →
    s.consumer = .loop →
    ∃ s', Reaches k policy s s' ∧ delivered s'.trace = s.claims ∧ s'.consumer = .loop ∧ s'.head = s'.tail := by
  intro n
  induction n with
  | zero =>
    intro s hn hs hst hc
    refine ⟨s, .refl, ?_, hc, by have := hs.inv.low; omega⟩
    have := hs.told.delivered
    rw [hc, List.take_of_length_le (by have := hs.inv.count; omega)] at this
    simpa [CPc.hand] using this
  | succ n ih =>
    intro s hn hs hst hc
    by_cases he : s.tail ≤ s.head
    · refine ⟨s, .refl, ?_, hc, by have := hs.inv.low; omega⟩
      have := hs.told.delivered
      rw [hc, List.take_of_length_le (by have := hs.inv.count; omega)] at this
      simpa [CPc.hand] using this
    · have key : ∀ t : State E, Sound k t → t.stopped = false → t.consumer = .loop → t.head = s.head → t.tail = s.tail →
          t.seq (t.head % 2 ^ k) = t.head + 1 → 
          ∃ s', Reaches k policy t s' ∧ delivered s'.trace = t.claims ∧ s'.consumer = .loop ∧ s'.head = s'.tail := by
        intro t ht h1 h2 h3 h4 h5
        let t1 : State E := { t with consumer := .loaded t.head }
        let t2 : State E := { t with consumer := .seen t.head (t.head + 1) }
        let t3 : State E := { t with head := t.head + 1, consumer := .taken t.head }
        have r1 : Reaches k policy t t1 :=
          .one (.consumer false) rfl (by simp [State.step, State.consume, h2, t1]) rfl rfl
        have r2 : Reaches k policy t1 t2 :=
          .one (.consumer false) rfl (by simp [State.step, State.consume, t1, t2, cell_eq, h5]) rfl rfl
        have r3 : Reaches k policy t2 t3 :=
          .one (.consumer false) rfl (by simp [State.step, State.consume, t2, t3]) rfl rfl
        have r := (r1.trans r2).trans r3
        have s3 := r.sound hk ht
        obtain ⟨t4, r4, l4, m4, n4⟩ := to_loop hk (policy := policy) _ t3 (Nat.le_refl _) s3 h1 rfl
        have m4 : t.head + 1 ≤ t4.head := m4
        have n4 : t4.tail = t.tail := n4
        have s4 := r4.sound hk s3
        have r4' := r4
        obtain ⟨-, -, -, c4, d4⟩ := r4
        have c4 : t4.claims = t.claims := c4
        obtain ⟨s', r5, d5, e5⟩ := ih t4 (by omega) s4 (by rw [d4]; exact h1) l4
        exact ⟨s', (r.trans r4').trans r5, by rw [d5, c4], e5⟩
      rcases hs.inv.used s.head (Nat.le_refl _) (by omega) with h1 | h1
      · exact key s hs hst hc rfl rfl h1.1
      · obtain ⟨p, e, hp⟩ := hs.owned s.head (Nat.le_refl _) (by omega) h1
        obtain ⟨t, r, a, b, c, d⟩ := fill (k := k) (policy := policy) hp
        have ht := r.sound hk hs
        have hr := r
        obtain ⟨-, -, -, c1, d1⟩ := r
        rw [cell_eq] at d
        obtain ⟨s', r', d', e'⟩ := key t ht (by rw [d1]; exact hst) (by rw [a]; exact hc) b c (by rw [b]; exact d)
        exact ⟨s', hr.trans r', by rw [d', c1], e'⟩

theorem joined_step {cap : Nat} {c : Cmd E} (h : s.joined = true → s.stopped = true) (hs : s.step cap policy c = some s') :
    s'.joined = true → s'.stopped = true := by
  cases c <;> simp only [State.step, State.produce, State.fail, State.consume] at hs <;> (repeat' split at hs) <;> first
    | (cases hs; done)
    | (cases hs; exact h)
    | (cases hs; intro _; first | assumption | rfl)

theorem exited_step {cap : Nat} {c : Cmd E} (h : s.consumer = .exited → s.stopped = true) (hs : s.step cap policy c = some s') :
    s'.consumer = .exited → s'.stopped = true := by
  cases c <;> simp only [State.step, State.produce, State.fail, State.consume] at hs <;> (repeat' split at hs) <;> first
    | (cases hs; done)
    | (cases hs; exact h)
    | (cases hs; intro hc; cases hc; done)
    | (cases hs; intro hc; first | assumption | rfl)
    | (cases hs; intro hc; simp only at hc; split at hc <;> cases hc)

theorem exited_run {cap : Nat} {cs : List (Cmd E)} (h : s.consumer = .exited → s.stopped = true)
    (hs : s.run cap policy cs = some s') : s'.consumer = .exited → s'.stopped = true := by
  induction cs generalizing s with
  | nil => cases hs; exact h
  | cons c cs ih =>
    simp only [State.run, Option.bind_eq_some_iff] at hs
    obtain ⟨m, h1, h2⟩ := hs
    exact ih (exited_step h h1) h2

theorem joined_run {cap : Nat} {cs : List (Cmd E)} (h : s.joined = true → s.stopped = true)
    (hs : s.run cap policy cs = some s') : s'.joined = true → s'.stopped = true := by
  induction cs generalizing s with
  | nil => cases hs; exact h
  | cons c cs ih =>
    simp only [State.run, Option.bind_eq_some_iff] at hs
    obtain ⟨m, h1, h2⟩ := hs
    exact ih (joined_step h h1) h2

/-- Once everything is delivered, the destructor can return. -/
theorem close {k : Nat} (h : Inv (2 ^ k) s) (hst : s.stopped = false) (hj : s.joined = false) (hc : s.consumer = .loop)
    (he : s.head = s.tail) :
    ∃ s', s.run (2 ^ k) policy [.stop, .consumer false, .consumer false, .consumer false, .consumer false, .consumer false, .join]
      = some s' ∧ s'.trace = s.trace ++ [.stop, .destroyed] := by
  have hf : s.seq (cell (2 ^ k) s.tail) = s.tail := by
    rw [cell_eq]
    refine h.free _ (Nat.le_refl _) ?_
    have : s.base = s.head := by rw [State.base, hc]
    have := Nat.two_pow_pos k
    omega
  refine ⟨{ ({ s with stopped := true }.say .stop) with consumer := .exited, joined := true }.say .destroyed, ?_, ?_⟩
  · simp [State.run, State.step, State.consume, State.say, hst, hj, hc, he, hf]
  · simp [State.say]

/-- Before the destructor, all that has a place can be delivered. -/
theorem drain_init {k : Nat} {cs : List (Cmd E)} (hk : 1 ≤ k) (hs : (State.init : State E).run (2 ^ k) policy cs = some s)
    (hf : NoFailure cs) (hst : s.stopped = false) (ht : s.consumer ≠ .terminated) :
    ∃ t, Reaches k policy s t ∧ Sound k t ∧ delivered t.trace = t.claims ∧ t.stopped = false ∧ t.joined = false ∧
      t.consumer = .loop ∧ t.head = t.tail := by
  have hsound := sound_run hk sound_init hf hs
  have hw : s.consumer.working = true := by
    cases hc : s.consumer with
    | exited => exact absurd (exited_run (s := State.init) (fun h => nomatch h) hs hc) (by rw [hst]; decide)
    | terminated => exact absurd hc ht
    | corrupt => have := hsound.inv.cons; rw [hc] at this; exact this.elim
    | _ => rfl
  obtain ⟨m, r1, l1, -, -⟩ := to_loop hk (policy := policy) _ s (Nat.le_refl _) hsound hst hw
  have hm := r1.sound hk hsound
  have hmst : m.stopped = false := by
    obtain ⟨-, -, -, -, h⟩ := r1
    rw [h]; exact hst
  obtain ⟨t, r2, d, l2, e2⟩ := drain hk (policy := policy) _ m (Nat.le_refl _) hm hmst l1
  have r := r1.trans r2
  have h3 := r
  obtain ⟨ds, -, h4, h5, h6⟩ := h3
  have htst : t.stopped = false := by rw [h6]; exact hst
  refine ⟨t, r, r.sound hk hsound, ?_, htst, ?_, l2, e2⟩
  · rw [d]
    obtain ⟨-, -, -, h, -⟩ := r2
    exact h.symm
  · cases hj : t.joined with
    | false => rfl
    | true =>
      have := joined_run (s := State.init) (policy := policy) (cap := 2 ^ k) (cs := cs ++ ds) (fun h => nomatch h)
        (by rw [run_append, hs]; exact h4) hj
      rw [htst] at this
      cases this

/-- A call that has a place can return. -/
theorem placed_idle {k p pos : Nat} {e : E} (hp : (s.producers p).place = some (e, pos)) :
    ∃ cs, (∀ c ∈ cs, c.finishing = true) ∧ ∃ s', s.run (2 ^ k) policy cs = some s' ∧ s'.producers p = .idle := by
  cases hx : s.producers p <;> rw [hx] at hp <;> simp only [PPc.place, Option.some.injEq, Prod.mk.injEq, reduceCtorEq] at hp
  · refine ⟨[.producer p false, .producer p false, .producer p false], by simp [Cmd.finishing], ?_⟩
    simp [State.run, State.step, State.produce, hx, State.go, State.say, upd]
  · refine ⟨[.producer p false, .producer p false], by simp [Cmd.finishing], ?_⟩
    simp [State.run, State.step, State.produce, hx, State.go, State.say, upd]
  · refine ⟨[.producer p false], by simp [Cmd.finishing], ?_⟩
    simp [State.run, State.step, State.produce, hx, State.go, State.say, upd]

/-- Finishing steps after which producer `p` is in no call. -/
def CanReturn (k : Nat) (policy : Async.Policy) (p : Nat) (s : State E) : Prop :=
  ∃ cs, (∀ c ∈ cs, c.finishing = true) ∧ ∃ s', s.run (2 ^ k) policy cs = some s' ∧ s'.producers p = .idle

theorem CanReturn.after {k p : Nat} {t : State E} (cs : List (Cmd E)) (hc : ∀ c ∈ cs, c.finishing = true)
    (h : s.run (2 ^ k) policy cs = some t) (ht : CanReturn k policy p t) : CanReturn k policy p s := by
  obtain ⟨ds, h1, s', h2, h3⟩ := ht
  refine ⟨cs ++ ds, ?_, s', by rw [run_append, h]; exact h2, h3⟩
  intro c hm
  rcases List.mem_append.1 hm with hm | hm
  · exact hc c hm
  · exact h1 c hm

theorem CanReturn.next {k p : Nat} {t : State E} (h : s.step (2 ^ k) policy (.producer p false) = some t)
    (ht : CanReturn k policy p t) : CanReturn k policy p s :=
  .after [.producer p false] (by simp [Cmd.finishing]) (by simp [State.run, h]) ht

theorem return_start {k p : Nat} {e : E} (hf : s.seq (cell (2 ^ k) s.tail) = s.tail) (hp : s.producers p = .start e) :
    CanReturn k policy p s := by
  refine ⟨List.replicate 6 (.producer p false), by simp [Cmd.finishing], ?_⟩
  simp [State.run, State.step, State.produce, hp, State.go, State.say, upd, hf, List.replicate]

theorem return_fresh {k p : Nat} {e : E} (hf : s.seq (cell (2 ^ k) s.tail) = s.tail) (hp : s.producers p = .loaded e s.tail) :
    CanReturn k policy p s := by
  refine ⟨List.replicate 5 (.producer p false), by simp [Cmd.finishing], ?_⟩
  simp [State.run, State.step, State.produce, hp, State.go, State.say, upd, hf, List.replicate]

theorem return_behind {k p pos : Nat} {e : E} (hf : s.seq (cell (2 ^ k) s.tail) = s.tail) (he : s.head = s.tail)
    (hp : s.producers p = .behind e pos) (hl : pos ≤ s.tail) : CanReturn k policy p s := by
  have hn : pos ≠ s.head + 2 ^ k := by
    have := Nat.two_pow_pos k
    omega
  refine .next (t := s.go p (.start e)) (by simp [State.step, State.produce, hp, hn]) (return_start (e := e) hf ?_)
  simp [State.go, upd]

theorem return_seen {k p pos n : Nat} {e : E} (hf : s.seq (cell (2 ^ k) s.tail) = s.tail) (he : s.head = s.tail)
    (hp : s.producers p = .seen e pos n) (hl : pos ≤ s.tail) : CanReturn k policy p s := by
  by_cases h1 : n = pos
  · by_cases h2 : s.tail = pos
    · refine .next (t := ({ s with tail := pos + 1, claims := s.claims ++ [(p, e)] }.go p (.claimed e pos)).say (.claim p e))
        (by simp [State.step, State.produce, hp, h1, h2]) (placed_idle (e := e) (pos := pos) ?_)
      simp [State.go, State.say, upd, PPc.place]
    · refine .next (t := s.go p (.loaded e s.tail)) (by simp [State.step, State.produce, hp, h1, h2])
        (return_fresh (e := e) hf ?_)
      simp [State.go, upd]
  · by_cases h2 : n < pos
    · refine .next (t := s.go p (.behind e pos)) (by simp [State.step, State.produce, hp, h1, h2])
        (return_behind (e := e) (pos := pos) hf he ?_ hl)
      simp [State.go, upd]
    · refine .next (t := s.go p (.start e)) (by simp [State.step, State.produce, hp, h1, h2])
        (return_start (e := e) hf ?_)
      simp [State.go, upd]

/-- Once everything is delivered, every call can return. -/
theorem return_any {k p : Nat} (h : Inv (2 ^ k) s) (hc : s.consumer = .loop) (he : s.head = s.tail) :
    CanReturn k policy p s := by
  have hf : s.seq (cell (2 ^ k) s.tail) = s.tail := by
    rw [cell_eq]
    refine h.free _ (Nat.le_refl _) ?_
    have : s.base = s.head := by rw [State.base, hc]
    have := Nat.two_pow_pos k
    omega
  have hg := h.prod p
  cases hp : s.producers p with
  | idle => exact ⟨[], by simp, s, rfl, hp⟩
  | start e => exact return_start hf hp
  | loaded e pos =>
    rw [hp] at hg
    refine .next (t := s.go p (.seen e pos (s.seq (cell (2 ^ k) pos)))) (by simp [State.step, State.produce, hp])
      (return_seen (e := e) (pos := pos) (n := s.seq (cell (2 ^ k) pos)) hf he ?_ hg)
    simp [State.go, upd]
  | seen e pos n =>
    rw [hp] at hg
    exact return_seen hf he hp hg.1
  | behind e pos =>
    rw [hp] at hg
    exact return_behind hf he hp hg
  | full e =>
    cases ho : policy.overflow with
    | retry =>
      refine .next (t := s.go p (.start e)) (by simp [State.step, State.produce, hp, ho]) (return_start (e := e) hf ?_)
      simp [State.go, upd]
    | drop =>
      refine .next (t := (s.go p .idle).say (.discard p e)) (by simp [State.step, State.produce, hp, ho])
        ⟨[], by simp, _, rfl, ?_⟩
      simp [State.go, State.say, upd]
  | claimed e pos => exact placed_idle (e := e) (pos := pos) (by rw [hp]; rfl)
  | writing e pos => exact placed_idle (e := e) (pos := pos) (by rw [hp]; rfl)
  | written e pos => exact placed_idle (e := e) (pos := pos) (by rw [hp]; rfl)

end Blackhole.Ring
