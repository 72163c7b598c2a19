import Verif.Ring.Fair

/-! # Does a log call wait for other threads? (C110)

With the policy that discards, a log call is expected to return whatever other threads do. Here only the thread of the call
runs. -/

namespace Blackhole.Ring
variable {E : Type} {policy : Async.Policy} {s s' : State E}

/-! ## Specification -/

/-- After at most `n` steps of its own, and of nobody else, the call of producer `p` has ended. -/
def Ends (cap : Nat) (policy : Async.Policy) (s : State E) (p n : Nat) : Prop :=
  ∃ i, i ≤ n ∧ ∃ t, s.run cap policy (List.replicate i (.producer p false)) = some t ∧ t.producers p = .idle

/-- The worker is between taking a record out of a cell and giving the cell back. -/
def State.taking (s : State E) : Prop :=
  (∃ pos, s.consumer = .taken pos) ∨ (∃ pos, s.consumer = .reading pos) ∨ ∃ pos x, s.consumer = .copied pos x

/-! ## Proofs -/

theorem Ends.mono {cap p n m : Nat} (h : Ends cap policy s p n) (hm : n ≤ m) : Ends cap policy s p m := by
  obtain ⟨i, h1, h2⟩ := h
  exact ⟨i, by omega, h2⟩

theorem Ends.step {cap p n : Nat} (hs : s.produce cap policy p false = some s') (h : Ends cap policy s' p n) :
    Ends cap policy s p (n + 1) := by
  obtain ⟨i, h1, t, h2, h3⟩ := h
  refine ⟨i + 1, by omega, t, ?_, h3⟩
  simp only [List.replicate_succ, State.run, State.step, hs, Option.bind_some]
  exact h2

theorem ends_idle {cap p : Nat} (h : s.producers p = .idle) : Ends cap policy s p 0 := ⟨0, Nat.le_refl _, s, rfl, h⟩

theorem ends_placed {cap p q : Nat} {e : E} (h : (s.producers p).place = some (e, q)) : Ends cap policy s p 3 := by
  have written : ∀ (t : State E), t.producers p = .written e q → Ends cap policy t p 1 := fun t ht =>
    Ends.step (by unfold State.produce; rw [ht]) (ends_idle (by simp [State.go, State.say, upd]))
  have writing : ∀ (t : State E), t.producers p = .writing e q → Ends cap policy t p 2 := fun t ht =>
    Ends.step (by unfold State.produce; rw [ht]) (written _ (by simp [State.go, upd]))
  cases hx : s.producers p <;> rw [hx] at h <;> simp only [PPc.place, reduceCtorEq, Option.some.injEq, Prod.mk.injEq] at h <;>
    obtain ⟨rfl, rfl⟩ := h
  · exact Ends.step (by unfold State.produce; rw [hx]) (writing _ (by simp [State.go, upd]))
  · exact (writing s hx).mono (by omega)
  · exact (written s hx).mono (by omega)

/-- The next cell is free, or the queue is full and looks so. -/
def Clear (cap : Nat) (s : State E) : Prop :=
  s.seq (cell cap s.tail) = s.tail ∨ (s.seq (cell cap s.tail) < s.tail ∧ s.tail = s.head + cap)

theorem clear_of {k : Nat} (hk : 1 ≤ k) (h : Inv (2 ^ k) s) (ht : ¬ s.taking) : Clear (2 ^ k) s := by
  have hb : s.base = s.head := by
    unfold State.taking at ht
    unfold State.base
    split
    · rename_i pos hp; exact absurd (.inl ⟨pos, hp⟩) ht
    · rename_i pos hp; exact absurd (.inr (.inl ⟨pos, hp⟩)) ht
    · rename_i pos x hp; exact absurd (.inr (.inr ⟨pos, x, hp⟩)) ht
    · rfl
  have h2 := two_le hk
  have hh := h.high
  rw [hb] at hh
  unfold Clear
  rw [cell_eq]
  by_cases hlt : s.tail < s.head + 2 ^ k
  · exact .inl (h.free _ (Nat.le_refl _) (by rw [hb]; exact hlt))
  · have he : s.tail = s.head + 2 ^ k := by omega
    refine .inr ⟨?_, he⟩
    rw [he, Nat.add_mod_right]
    rcases h.used s.head (Nat.le_refl _) (by omega) with ⟨h3, -⟩ | h3 <;> omega

theorem clear_go {cap p : Nat} {x : PPc E} (h : Clear cap s) : Clear cap (s.go p x) := h

theorem go_same (p : Nat) (x : PPc E) : (s.go p x).producers p = x := by simp [State.go, upd]

theorem ends_full {cap p : Nat} {e : E} (hd : policy.overflow = .drop) (h : s.producers p = .full e) : Ends cap policy s p 1 :=
  Ends.step (s' := (s.go p .idle).say (.discard p e)) (by unfold State.produce; rw [h]; simp only [hd])
    (ends_idle (by simp [State.go, State.say, upd]))

theorem ends_exchange {cap p pos : Nat} {e : E} (h : s.producers p = .seen e pos pos) (ht : s.tail = pos) :
    Ends cap policy s p 4 := by
  refine Ends.step (s' := (({ s with tail := pos + 1, claims := s.claims ++ [(p, e)] } : State E).go p (.claimed e pos)).say
    (.claim p e)) (by unfold State.produce; rw [h]; simp [ht]) (ends_placed (e := e) (q := pos) ?_)
  simp [State.go, State.say, upd, PPc.place]

theorem ends_loaded_now {cap p : Nat} {e : E} (hd : policy.overflow = .drop) (hc : Clear cap s)
    (h : s.producers p = .loaded e s.tail) : Ends cap policy s p 5 := by
  refine Ends.step (s' := s.go p (.seen e s.tail (s.seq (cell cap s.tail)))) (by unfold State.produce; rw [h]) ?_
  rcases hc with hc | ⟨h1, h2⟩
  · exact ends_exchange (pos := s.tail) (e := e) (by rw [go_same, hc]) rfl
  · refine (Ends.step (n := 2) (s' := (s.go p (.seen e s.tail (s.seq (cell cap s.tail)))).go p (.behind e s.tail)) ?_ ?_).mono (by omega)
    · unfold State.produce
      rw [go_same]
      simp only [if_neg (Nat.ne_of_lt h1), if_pos h1]
    · refine Ends.step (s' := ((s.go p (.seen e s.tail (s.seq (cell cap s.tail)))).go p (.behind e s.tail)).go p (.full e)) ?_
        (ends_full hd (go_same ..))
      unfold State.produce
      rw [go_same]
      have : s.tail = (((s.go p (.seen e s.tail (s.seq (cell cap s.tail)))).go p (.behind e s.tail))).head + cap := h2
      simp only [if_pos this]

theorem ends_start {cap p : Nat} {e : E} (hd : policy.overflow = .drop) (hc : Clear cap s) (h : s.producers p = .start e) :
    Ends cap policy s p 6 := by
  refine Ends.step (s' := s.go p (.loaded e s.tail)) (by unfold State.produce; rw [h]) ?_
  exact ends_loaded_now hd (clear_go hc) (go_same ..)

theorem ends_behind {cap p pos : Nat} {e : E} (hd : policy.overflow = .drop) (hc : Clear cap s) (h : s.producers p = .behind e pos) :
    Ends cap policy s p 7 := by
  refine Ends.step (s' := s.go p (if pos = s.head + cap then .full e else .start e)) (by unfold State.produce; rw [h]) ?_
  split
  · exact (ends_full hd (go_same ..)).mono (by omega)
  · exact ends_start hd (clear_go hc) (go_same ..)

theorem ends_seen {cap p pos n : Nat} {e : E} (hd : policy.overflow = .drop) (hc : Clear cap s) (h : s.producers p = .seen e pos n) :
    Ends cap policy s p 8 := by
  by_cases h1 : n = pos
  · subst h1
    by_cases h2 : s.tail = n
    · exact (ends_exchange h h2).mono (by omega)
    · refine (Ends.step (s' := s.go p (.loaded e s.tail)) ?_ (ends_loaded_now hd (clear_go hc) (go_same ..))).mono (by omega)
      unfold State.produce; rw [h]; simp [h2]
  · by_cases h2 : n < pos
    · refine Ends.step (s' := s.go p (.behind e pos)) ?_ (ends_behind hd (clear_go hc) (go_same ..))
      unfold State.produce; rw [h]; simp only [if_neg h1, if_pos h2]
    · refine (Ends.step (s' := s.go p (.start e)) ?_ (ends_start hd (clear_go hc) (go_same ..))).mono (by omega)
      unfold State.produce; rw [h]; simp only [if_neg h1, if_neg h2]

theorem ends_any {cap p : Nat} (hd : policy.overflow = .drop) (hc : Clear cap s) : Ends cap policy s p 9 := by
  cases h : s.producers p with
  | idle => exact (ends_idle h).mono (by omega)
  | start e => exact (ends_start hd hc h).mono (by omega)
  | loaded e pos =>
    exact Ends.step (s' := s.go p (.seen e pos (s.seq (cell cap pos)))) (by unfold State.produce; rw [h])
      (ends_seen hd (clear_go hc) (go_same ..))
  | seen e pos n => exact (ends_seen hd hc h).mono (by omega)
  | behind e pos => exact (ends_behind hd hc h).mono (by omega)
  | full e => exact (ends_full hd h).mono (by omega)
  | claimed e pos => exact (ends_placed (e := e) (q := pos) (by rw [h]; rfl)).mono (by omega)
  | writing e pos => exact (ends_placed (e := e) (q := pos) (by rw [h]; rfl)).mono (by omega)
  | written e pos => exact (ends_placed (e := e) (q := pos) (by rw [h]; rfl)).mono (by omega)

/-- Where a call goes round in circles. -/
def Circles (e : E) (tail n : Nat) (x : PPc E) : Prop :=
  x = .start e ∨ x = .loaded e tail ∨ x = .seen e tail n ∨ x = .behind e tail

theorem circles_step {cap p n : Nat} {e : E} {b : Bool} (h : Circles e s.tail n (s.producers p))
    (hn : s.seq (cell cap s.tail) = n) (hl : n < s.tail) (hh : s.tail ≠ s.head + cap) :
    ∃ x, s.produce cap policy p b = some (s.go p x) ∧ Circles e s.tail n x := by
  unfold State.produce
  rcases h with h | h | h | h <;> rw [h]
  · exact ⟨_, rfl, .inr (.inl rfl)⟩
  · exact ⟨_, rfl, .inr (.inr (.inl (by rw [hn])))⟩
  · simp only [if_neg (Nat.ne_of_lt hl), if_pos hl]
    exact ⟨_, rfl, .inr (.inr (.inr rfl))⟩
  · simp only [if_neg hh]
    exact ⟨_, rfl, .inl rfl⟩

theorem circles_run {cap p n : Nat} {e : E} (cs : List (Cmd E)) : ∀ (s : State E), Circles e s.tail n (s.producers p) →
    s.seq (cell cap s.tail) = n → n < s.tail → s.tail ≠ s.head + cap → (∀ c ∈ cs, ∃ b, c = .producer p b) →
    ∃ t, s.run cap policy cs = some t ∧ Circles e s.tail n (t.producers p) ∧ t.trace = s.trace := by
  induction cs with
  | nil => intro s h _ _ _ _; exact ⟨s, rfl, h, rfl⟩
  | cons c cs ih =>
    intro s h hn hl hh hc
    obtain ⟨b, rfl⟩ := hc c (by simp)
    obtain ⟨x, h1, h2⟩ := circles_step (policy := policy) (b := b) h hn hl hh
    obtain ⟨t, h3, h4, h5⟩ := ih (s.go p x) (by rw [go_same]; exact h2) hn hl hh (fun c hm => hc c (by simp [hm]))
    exact ⟨t, by simp only [State.run, State.step, h1, Option.bind_some]; exact h3, h4, h5⟩

/-! ## The property -/

/-- **C110.** With the policy that discards, whatever has happened before: unless the worker is just taking a record out of a
cell, a call returns after at most nine steps of its own, in which nobody else runs. -/
theorem C110_alone_partial {k : Nat} {cs : List (Cmd E)} (hk : 1 ≤ k) (hd : policy.overflow = .drop)
    (hs : (State.init : State E).run (2 ^ k) policy cs = some s) (ht : ¬ s.taking) (p : Nat) : Ends (2 ^ k) policy s p 9 :=
  ends_any hd (clear_of hk (inv_run hk inv_init hs) ht)

/-- **C110 fails** while the worker is taking a record out of a cell and all other cells are in use: a call that is made then
does not end, however many steps it makes, until the worker goes on. It is neither accepted nor discarded. -/
theorem C110_fails_taking {k : Nat} {cs : List (Cmd E)} (hk : 1 ≤ k) (hs : (State.init : State E).run (2 ^ k) policy cs = some s)
    (ht : s.taking) (hfull : s.tail + 1 = s.head + 2 ^ k) {p : Nat} {e : E} (hp : s.producers p = .start e) (ds : List (Cmd E))
    (hds : ∀ c ∈ ds, ∃ b, c = .producer p b) :
    ∃ t, s.run (2 ^ k) policy ds = some t ∧ t.producers p ≠ .idle ∧ t.trace = s.trace := by
  have h := inv_run hk inv_init hs
  have h2 := two_le hk
  have hg := h.cons
  have key : s.seq (cell (2 ^ k) s.tail) < s.tail := by
    have : ∃ pos, s.head = pos + 1 ∧ s.seq (pos % 2 ^ k) = pos + 1 := by
      rcases ht with ⟨pos, hc⟩ | ⟨pos, hc⟩ | ⟨pos, x, hc⟩ <;> rw [hc] at hg <;> exact ⟨pos, hg.1, hg.2.1⟩
    obtain ⟨pos, h3, h4⟩ := this
    have he : s.tail = pos + 2 ^ k := by omega
    rw [cell_eq, he, Nat.add_mod_right, h4]
    omega
  obtain ⟨t, a1, a2, a3⟩ := circles_run (policy := policy) ds s (.inl hp) rfl key (by omega) hds
  refine ⟨t, a1, ?_, a3⟩
  rcases a2 with h | h | h | h <;> rw [h] <;> simp

/-! A queue of two, two records, one of them being taken, and a third call. -/

private def stuck : List (Cmd Nat) :=
  .emit 0 7 :: List.replicate 6 (.producer 0 false) ++ .emit 0 8 :: List.replicate 6 (.producer 0 false)
    ++ [.consumer false, .consumer false, .consumer false, .consumer false, .emit 1 9]

private def discarding : Async.Policy := Async.Policy.drop

example : ((State.init : State Nat).run (2 ^ 1) discarding stuck).map
    (fun s => (s.consumer, s.tail, s.head, s.producers 1)) = some (.reading 0, 2, 1, .start 9) := rfl

end Blackhole.Ring
