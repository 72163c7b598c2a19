import Verif.Ring.Fair

/-! # The queue inside the asynchronous sink: the destructor returns (C78)

`C78_can_stop_partial` says that the destructor can return. Here is that it does, within a number of steps of the worker that
grows with the number of records that wait. -/

namespace Blackhole.Ring
variable {E : Type} {policy : Async.Policy} {s s' : State E} {k : Nat}

/-- The destructor has begun, and no call is in progress. -/
structure Quiet (k : Nat) (s : State E) : Prop where
  sound : Sound k s
  stopped : s.stopped = true
  joined : s.joined = false
  idle : ∀ p, s.producers p = .idle

/-- How many steps the worker makes at most. -/
def State.stepsLeft (s : State E) : Nat :=
  match s.consumer with
  | .loop => 8 * (s.tail - s.head) + 5
  | .loaded _ => 8 * (s.tail - s.head) + 4
  | .seen pos n => if n = pos + 1 ∨ n < pos + 1 ∧ s.tail = s.head then 8 * (s.tail - s.head) + 3 else 8 * (s.tail - s.head) + 7
  | .behind _ => if s.tail = s.head then 2 else 8 * (s.tail - s.head) + 6
  | .taken _ => 8 * (s.tail - s.head) + 10
  | .reading _ => 8 * (s.tail - s.head) + 9
  | .copied _ _ => 8 * (s.tail - s.head) + 8
  | .got (some _) => 8 * (s.tail - s.head) + 7
  | .deliver _ => 8 * (s.tail - s.head) + 6
  | .sleep => 8 * (s.tail - s.head) + 6
  | .got none => 1
  | .exited => 0
  | .terminated => 0
  | .corrupt => 0

/-- If the worker is about to leave, everything was taken. -/
def Honest (s : State E) : Prop := s.consumer = .got none ∨ s.consumer = .exited → s.head = s.tail

theorem quiet_step (hk : 1 ≤ k) (h : Quiet k s) (hs : s.consume (2 ^ k) false = some s') : Quiet k s' := by
  have hsound : Sound k s' := sound_step (policy := Async.Policy.drop) (c := .consumer false) hk h.sound (fun _ h => by cases h) hs
  have keeps : s'.producers = s.producers ∧ s'.stopped = s.stopped ∧ s'.joined = s.joined := by
    clear h hsound
    unfold State.consume at hs
    repeat' split at hs
    all_goals first | (cases hs; exact ⟨rfl, rfl, rfl⟩) | cases hs
  exact ⟨hsound, by rw [keeps.2.1, h.stopped], by rw [keeps.2.2, h.joined], fun p => by rw [keeps.1, h.idle p]⟩

/-- What a fresh look at the next cell shows. -/
theorem quiet_look (hk : 1 ≤ k) (h : Quiet k s) (hc : s.base = s.head) :
    s.seq (s.head % 2 ^ k) = s.head + 1 ∨ (s.seq (s.head % 2 ^ k) = s.head ∧ s.tail = s.head) := by
  have hi := h.sound.inv
  have h2 := two_le hk
  by_cases hlt : s.head < s.tail
  · rcases hi.used s.head (Nat.le_refl _) hlt with h3 | h3
    · exact .inl h3.1
    · obtain ⟨p, e, hp⟩ := h.sound.owned s.head (Nat.le_refl _) hlt h3
      rw [h.idle p] at hp
      cases hp
  · have := hi.low
    have he : s.tail = s.head := by omega
    exact .inr ⟨hi.free s.head (by omega) (by omega), he⟩

theorem stops_step (hk : 1 ≤ k) (h : Quiet k s) (h1 : s.consumer ≠ .exited) (h2 : s.consumer ≠ .terminated) :
    ∃ s', s.consume (2 ^ k) false = some s' ∧ s'.stepsLeft < s.stepsLeft ∧ s'.consumer ≠ .terminated ∧ (Honest s → Honest s') := by
  have hi := h.sound.inv
  have hg := hi.cons
  have hlow := hi.low
  have hst := h.stopped
  cases hc : s.consumer with
  | loop => simp [State.consume, State.stepsLeft, Honest, hc]
  | loaded pos =>
    rw [hc] at hg
    have hb : s.base = s.head := by rw [State.base, hc]
    have hl := quiet_look hk h hb
    rw [← cell_eq] at hl
    cases hg
    refine ⟨{ s with consumer := .seen s.head (s.seq (cell (2 ^ k) s.head)) }, by simp [State.consume, hc], ?_, by simp, by simp [Honest]⟩
    rcases hl with hl | ⟨hl, ht⟩
    · simp [State.stepsLeft, hc, hl]
    · simp [State.stepsLeft, hc, hl, ht]
  | seen pos n =>
    rw [hc] at hg
    obtain ⟨rfl, hg⟩ := hg
    by_cases hn : n = s.head + 1
    · have hlt : s.head < s.tail := by
        have hb : s.base = s.head := by rw [State.base, hc]
        rcases quiet_look hk h hb with h3 | ⟨h3, -⟩
        · rcases Nat.lt_or_ge s.head s.tail with h4 | h4
          · exact h4
          · have := two_le hk
            have := hi.free s.head h4 (by omega)
            omega
        · have := hg hn; omega
      refine ⟨{ s with head := s.head + 1, consumer := .taken s.head }, by simp [State.consume, hc, hn], ?_, by simp, by simp [Honest]⟩
      simp only [State.stepsLeft, hc, hn, true_or, if_true]
      omega
    · by_cases hl : n < s.head + 1
      · refine ⟨{ s with consumer := .behind s.head }, by simp [State.consume, hc, hn, hl], ?_, by simp, by simp [Honest]⟩
        simp only [State.stepsLeft, hc, hn, hl, false_or, true_and]
        split <;> omega
      · refine ⟨{ s with consumer := .loop }, by simp [State.consume, hc, hn, hl], ?_, by simp, by simp [Honest]⟩
        simp only [State.stepsLeft, hc, hn, hl, false_or, false_and, if_false]
        omega
  | behind pos =>
    rw [hc] at hg
    cases hg
    by_cases ht : s.head = s.tail
    · refine ⟨{ s with consumer := .got none }, by simp [State.consume, hc, ht], ?_, by simp, by simp [Honest, ht]⟩
      simp [State.stepsLeft, hc, ht]
    · refine ⟨{ s with consumer := .loop }, by simp [State.consume, hc, ht], ?_, by simp, by simp [Honest]⟩
      have : s.tail ≠ s.head := fun h => ht h.symm
      simp [State.stepsLeft, hc, this]
  | taken pos => simp [State.consume, State.stepsLeft, Honest, hc]
  | reading pos =>
    rw [hc] at hg
    obtain ⟨h3, -, h4⟩ := hg
    have : pos < s.claims.length := by rw [hi.count]; omega
    rw [List.getElem?_eq_getElem this, ← cell_eq] at h4
    simp [State.consume, State.stepsLeft, Honest, hc, h4]
  | copied pos x => simp [State.consume, State.stepsLeft, Honest, hc]
  | got o =>
    cases o with
    | none => simp [State.consume, State.stepsLeft, Honest, hc, hst]
    | some x => simp [State.consume, State.stepsLeft, Honest, hc]
  | deliver x => simp [State.consume, State.stepsLeft, Honest, hc, State.say]
  | sleep => simp [State.consume, State.stepsLeft, Honest, hc]
  | exited => exact absurd hc h1
  | terminated => exact absurd hc h2
  | corrupt => rw [hc] at hg; exact hg.elim

theorem stops_run (hk : 1 ≤ k) : ∀ n (s : State E), s.stepsLeft ≤ n → Quiet k s → s.consumer ≠ .terminated →
    ∃ i, i ≤ n ∧ ∃ t, s.run (2 ^ k) policy (List.replicate i (.consumer false)) = some t ∧ Quiet k t ∧ t.consumer = .exited ∧
      (Honest s → Honest t) := by
  intro n
  induction n with
  | zero =>
    intro s hn h ht
    by_cases hx : s.consumer = .exited
    · exact ⟨0, Nat.le_refl _, s, rfl, h, hx, id⟩
    · obtain ⟨s', -, h2, -⟩ := stops_step hk h hx ht
      omega
  | succ n ih =>
    intro s hn h ht
    by_cases hx : s.consumer = .exited
    · exact ⟨0, Nat.zero_le _, s, rfl, h, hx, id⟩
    · obtain ⟨s', h1, h2, h3, h4⟩ := stops_step hk h hx ht
      obtain ⟨i, a1, t, a2, a3, a4, a5⟩ := ih s' (by omega) (quiet_step hk h h1) h3
      refine ⟨i + 1, by omega, t, ?_, a3, a4, fun h => a5 (h4 h)⟩
      simp only [List.replicate_succ, State.run, State.step, h1, Option.bind_some]
      exact a2

theorem steps_left_le (s : State E) : s.stepsLeft ≤ 8 * (s.tail - s.head) + 10 := by
  unfold State.stepsLeft
  repeat' split
  all_goals omega

/-! ## The property -/

/-- **C78.** If the destructor is called while no other call is in progress, and no copy and no call of the wrapped sink has
failed, it returns after at most eight steps of the worker for each record that is not delivered yet, and ten more. All these
records are delivered then, unless the worker had just found the queue empty or had left (C11). The steps of the worker are not
chosen: nobody else runs. What is left out are exchanges that fail for no reason. -/
theorem C78_stops_partial {cs : List (Cmd E)} (hk : 1 ≤ k) (hs : (State.init : State E).run (2 ^ k) policy cs = some s)
    (hf : NoFailure cs) (hst : s.stopped = true) (hj : s.joined = false) (hi : ∀ p, s.producers p = .idle)
    (ht : s.consumer ≠ .terminated) :
    ∃ i, i ≤ 8 * ((claimed s.trace).length - (delivered s.trace).length) + 10 ∧
      ∃ t, s.run (2 ^ k) policy (List.replicate i (.consumer false) ++ [.join]) = some t ∧
        t.trace.getLast? = some .destroyed ∧
        (s.consumer ≠ .got none → s.consumer ≠ .exited → delivered t.trace = claimed t.trace) := by
  have hsound := sound_run hk sound_init hf hs
  have hq : Quiet k s := ⟨hsound, hst, hj, hi⟩
  obtain ⟨i, h1, t, h2, h3, h4, h5⟩ := stops_run (policy := policy) hk _ s (Nat.le_refl _) hq ht
  refine ⟨i, ?_, t.say .destroyed |> fun u => { u with joined := true }, ?_, ?_, ?_⟩
  · have h6 := steps_left_le s
    have h7 : (claimed s.trace).length = s.tail := by rw [hsound.told.claimed, hsound.inv.count]
    have h8 := congrArg List.length hsound.told.delivered
    have := hsound.inv.count
    have := hsound.inv.low
    simp only [List.length_append, List.length_take] at h8
    omega
  · rw [run_append, h2]
    simp [State.run, State.step, h3.stopped, h3.joined, h4, State.say]
  · simp [State.say]
  · intro h6 h7
    have h8 : Honest s := fun h => by rcases h with h | h <;> contradiction
    have h9 := h5 h8 (.inr h4)
    have ha := h3.sound.told.delivered
    rw [h4] at ha
    have hb : delivered t.trace = t.claims := by
      simpa [CPc.hand, h9, ← h3.sound.inv.count] using ha
    show delivered (t.trace ++ [.destroyed]) = claimed (t.trace ++ [.destroyed])
    rw [delivered_snoc, claimed_snoc, hb, h3.sound.told.claimed]
    rfl

/-! A queue of two, two records, and the destructor: eight steps for each record and five for the empty queue. -/

private def stopping : List (Cmd Nat) :=
  .emit 0 7 :: List.replicate 6 (.producer 0 false) ++ .emit 1 8 :: List.replicate 6 (.producer 1 false) ++ [.stop]

example : ((State.init : State Nat).run (2 ^ 1) Async.Policy.wait (stopping ++ List.replicate 21 (.consumer false) ++ [.join])).map
    (fun s => (s.consumer, delivered s.trace, s.trace.getLast?)) = some (.exited, [(0, 7), (1, 8)], some .destroyed) := rfl

end Blackhole.Ring
