import Verif.Ring.Wait

/-! # Does a log call wait for other threads that go on? (C110)

The queue lets somebody go on, but not everybody: a call can lose its place to others again and again. -/

namespace Blackhole.Ring
variable {E : Type} {policy : Async.Policy} {s s' : State E}

/-- Everything is delivered, producer `0` is about to claim the next place, producer `1` makes no call. -/
structure Losing (e : E) (s : State E) : Prop where
  empty : s.head = s.tail
  call : s.producers 0 = .seen e s.tail s.tail
  other : s.producers 1 = .idle
  worker : s.consumer = .loop

/-- One round: producer `1` logs `x`, the worker delivers it, and producer `0` tries and looks for its place again. -/
def lap (x : E) : List (Cmd E) :=
  (.emit 1 x :: List.replicate 6 (.producer 1 false)) ++ (List.replicate 8 (.consumer false) ++
    [.producer 0 false, .producer 0 false])

theorem upd_other {β : Type} (f : Nat → β) {a c : Nat} (b : β) (h : c ≠ a) : upd f a b c = f c := by simp [upd, h]

theorem upd_upd {β : Type} (f : Nat → β) (a : Nat) (b c : β) : upd (upd f a b) a c = upd f a c := by
  funext x; simp only [upd]; split <;> rfl

theorem lap_producer {cap : Nat} {x : E} (h5 : s.producers 1 = .idle) (f0 : s.seq (cell cap s.tail) = s.tail) :
    ∃ t, s.run cap policy (.emit 1 x :: List.replicate 6 (.producer 1 false)) = some t ∧
      t.seq = upd s.seq (cell cap s.tail) (s.tail + 1) ∧ t.data (cell cap s.tail) = some (1, x) ∧ t.tail = s.tail + 1 ∧
      t.head = s.head ∧ t.producers 0 = s.producers 0 ∧ t.producers 1 = .idle ∧ t.consumer = s.consumer ∧
      t.trace = s.trace ++ [.call 1 x, .claim 1 x, .returned 1 x] := by
  obtain ⟨seq, data, tail, head, producers, consumer, stopped, joined, claims, trace⟩ := s
  simp only at h5 f0
  simp [List.replicate, State.run, State.step, State.produce, State.go, State.say, upd_same, upd_upd, upd_other, f0, h5]

theorem lap_worker {cap : Nat} {y : Nat × E} (h6 : s.consumer = .loop) (h1 : s.seq (cell cap s.head) = s.head + 1)
    (h2 : s.data (cell cap s.head) = some y) :
    ∃ t, s.run cap policy (List.replicate 8 (.consumer false)) = some t ∧
      t.seq = upd s.seq (cell cap s.head) (s.head + cap) ∧ t.tail = s.tail ∧ t.head = s.head + 1 ∧
      t.producers = s.producers ∧ t.consumer = .loop ∧ t.trace = s.trace ++ [.deliver y.1 y.2] := by
  obtain ⟨seq, data, tail, head, producers, consumer, stopped, joined, claims, trace⟩ := s
  simp only at h6 h1 h2
  subst h6
  simp [List.replicate, State.run, State.step, State.consume, State.say, h1, h2]

theorem lap_call {cap pos : Nat} {e : E} (h4 : s.producers 0 = .seen e pos pos) (h1 : s.tail ≠ pos)
    (h2 : s.seq (cell cap s.tail) = s.tail) :
    s.run cap policy [.producer 0 false, .producer 0 false] = some (s.go 0 (.seen e s.tail s.tail)) := by
  obtain ⟨seq, data, tail, head, producers, consumer, stopped, joined, claims, trace⟩ := s
  simp only at h4 h1 h2
  simp [State.run, State.step, State.produce, State.go, upd_same, upd_upd, h4, h1, h2]

theorem lap_run {k : Nat} (hk : 1 ≤ k) {e x : E} (h : Inv (2 ^ k) s) (hl : Losing e s) :
    ∃ t, s.run (2 ^ k) policy (lap x) = some t ∧ Losing e t ∧
      t.trace = s.trace ++ [.call 1 x, .claim 1 x, .returned 1 x, .deliver 1 x] := by
  have h2 := two_le hk
  obtain ⟨h3, h4, h5, h6⟩ := hl
  have hb : s.base = s.head := by unfold State.base; rw [h6]
  have f0 := h.free s.tail (Nat.le_refl _) (by omega)
  have f1 := h.free (s.tail + 1) (by omega) (by omega)
  rw [← cell_eq] at f0 f1
  have hne : cell (2 ^ k) (s.tail + 1) ≠ cell (2 ^ k) s.tail := by
    intro hc; rw [hc, f0] at f1; omega
  obtain ⟨t, a1, a2, a3, a4, a5, a6, a7, a8, a9⟩ := lap_producer (policy := policy) (x := x) h5 f0
  obtain ⟨u, b1, b2, b3, b4, b5, b6, b7⟩ := lap_worker (policy := policy) (s := t) (cap := 2 ^ k) (y := (1, x)) (by rw [a8, h6])
    (by rw [a2, a5, h3, upd_same]) (by rw [a5, h3, a3])
  have c1 := lap_call (policy := policy) (s := u) (cap := 2 ^ k) (e := e) (pos := s.tail) (by rw [b5, a6, h4])
    (by rw [b3, a4]; omega) (by rw [b2, b3, a2, a4, a5, h3, upd_other _ _ hne, upd_other _ _ hne, f1])
  refine ⟨u.go 0 (.seen e u.tail u.tail), by rw [lap, run_append, a1, Option.bind_some, run_append, b1, Option.bind_some]; exact c1,
    ⟨?_, go_same .., ?_, b6⟩, ?_⟩
  · show u.head = u.tail
    omega
  · show upd u.producers 0 (.seen e u.tail u.tail) 1 = _
    rw [upd_other _ _ (by omega), b5, a7]
  · show u.trace = _
    rw [b7, a9]
    simp

/-- `0` reads the enqueue position and the number of its cell, and has not got its place. -/
theorem losing_start {k : Nat} {e : E} : ∃ t, (State.init : State E).run (2 ^ k) policy
    [.emit 0 e, .producer 0 false, .producer 0 false] = some t ∧ Losing e t ∧ t.trace = [.call 0 e] := by
  refine ⟨_, rfl, ?_, rfl⟩
  constructor <;> simp [State.go, State.say, upd, State.init, cell]

theorem laps_run {k : Nat} (hk : 1 ≤ k) {e : E} (xs : List E) : ∀ s : State E, Inv (2 ^ k) s → Losing e s →
    ∃ t, s.run (2 ^ k) policy (xs.flatMap lap) = some t ∧ Losing e t ∧
      t.trace = s.trace ++ xs.flatMap fun x => [.call 1 x, .claim 1 x, .returned 1 x, .deliver 1 x] := by
  induction xs with
  | nil => intro s _ hl; exact ⟨s, rfl, hl, by simp⟩
  | cons x xs ih =>
    intro s h hl
    obtain ⟨t, h1, h2, h3⟩ := lap_run (policy := policy) (x := x) hk h hl
    obtain ⟨u, h4, h5, h6⟩ := ih t (inv_run hk h h1) h2
    refine ⟨u, ?_, h5, ?_⟩
    · rw [List.flatMap_cons, run_append, h1]; exact h4
    · rw [h6, h3]; simp

/-! ## The property -/

/-- **C110 fails** also if no thread stops: there is no bound for the number of calls of one other thread that are accepted,
return and are delivered while a call that was made before all of them tries without end. Its thread makes two steps in every
round, no `compare_exchange_weak` fails for no reason, and the queue is never full; the record is neither accepted nor
discarded, with every capacity and policy. -/
theorem C110_fails_starved {k : Nat} (hk : 1 ≤ k) (e : E) (xs : List E) :
    ∃ cs, ∃ t : State E, (State.init : State E).run (2 ^ k) policy cs = some t ∧
      (cs.filter fun c => match c with | .producer 0 _ => true | _ => false).length = 2 * xs.length + 2 ∧
      (∀ c ∈ cs, c ≠ .producer 0 true ∧ c ≠ .producer 1 true ∧ c ≠ .consumer true ∧ c ≠ .stop) ∧
      t.trace = .call 0 e :: xs.flatMap fun x => [.call 1 x, .claim 1 x, .returned 1 x, .deliver 1 x] := by
  obtain ⟨a, h1, h2, h3⟩ := losing_start (policy := policy) (k := k) (e := e)
  obtain ⟨t, h4, h5, h6⟩ := laps_run (policy := policy) hk xs a (inv_run hk inv_init h1) h2
  refine ⟨_ ++ xs.flatMap lap, t, by rw [run_append, h1]; exact h4, ?_, ?_, by rw [h6, h3]; rfl⟩
  · rw [List.filter_append, List.length_append]
    have : ((xs.flatMap lap).filter fun c => match c with | .producer 0 _ => true | _ => false).length = 2 * xs.length := by
      clear h4 h6
      induction xs with
      | nil => rfl
      | cons x xs ih =>
        rw [List.flatMap_cons, List.filter_append, List.length_append, ih, List.length_cons]
        have : ((lap x).filter fun c => match c with | .producer 0 _ => true | _ => false).length = 2 := rfl
        omega
    rw [this]
    have : (List.filter (fun c : Cmd E => match c with | .producer 0 _ => true | _ => false)
      [.emit 0 e, .producer 0 false, .producer 0 false]).length = 2 := rfl
    omega
  · intro c hc
    rcases List.mem_append.1 hc with hc | hc
    · simp at hc; rcases hc with rfl | rfl | rfl <;> simp
    · obtain ⟨x, -, hc⟩ := List.mem_flatMap.1 hc
      simp [lap, List.replicate] at hc
      rcases hc with rfl | rfl | rfl | rfl <;> simp

/-! Two calls that overtake the one of producer `0`, in a queue of two that discards. -/
example : ((State.init : State Nat).run (2 ^ 1) Async.Policy.drop
    ([.emit 0 9, .producer 0 false, .producer 0 false] ++ [7, 8].flatMap lap)).map (fun s => (s.producers 0, s.trace))
    = some (.seen 9 2 2, [.call 0 9, .call 1 7, .claim 1 7, .returned 1 7, .deliver 1 7, .call 1 8, .claim 1 8, .returned 1 8,
      .deliver 1 8]) := rfl

/-! ## The same in an infinite execution -/

/-- Events stay. -/
theorem trace_step {cap : Nat} {c : Cmd E} (hs : s.step cap policy c = some s') : s.trace <+: s'.trace := by
  cases c <;> simp only [State.step, State.produce, State.fail, State.consume] at hs
  all_goals repeat' split at hs
  all_goals first
    | (cases hs; exact List.prefix_refl _)
    | (cases hs; exact List.prefix_append _ _)
    | cases hs

/-- A producer that is not mentioned makes no call. -/
theorem idle_step {cap p : Nat} {c : Cmd E} (h1 : ∀ e, c ≠ .emit p e) (h2 : ∀ b, c ≠ .producer p b)
    (h : s.producers p = .idle) (hs : s.step cap policy c = some s') : s'.producers p = .idle := by
  have go : ∀ (q : Nat) (x : PPc E), p ≠ q → upd s.producers q x p = .idle := fun q x hq => by rw [upd_other _ _ hq, h]
  cases c with
  | emit q e =>
    have hq : p ≠ q := fun hq => h1 e (by rw [hq])
    simp only [State.step] at hs
    split at hs
    · cases hs; exact go q _ hq
    · cases hs
  | producer q b =>
    have hq : p ≠ q := fun hq => h2 b (by rw [hq])
    simp only [State.step, State.produce] at hs
    repeat' split at hs
    all_goals first | (cases hs; exact go q _ hq) | cases hs
  | throws q =>
    simp only [State.step, State.fail] at hs
    split at hs
    all_goals first
      | (rename_i hx; cases hs; exact go q _ (fun hq => by rw [← hq, h] at hx; cases hx))
      | cases hs
  | _ =>
    simp only [State.step, State.consume] at hs
    repeat' split at hs
    all_goals first | (cases hs; exact h) | cases hs

/-- Producer `0` calls and looks for its place, and then one round after the other. -/
def unfair (e x : E) (n : Nat) : Cmd E :=
  if n = 0 then .emit 0 e
  else if n < 3 then .producer 0 false
  else if (n - 3) % 17 = 0 then .emit 1 x
  else if (n - 3) % 17 < 7 then .producer 1 false
  else if (n - 3) % 17 < 15 then .consumer false
  else .producer 0 false

theorem unfair_laps (e x : E) (m : Nat) : (List.range (3 + 17 * m)).map (unfair e x) =
    [.emit 0 e, .producer 0 false, .producer 0 false] ++ (List.replicate m x).flatMap lap := by
  induction m with
  | zero => rfl
  | succ m ih =>
    rw [show 3 + 17 * (m + 1) = (3 + 17 * m) + 17 by omega, List.range_add, List.map_append, ih, List.append_assoc,
      List.replicate_succ', List.flatMap_append]
    congr 2
    have h : ∀ i, i < 17 → unfair e x (3 + 17 * m + i) = unfair e x (3 + i) := by
      intro i hi
      have h1 : (3 + 17 * m + i - 3) % 17 = (3 + i - 3) % 17 := by omega
      unfold unfair
      rw [h1]
      simp only [show ¬ (3 + 17 * m + i = 0) by omega, show ¬ (3 + i = 0) by omega, show ¬ (3 + 17 * m + i < 3) by omega,
        show ¬ (3 + i < 3) by omega]
    have h2 : (List.map (unfair e x) (List.map (fun i => 3 + 17 * m + i) (List.range 17))) =
        (List.range 17).map fun i => unfair e x (3 + i) := by
      rw [List.map_map]
      exact List.map_congr_left fun i hi => h i (List.mem_range.1 hi)
    rw [h2]
    simp only [List.flatMap_cons, List.flatMap_nil, List.append_nil]
    rfl

/-- The state after the first commands of an infinite schedule. -/
def reached (cap : Nat) (policy : Async.Policy) (cmd : Nat → Cmd E) (n : Nat) : State E :=
  ((State.init : State E).run cap policy ((List.range n).map cmd)).getD State.init

theorem unfair_run {k : Nat} (hk : 1 ≤ k) (e x : E) (m : Nat) :
    ∃ t : State E, (State.init : State E).run (2 ^ k) policy ((List.range (3 + 17 * m)).map (unfair e x)) = some t ∧
      t.trace = .call 0 e :: (List.replicate m x).flatMap fun x => [.call 1 x, .claim 1 x, .returned 1 x, .deliver 1 x] := by
  obtain ⟨a, h1, h2, h3⟩ := losing_start (policy := policy) (k := k) (e := e)
  obtain ⟨t, h4, h5, h6⟩ := laps_run (policy := policy) hk (List.replicate m x) a (inv_run hk inv_init h1) h2
  exact ⟨t, by rw [unfair_laps, run_append, h1]; exact h4, by rw [h6, h3]; rfl⟩

theorem unfair_reached {k : Nat} (hk : 1 ≤ k) (e x : E) (n : Nat) :
    (State.init : State E).run (2 ^ k) policy ((List.range n).map (unfair e x)) = some (reached (2 ^ k) policy (unfair e x) n) := by
  obtain ⟨t, h, -⟩ := unfair_run (policy := policy) hk e x n
  rw [show 3 + 17 * n = n + (3 + 16 * n) by omega, List.range_add, List.map_append, run_append] at h
  unfold reached
  cases hr : (State.init : State E).run (2 ^ k) policy ((List.range n).map (unfair e x)) with
  | none => rw [hr] at h; cases h
  | some a => rfl

theorem unfair_next {k : Nat} (hk : 1 ≤ k) (e x : E) (n : Nat) :
    (reached (2 ^ k) policy (unfair e x) n).step (2 ^ k) policy (unfair e x n)
      = some (reached (2 ^ k) policy (unfair e x) (n + 1)) := by
  have h := unfair_reached (policy := policy) hk e x (n + 1)
  rw [List.range_succ, List.map_append, run_append, unfair_reached hk e x n, Option.bind_some] at h
  simp only [List.map_cons, List.map_nil, State.run] at h
  cases hs : (reached (2 ^ k) policy (unfair e x) n).step (2 ^ k) policy (unfair e x n) with
  | none => rw [hs] at h; cases h
  | some a => rw [hs] at h; exact h

theorem unfair_trace {k : Nat} (hk : 1 ≤ k) (e x : E) {n m : Nat} (h : n ≤ m) :
    (reached (2 ^ k) policy (unfair e x) n).trace <+: (reached (2 ^ k) policy (unfair e x) m).trace := by
  obtain ⟨d, rfl⟩ := Nat.exists_eq_add_of_le h
  clear h
  induction d with
  | zero => exact List.prefix_refl _
  | succ d ih => exact ih.trans (trace_step (unfair_next hk e x (n + d)))

theorem unfair_fair {k : Nat} (hk : 1 ≤ k) (e x : E) :
    FairExec (2 ^ k) policy (reached (2 ^ k) policy (unfair e x)) (unfair e x) where
  start := rfl
  next := unfair_next hk e x
  regular n := by unfold unfair; repeat' split
                  all_goals rfl
  worker n := ⟨3 + 17 * n + 7, by omega, false, by
    have : (3 + 17 * n + 7 - 3) % 17 = 7 := by omega
    simp only [unfair, this, show ¬ (3 + 17 * n + 7 = 0) by omega, show ¬ (3 + 17 * n + 7 < 3) by omega]
    rfl⟩
  calls n p h := by
    rcases Nat.lt_or_ge p 2 with hp | hp
    · rcases (by omega : p = 0 ∨ p = 1) with rfl | rfl
      · refine ⟨3 + 17 * n + 15, by omega, false, ?_⟩
        have : (3 + 17 * n + 15 - 3) % 17 = 15 := by omega
        simp only [unfair, this, show ¬ (3 + 17 * n + 15 = 0) by omega, show ¬ (3 + 17 * n + 15 < 3) by omega]
        rfl
      · refine ⟨3 + 17 * n + 1, by omega, false, ?_⟩
        have : (3 + 17 * n + 1 - 3) % 17 = 1 := by omega
        simp only [unfair, this, show ¬ (3 + 17 * n + 1 = 0) by omega, show ¬ (3 + 17 * n + 1 < 3) by omega]
        rfl
    · refine absurd ?_ h
      clear h
      induction n with
      | zero => rfl
      | succ n ih =>
        refine idle_step ?_ ?_ ih (unfair_next hk e x n)
        · intro y hy
          unfold unfair at hy
          repeat' split at hy
          all_goals (cases hy <;> omega)
        · intro b hy
          unfold unfair at hy
          repeat' split at hy
          all_goals (cases hy <;> omega)
  exchange h n := by
    obtain ⟨m, h1, h2, b, h3⟩ := h n
    refine ⟨m, h1, h2, ?_⟩
    rw [h3]
    unfold unfair at h3
    repeat' split at h3
    all_goals (cases h3; try rfl)

/-- **C110 fails** in fair executions: there are infinite executions in which no thread is forgotten, with every capacity and
policy, and in which a call never gets a place, is never discarded and never returns, while another thread logs and the worker
delivers without end. -/
theorem C110_fails_fair {k : Nat} (hk : 1 ≤ k) (e x : E) :
    ∃ st cmd, FairExec (2 ^ k) policy st cmd ∧ (∀ n, (st (n + 1)).trace.filter (Ev.by 0) = [.call 0 e]) ∧
      ∀ m, ∃ n, delivered (st n).trace = List.replicate m (1, x) := by
  refine ⟨_, _, unfair_fair (policy := policy) hk e x, ?_, ?_⟩
  · intro n
    obtain ⟨t, h1, h2⟩ := unfair_run (policy := policy) hk e x (n + 1)
    rw [unfair_reached hk e x] at h1
    cases h1
    have hl : (reached (2 ^ k) policy (unfair e x) (3 + 17 * (n + 1))).trace.filter (Ev.by 0) = [.call 0 e] := by
      rw [h2]
      have : ∀ m, ((List.replicate m x).flatMap fun x => [Ev.call 1 x, .claim 1 x, .returned 1 x, .deliver 1 x]).filter (Ev.by 0)
          = [] := by
        intro m
        induction m with
        | zero => rfl
        | succ m ih =>
          rw [List.replicate_succ, List.flatMap_cons, List.filter_append, ih]
          rfl
      rw [List.filter_cons, this]
      rfl
    have a := (unfair_trace (policy := policy) hk e x (show n + 1 ≤ 3 + 17 * (n + 1) by omega)).filter (Ev.by 0)
    have b := (unfair_trace (policy := policy) hk e x (show 1 ≤ n + 1 by omega)).filter (Ev.by 0)
    rw [hl] at a
    have c : (reached (2 ^ k) policy (unfair e x) 1).trace.filter (Ev.by 0) = [.call 0 e] := rfl
    rw [c] at b
    exact (b.eq_of_length_le a.length_le).symm
  · intro m
    obtain ⟨t, h1, h2⟩ := unfair_run (policy := policy) hk e x m
    rw [unfair_reached hk e x] at h1
    cases h1
    refine ⟨3 + 17 * m, ?_⟩
    rw [h2]
    clear h2
    show delivered ((List.replicate m x).flatMap _) = _
    induction m with
    | zero => rfl
    | succ m ih =>
      rw [List.replicate_succ, List.flatMap_cons, List.replicate_succ, ← ih]
      rfl

end Blackhole.Ring
