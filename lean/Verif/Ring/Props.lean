import Verif.Ring.Progress
import Verif.Ring.Full
import Verif.Async.Props

/-!
# C78: the queue inside the asynchronous sink does what the sink relies on, unless a record cannot be copied
-/

namespace Blackhole.Ring
variable {E : Type} {policy : Async.Policy} {s : State E} {k : Nat} {cs : List (Cmd E)}

/-- The sink with this queue, whatever the threads do, shows only what the sink with an ideal queue of the same capacity
(`Verif.Async`) can show: what is proved about that holds here as well, as long as no copy of a record fails. -/
theorem C78_refines_partial (hk : 1 ≤ k) (hs : (State.init : State E).run (2 ^ k) policy cs = some s) (hf : NoFailure cs) :
    ∃ ds a, (Async.State.init : Async.State E).run (2 ^ k) policy ds = some a ∧ a.trace = s.trace.filterMap Ev.simple := by
  obtain ⟨ds, h⟩ := simple_run hk inv_init hf hs
  exact ⟨ds, s.simple, h, rfl⟩

theorem delivered_of (h : Inv (2 ^ k) s) (ht : Told s) :
    delivered s.trace <+: claimed s.trace ∧ (claimed s.trace).length ≤ (delivered s.trace).length + 2 ^ k + 1 ∧
      s.consumer ≠ .corrupt := by
  have hcap := Nat.two_pow_pos k
  refine ⟨?_, ?_, ?_⟩
  · rw [ht.claimed]
    exact ⟨s.consumer.hand s.claims ++ s.claims.drop s.head, by rw [← List.append_assoc, ht.delivered, List.take_append_drop]⟩
  · rw [ht.claimed, h.count]
    have := congrArg List.length ht.delivered
    rw [List.length_append, List.length_take, h.count] at this
    have hl := h.low
    have hh := h.high
    have hb := base_le h
    have hd : (s.consumer.hand s.claims).length ≤ 1 := by
      have ho : ∀ o : Option (Nat × E), o.toList.length ≤ 1 := by
        intro o
        cases o <;> simp
      unfold CPc.hand
      split <;> first | exact ho _ | simp
    omega
  · intro hc
    have := h.cons
    rw [hc] at this
    exact this

/-- The wrapped sink receives the records that got a place, in that order, each once; at most one of them is in the hands of
the worker. The worker never reads a cell that holds no complete record. This holds also if copies fail. -/
theorem C78_delivered (hk : 1 ≤ k) (hs : (State.init : State E).run (2 ^ k) policy cs = some s) :
    delivered s.trace <+: claimed s.trace ∧ (claimed s.trace).length ≤ (delivered s.trace).length + 2 ^ k + 1 ∧
      s.consumer ≠ .corrupt :=
  delivered_of (inv_run hk inv_init hs) (told_run hk inv_init ⟨rfl, rfl⟩ hs)

theorem exclusive_of (h : Inv (2 ^ k) s) :
    (∀ p q c, s.writes (2 ^ k) p = some c → s.writes (2 ^ k) q = some c → p = q) ∧
      ∀ p c, s.writes (2 ^ k) p = some c → s.reads (2 ^ k) ≠ some c := by
  have hb := base_le h
  constructor
  · intro p q c hp hq
    simp only [State.writes] at hp hq
    have gp := h.prod p
    have gq := h.prod q
    split at hp <;> simp only [Option.some.injEq, reduceCtorEq] at hp
    split at hq <;> simp only [Option.some.injEq, reduceCtorEq] at hq
    rename_i e1 q1 h1 _ e2 q2 h2
    rw [h1] at gp
    rw [h2] at gq
    obtain ⟨a1, a2, a3, a4⟩ := gp
    obtain ⟨b1, b2, b3, b4⟩ := gq
    rw [cell_eq] at hp hq
    have : q1 = q2 := by
      have hh := h.high
      exact inj a1 (by omega) b1 (by omega) (hp.trans hq.symm)
    subst this
    rw [a3] at b3
    cases b3
    rfl
  · intro p c hp hr
    simp only [State.writes] at hp
    simp only [State.reads] at hr
    have gp := h.prod p
    have gc := h.cons
    split at hp <;> simp only [Option.some.injEq, reduceCtorEq] at hp
    split at hr <;> simp only [Option.some.injEq, reduceCtorEq] at hr
    rename_i e1 q1 h1 _ q2 h2
    rw [h1] at gp
    rw [h2] at gc
    obtain ⟨a1, a2, a3, a4⟩ := gp
    obtain ⟨b1, b2, b3⟩ := gc
    rw [cell_eq] at hp hr
    have hbs : s.base = q2 := by rw [State.base, h2]
    exact taken_apart h a1 a2 a4 hbs b1 b2 (hr.trans hp.symm)

/-- No two producers write to the same cell at the same time, and none writes to the cell that the worker reads. -/
theorem C78_exclusive (hk : 1 ≤ k) (hs : (State.init : State E).run (2 ^ k) policy cs = some s) :
    (∀ p q c, s.writes (2 ^ k) p = some c → s.writes (2 ^ k) q = some c → p = q) ∧
      ∀ p c, s.writes (2 ^ k) p = some c → s.reads (2 ^ k) ≠ some c :=
  exclusive_of (inv_run hk inv_init hs)

/-- Each call of a producer gets one place and returns, or is discarded, or throws. -/
theorem C78_calls {cap : Nat} (hs : (State.init : State E).run cap policy cs = some s) (p : Nat) :
    Calls p (s.trace.filter (Ev.by p)) := by
  obtain ⟨d, h1, h2⟩ := calls_run (s := State.init) (fun _ => ⟨[], .none, rfl⟩) hs p
  rw [h2]
  exact h1.calls (begun_calls p _)

/-- A record is discarded only if the queue was full at some moment within the call. -/
theorem C78_full (hk : 1 ≤ k) (hs : (State.init : State E).run (2 ^ k) policy cs = some s) {a b : List (Ev E)} {p : Nat} {e : E}
    (hd : s.trace = a ++ .discard p e :: b) : WasFull (2 ^ k) a p e :=
  (fair_run hk inv_init ⟨rfl, rfl⟩ (fun _ => ⟨[], .none, rfl⟩)
    ⟨fun _ _ h => by simp [State.init] at h, fun a b p e h => by simp [State.init] at h⟩ hs).discards a b p e hd

/-- Whatever has happened before the destructor is called, without a failed copy and while the wrapped sink has not ended the
worker: the calls that were made and the worker can go on so that all records that have a place are delivered. -/
theorem C78_can_deliver_partial (hk : 1 ≤ k) (hs : (State.init : State E).run (2 ^ k) policy cs = some s) (hf : NoFailure cs)
    (hst : s.stopped = false) (ht : s.consumer ≠ .terminated) :
    ∃ ds, (∀ c ∈ ds, c.finishing = true) ∧ ∃ t, s.run (2 ^ k) policy ds = some t ∧
      delivered t.trace = claimed t.trace ∧ claimed t.trace = claimed s.trace := by
  obtain ⟨t, ⟨ds, h1, h2, h3, -⟩, hsound, h4, -⟩ := drain_init hk hs hf hst ht
  have h5 := (sound_run hk sound_init hf hs).told.claimed
  exact ⟨ds, h1, t, h2, by rw [h4, hsound.told.claimed], by rw [hsound.told.claimed, h3, h5]⟩

/-- In the same situation the destructor can be called and can return, with everything delivered. -/
theorem C78_can_stop_partial (hk : 1 ≤ k) (hs : (State.init : State E).run (2 ^ k) policy cs = some s) (hf : NoFailure cs)
    (hst : s.stopped = false) (ht : s.consumer ≠ .terminated) :
    ∃ ds, (∀ c ∈ ds, c.closing = true) ∧ ∃ t, s.run (2 ^ k) policy ds = some t ∧
      delivered t.trace = claimed t.trace ∧ claimed t.trace = claimed s.trace ∧ t.trace.getLast? = some .destroyed := by
  obtain ⟨t, ⟨ds, h1, h2, h3, -⟩, hsound, h4, h5, h6, h7, h8⟩ := drain_init hk hs hf hst ht
  have h9 := (sound_run hk sound_init hf hs).told.claimed
  obtain ⟨u, hu, htr⟩ := close (policy := policy) hsound.inv h5 h6 h7 h8
  have hd : delivered u.trace = delivered t.trace := by
    rw [htr]; simp [delivered, List.filterMap_append]
  have hc : claimed u.trace = claimed t.trace := by
    rw [htr]; simp [claimed, List.filterMap_append]
  refine ⟨ds ++ [.stop, .consumer false, .consumer false, .consumer false, .consumer false, .consumer false, .join], ?_, u, ?_, ?_,
    ?_, ?_⟩
  · intro c hc
    simp only [List.mem_append, List.mem_cons, List.not_mem_nil, or_false] at hc
    rcases hc with hc | hc | hc | hc | hc | hc | hc | hc
    · have := h1 c hc
      cases c <;> first | rfl | exact this
    all_goals (subst hc; rfl)
  · rw [run_append, h2]
    exact hu
  · rw [hd, hc, h4, hsound.told.claimed]
  · rw [hc, hsound.told.claimed, h3, h9]
  · rw [htr]
    simp

/-- In the same situation every call that was made can return. -/
theorem C78_can_return_partial (hk : 1 ≤ k) (hs : (State.init : State E).run (2 ^ k) policy cs = some s) (hf : NoFailure cs)
    (hst : s.stopped = false) (ht : s.consumer ≠ .terminated) (p : Nat) :
    ∃ ds, (∀ c ∈ ds, c.finishing = true) ∧ ∃ t, s.run (2 ^ k) policy ds = some t ∧ t.producers p = .idle := by
  obtain ⟨t, ⟨ds, h1, h2, -, -⟩, hsound, -, -, -, h7, h8⟩ := drain_init hk hs hf hst ht
  exact CanReturn.after ds h1 h2 (return_any hsound.inv h7 h8)

/-- The claim fails if a copy fails. The call that threw had a place, the one after the first `n`; from then on, whatever
happens, not more than these `n` records are ever delivered, although later calls get places and return. Unless the worker
had found the queue empty at that very moment, the destructor never returns. -/
theorem C78_fails_exception {p : Nat} (hk : 1 ≤ k) (hs : (State.init : State E).run (2 ^ k) policy cs = some s) {s1 : State E}
    (ht : s.step (2 ^ k) policy (.throws p) = some s1) :
    ∃ e n, (claimed s.trace)[n]? = some (p, e) ∧ s1.trace = s.trace ++ [.threw p e] ∧
      ∀ ds t, s1.run (2 ^ k) policy ds = some t →
        (delivered t.trace).length ≤ n ∧
        ((∀ o, s.consumer = .got o → o ≠ none) → s.consumer ≠ .exited → Ev.destroyed ∉ t.trace) := by
  have h := inv_run hk inv_init hs
  have h1 := inv_step hk h ht
  have htold := told_run hk inv_init ⟨rfl, rfl⟩ hs
  have hdest := destroyed_run (s := State.init) (fun h => by simp [State.init] at h) hs
  have hdest1 := destroyed_step hdest ht
  obtain ⟨e, q, hp, rfl⟩ : ∃ e q, (s.producers p).place = some (e, q) ∧ s1 = (s.go p .idle).say (.threw p e) := by
    simp only [State.step, State.fail] at ht
    split at ht
    · rename_i e q hp
      cases ht
      exact ⟨e, q, by rw [hp]; rfl, rfl⟩
    · rename_i e q hp
      cases ht
      exact ⟨e, q, by rw [hp]; rfl, rfl⟩
    · cases ht
  have htold1 := told_step hk h htold ht
  refine ⟨e, q, by rw [htold.claimed]; exact (place_good h hp).2.2.1, rfl, ?_⟩
  intro ds t hr
  obtain ⟨hl, hu⟩ := lost_run hk h1 (lost_fail h hp _) hr
  constructor
  · have := congrArg List.length (told_run hk h1 htold1 hr).delivered
    rw [List.length_append, List.length_take] at this
    have := hl.low
    omega
  · intro h2 h3 hm
    have h4 : s.consumer.unaware = true := by
      cases hc : s.consumer with
      | got o =>
        cases o with
        | none => exact absurd rfl (h2 none hc)
        | some x => rfl
      | exited => exact absurd hc h3
      | _ => rfl
    have h5 := hu h4
    rw [destroyed_run hdest1 hr hm] at h5
    cases h5

/-! ## Examples -/

/-- Two producers; the second fills its place first, and the worker waits for the first. -/
def twoProducers : List (Cmd String) :=
  [.emit 1 "a", .emit 2 "b", .producer 1 false, .producer 2 false, .producer 1 false, .producer 2 false,
   .producer 1 false, .producer 2 false, .producer 2 false, .producer 2 false, .producer 2 false, .producer 2 false,
   .producer 2 false,
   .consumer false, .consumer false, .consumer false, .consumer false,
   .producer 1 false, .producer 1 false, .producer 1 false,
   .consumer false, .consumer false, .consumer false, .consumer false, .consumer false, .consumer false, .consumer false,
   .consumer false]

/-- The first call has failed to copy its record; two more records get a place and their calls return. -/
def failedCopy : List (Cmd String) :=
  [.emit 1 "a", .producer 1 false, .producer 1 false, .producer 1 false, .producer 1 false]

/-- The queue has four places; the worker does not run. The fifth record is discarded. -/
def overflowing : List (Cmd Nat) :=
  (List.range 4).flatMap (fun n => [.emit 1 n, .producer 1 false, .producer 1 false, .producer 1 false, .producer 1 false,
    .producer 1 false, .producer 1 false]) ++
  [.emit 1 4, .producer 1 false, .producer 1 false, .producer 1 false, .producer 1 false, .producer 1 false]

example : NoFailure twoProducers := by
  intro p
  simp [twoProducers]

example : ((State.init : State String).run (2 ^ 2) .wait twoProducers).map (fun s => (s.trace, s.stopped, s.consumer)) =
    some ([.call 1 "a", .call 2 "b", .claim 1 "a", .claim 2 "b", .returned 2 "b", .returned 1 "a", .deliver 1 "a"],
      false, .loop) := by rfl

example : ((State.init : State String).run (2 ^ 2) .wait failedCopy).map (fun s => (s.trace, s.consumer)) =
    some ([.call 1 "a", .claim 1 "a"], .loop) := by rfl

example : ((State.init : State String).run (2 ^ 2) .wait (failedCopy ++ [.throws 1, .emit 2 "b", .producer 2 false,
    .producer 2 false, .producer 2 false, .producer 2 false, .producer 2 false, .producer 2 false, .stop,
    .consumer false, .consumer false, .consumer false, .consumer false])).map (fun s => (s.trace, s.consumer)) =
    some ([.call 1 "a", .claim 1 "a", .threw 1 "a", .call 2 "b", .claim 2 "b", .returned 2 "b", .stop], .loop) := by rfl

example : (((State.init : State Nat).run (2 ^ 2) .drop overflowing).map (fun s => s.trace.getLast?)) =
    some (some (.discard 1 4)) := by rfl

end Blackhole.Ring
