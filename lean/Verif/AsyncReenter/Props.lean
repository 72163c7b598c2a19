import Verif.AsyncReenter.Lemmas

/-! # C76: a sink under an asynchronous sink that logs to it again -/

namespace Blackhole.AsyncReenter

open Async (Policy Action)

variable {E : Type}

/-- Nested records are treated as any other: whatever has been accepted, from threads and from the wrapped sink alike, has
been delivered in the order of acceptance, but for at most one record in the hand of the consumer and those in the
queue. -/
theorem C76_delivery {cap : Nat} {policy : Policy} {cs : List (Cmd E)} {s : State E}
    (h : State.init.run cap policy cs = some s) :
    ∃ hand : List (Who × E), hand.length ≤ 1 ∧ accepted s.trace = delivered s.trace ++ hand ++ s.queue := by
  refine ⟨hand s.consumer, ?_, ordered h⟩
  unfold hand
  split <;> simp

/-- A run in which the wrapped sink logs again, a thread logs at the same time, and both records are delivered. -/
def chat : List (Cmd Nat) :=
  [.emit 0 1, .producer 0, .consumer, .consumer, .consumer, .nest 2, .emit 0 3, .producer 0, .consumer, .consumer,
    .consumer, .consumer, .consumer, .consumer, .consumer, .consumer, .consumer, .consumer]

example : (State.init.run 4 .wait chat).map (fun s => (accepted s.trace, delivered s.trace)) =
    some ([(some 0, 1), (some 0, 3), (none, 2)], [(some 0, 1), (some 0, 3), (none, 2)]) := by decide

/-- What the wrapped sink has logged is never lost by destruction: by the time that the consumer has left, and so when the
destructor returns, every record of the wrapped sink that was accepted has been delivered, in order. -/
theorem C76_nested_delivered {cap : Nat} (hcap : 0 < cap) {policy : Policy} {cs : List (Cmd E)} {s : State E}
    (h : State.init.run cap policy cs = some s) (hd : Ev.destroyed ∈ s.trace) :
    nested (delivered s.trace) = nested (accepted s.trace) := by
  have hc := (sane hcap h).destroyed hd
  have ho := ordered h
  have hn := drained h (Or.inr (Or.inr hc))
  unfold Ordered at ho
  rw [ho, nested_append, nested_append, hn, hc]
  simp [hand, nested]

example : ((State.init.run 4 .wait (chat ++ [.stop, .consumer, .consumer, .join])).map
    (fun s => (nested (delivered s.trace), s.joined))) = some ([2], true) := by decide

/-- With the policy that drops, a call that the wrapped sink makes returns after at most two steps of its own thread,
whatever the other threads do in between: the record is accepted or discarded. -/
theorem C76_drop_returns {cap : Nat} {s t s' : State E} {x : E} {ds : List (Cmd E)}
    (hn : s.step cap .drop (.nest x) = some t) (hr : t.run cap .drop ds = some s')
    (h2 : 2 ≤ (ds.filter isConsumer).length) :
    Ev.accept none x ∈ newEvents t s' ∨ Ev.discard none x ∈ newEvents t s' := by
  simp only [State.step] at hn
  split at hn
  · rename_i y hy
    unfold State.call at hn
    split at hn
    · cases hn
      exact drop_pending (y := y) hy (.inl ⟨by simp [State.setCaller], h2⟩) hr
    · cases hn
  · cases hn

/-- The consumer inside the wrapped sink, with a queue of one that is full. -/
def crowded : List (Cmd Nat) :=
  [.emit 0 1, .producer 0, .consumer, .consumer, .consumer, .emit 0 2, .producer 0]

example : ((State.init.run 1 .drop crowded).bind (·.step 1 .drop (.nest 3))).isSome ∧
    (((State.init.run 1 .drop crowded).bind (·.step 1 .drop (.nest 3))).bind
      (·.run 1 .drop [.emit 0 4, .consumer, .producer 0, .consumer])).isSome := by decide

/-- With the policy that waits, nothing is discarded. -/
theorem C76_wait_keeps {cap : Nat} {cs : List (Cmd E)} {s : State E} (h : State.init.run cap .wait cs = some s)
    (p : Who) (e : E) : Ev.discard p e ∉ s.trace :=
  run_invariant (fun s : State E => ∀ p e, Ev.discard p e ∉ s.trace) discard_drop_step h (by simp [State.init]) p e

example : (State.init.run 1 .wait crowded).isSome := by decide

/-- With the policy that waits, a call that the wrapped sink has made can return, with the record accepted, exactly if
there is room in the queue at that moment: nobody else ever makes room. -/
theorem C76_wait_returns_iff {cap : Nat} {s t : State E} {x : E} (hn : s.step cap .wait (.nest x) = some t) :
    (∃ ds s', t.run cap .wait ds = some s' ∧ Ev.accept none x ∈ newEvents t s') ↔ s.queue.length < cap := by
  simp only [State.step] at hn
  split at hn
  · rename_i y hy
    unfold State.call at hn
    split at hn
    · cases hn
      constructor
      · rintro ⟨ds, s', hr, ha⟩
        apply Classical.byContradiction
        intro hq
        have hst : Stuck cap x { s.setCaller none (.trying x) with trace := s.trace ++ [.call none x] } :=
          ⟨⟨y, hy⟩, .inl (by simp [State.setCaller]), Nat.le_of_not_lt hq⟩
        exact (stuck_run (policy := .wait) rfl hst hr).2 _ ha
      · intro hq
        refine ⟨[.consumer], { s.setCaller none .idle with
          queue := s.queue ++ [(none, x)], trace := s.trace ++ [.call none x] ++ [.accept none x] }, ?_, ?_⟩
        · simp [State.run, State.step, State.consume, State.setCaller, hy, State.produce, hq]
          funext q
          by_cases hqn : q = none <;> simp [hqn]
        · rw [newEvents_of (l := [Ev.accept none x]) rfl]; simp
    · cases hn
  · cases hn

example : (((State.init.run 1 .wait crowded).bind (·.step 1 .wait (.nest 3))).map (·.queue.length)) = some 1 ∧
    (((State.init.run 2 .wait crowded).bind (·.step 2 .wait (.nest 3))).map (·.queue.length)) = some 1 := by decide

/-- The claim fails with the policy that waits, which is the default: whatever the capacity, there is a run after which
the wrapped sink, having logged into a full queue, waits for itself. From then on nothing is accepted, delivered or
discarded any more and the destructor never returns, whatever anyone does: all that happens is that others call, and
wait. -/
theorem C76_fails_wait [Inhabited E] (cap : Nat) (hcap : 0 < cap) : ∃ cs s, State.init.run cap .wait cs = some s ∧
    ∀ ds (s' : State E), s.run cap .wait ds = some s' → ∀ ev ∈ newEvents s s', (∃ p e, ev = .call (some p) e) ∨ ev = .stop := by
  let e : E := default
  let s0 : State E := { queue := []
                        callers := fun q => if q = some 0 then .idle else if q = some 0 then .trying e else .idle
                        consumer := .inside (some 0, e), stopped := false, joined := false
                        trace := [.call (some 0) e, .accept (some 0) e, .deliver (some 0) e] }
  have h0 : State.init.run cap .wait [.emit 0 e, .producer 0, .consumer, .consumer, .consumer] = some s0 := by
    simp [State.run, State.step, State.init, State.call, State.produce, State.setCaller, State.consume, hcap, s0]
  obtain ⟨s1, h1, h2, h3, h4⟩ := fill_run (policy := .wait) e cap (s := s0) (by simp [s0])
    (by simp [s0] : s0.queue.length + cap ≤ cap)
  refine ⟨[.emit 0 e, .producer 0, .consumer, .consumer, .consumer] ++ fill e cap ++ [.nest e],
    { s1.setCaller none (.trying e) with trace := s1.trace ++ [.call none e] }, ?_, ?_⟩
  · rw [run_append, run_append, h0, Option.bind_some, h1, Option.bind_some]
    have h4 : s1.callers none = .idle := by rw [h4]; simp [s0]
    simp [State.run, State.step, h3, s0, State.call, h4]
  · intro ds s' hr ev hev
    have hst : Stuck cap e { s1.setCaller none (.trying e) with trace := s1.trace ++ [.call none e] } :=
      ⟨⟨_, h3⟩, .inl (by simp [State.setCaller]), by simp [State.setCaller, h2, s0]⟩
    have := (stuck_run (policy := .wait) rfl hst hr).2 ev hev
    cases ev with
    | call p e =>
      cases p with
      | none => exact this.elim
      | some p => exact .inl ⟨p, e, rfl⟩
    | stop => exact .inr rfl
    | _ => exact this.elim

/-- Destruction ends once the wrapped sink stops logging: after the flag is set, the consumer needs nobody else, and after
some number of its own steps, in which the wrapped sink logs nothing more, the destructor returns. A call that the wrapped
sink is in must be one that can return. -/
theorem C76_destruction {cap : Nat} (hcap : 0 < cap) {policy : Policy} {cs : List (Cmd E)} {s : State E}
    (h : State.init.run cap policy cs = some s) (hs : s.stopped = true) (hd : Ev.destroyed ∉ s.trace)
    (ht : s.consumer ≠ .terminated)
    (hr : policy = .drop ∨ s.callers none = .idle ∨ s.queue.length < cap) :
    ∃ m s', s.run cap policy (List.replicate m .consumer ++ [.join]) = some s' ∧ Ev.destroyed ∈ newEvents s s' := by
  show Finishes cap policy s
  have hsane := sane hcap h
  have hj : s.joined = false := by
    cases hjj : s.joined with
    | false => rfl
    | true => exact absurd (run_invariant (fun s : State E => s.joined = true → Ev.destroyed ∈ s.trace) joined_step h
        (by simp [State.init]) hjj) hd
  have hidle := hsane.idle
  cases hc : s.consumer with
  | loop => exact finishes _ rfl hc (hidle (by simp [hc])) hs hj
  | got e =>
    have hi := hidle (by simp [hc])
    cases e with
    | none =>
      refine Finishes.before (t := { s with consumer := .exited }) (by simp [State.consume, hc, hs]) ?_
      exact finishes_exited rfl hs hj
    | some e =>
      refine Finishes.before (t := { s with consumer := .deliver e }) (by simp [State.consume, hc]) ?_
      refine Finishes.before (t := { s with consumer := .inside e, trace := s.trace ++ [.deliver e.1 e.2] })
        (by simp [State.consume]) ?_
      exact finishes_inside_idle rfl hi hs hj
  | deliver e =>
    refine Finishes.before (t := { s with consumer := .inside e, trace := s.trace ++ [.deliver e.1 e.2] })
      (by simp [State.consume, hc]) ?_
    exact finishes_inside_idle rfl (hidle (by simp [hc])) hs hj
  | inside e =>
    cases hi : s.callers none with
    | idle => exact finishes_inside_idle hc hi hs hj
    | trying x => exact finishes_trying hc hi hs hj (by simpa [hi] using hr)
    | full x => exact finishes_full hc hi hs hj (by simpa [hi] using hr)
  | sleep =>
    refine Finishes.before (t := { s with consumer := .loop }) (by simp [State.consume, hc]) ?_
    exact finishes _ rfl rfl (hidle (by simp [hc])) hs hj
  | exited => exact finishes_exited hc hs hj
  | terminated => exact absurd hc ht

example : (State.init.run 1 .drop (crowded ++ [.nest 3, .stop])).map (fun s => (s.stopped, s.queue.length)) =
    some (true, 1) := by decide

/-- A wrapped sink that logs, in each of its calls, at least one record keeps the consumer going for ever: once it has
been called, the destructor never returns, for both policies, whatever the capacity and however long one waits. -/
theorem C76_fails_destruction {cap : Nat} (hcap : 0 < cap) {policy : Policy} {cs ds : List (Cmd E)} {s s' : State E}
    (h : State.init.run cap policy cs = some s) {y : Who × E} (hy : s.consumer = .inside y)
    (hr : s.run cap policy ds = some s') (he : Echoes s'.trace) : Ev.destroyed ∉ s'.trace := by
  obtain ⟨h1, h2⟩ := run_invariant (fun s : State E => Sane s ∧ (Echoes s.trace → Busy s)) (busy_step hcap) hr
    ⟨sane hcap h, fun _ => by simp [Busy, hy]⟩
  intro hd
  have hb := h2 he
  have hx := h1.destroyed hd
  simp [Busy, hx] at hb

/-- One record from outside, echoed for ever. -/
def echo : List (Cmd Nat) := [.nest 7, .consumer, .consumer, .consumer, .consumer, .consumer]

example : (State.init.run 4 .wait ([.emit 0 1, .producer 0, .stop, .consumer, .consumer, .consumer] ++ echo ++ echo ++ echo)).map
    (fun s => ((delivered s.trace).length, s.queue.length, s.stopped, s.joined)) = some (4, 0, true, false) := by decide

end Blackhole.AsyncReenter
