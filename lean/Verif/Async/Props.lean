import Verif.Async.Lemmas

/-!
# Properties C09-C12: the asynchronous sink

`State.init.run cap policy cs = some s`: schedule `cs` of a sink with capacity `cap` leads to `s`, and `s.trace` is
everything that was observable on the way.
-/

namespace Blackhole.Async
variable {E : Type}

/-- **C09.** In every schedule, what the wrapped sink received is a prefix of what the queue accepted: same
events, same order, none twice, none invented. What is missing is exactly the event in the consumer's hands and
the queue. -/
theorem C09_prefix (cap : Nat) (policy : Policy) (cs : List (Cmd E)) (s : State E)
    (h : State.init.run cap policy cs = some s) :
    delivered s.trace <+: accepted s.trace ∧
    ∃ hand, hand.length ≤ 1 ∧ accepted s.trace = delivered s.trace ++ hand ++ s.queue := by
  have i := (run_inv cs s h).fifo
  refine ⟨⟨s.consumer.inHand ++ s.queue, by rw [i, List.append_assoc]⟩, s.consumer.inHand, ?_, i⟩
  cases s.consumer with
  | got e => cases e <;> simp [CPc.inHand]
  | _ => simp [CPc.inHand]

/-- **C09, per producer.** The calls of each producer end in the order they were made, each exactly once, with the
event they were made with; at most the last call is still unfinished. -/
theorem C09_producer_order (cap : Nat) (policy : Policy) (cs : List (Cmd E)) (s : State E)
    (h : State.init.run cap policy cs = some s) (p : Nat) :
    ∃ pending, pending.length ≤ 1 ∧
      calledBy p s.trace = (endedBy p s.trace).map Prod.fst ++ pending := by
  refine ⟨_, ?_, (run_inv cs s h).calls p⟩
  cases s.producers p <;> simp [PPc.pending]

theorem accepted_of_producer (p : Nat) (tr : List (Ev E)) :
    ((accepted tr).filter (fun x => x.1 = p)).map Prod.snd =
      ((endedBy p tr).filter (fun x => x.2 = true)).map Prod.fst := by
  induction tr with
  | nil => rfl
  | cons e tr ih =>
    cases e with
    | accept q e =>
      by_cases hq : q = p
      · simp [accepted, endedBy, hq] at ih ⊢; exact ih
      · simp [accepted, endedBy, hq] at ih ⊢; exact ih
    | discard q e =>
      by_cases hq : q = p
      · simp [accepted, endedBy, hq] at ih ⊢; exact ih
      · simp [accepted, endedBy, hq] at ih ⊢; exact ih
    | _ => simpa [accepted, endedBy] using ih

/-- **C09, end to end.** The events of producer `p` that reached the wrapped sink are a prefix of the accepted
ones among its calls, in call order. -/
theorem C09_producer_delivery (cap : Nat) (policy : Policy) (cs : List (Cmd E)) (s : State E)
    (h : State.init.run cap policy cs = some s) (p : Nat) :
    ((delivered s.trace).filter (fun x => x.1 = p)).map Prod.snd <+:
      ((endedBy p s.trace).filter (fun x => x.2 = true)).map Prod.fst := by
  obtain ⟨⟨t, ht⟩, -⟩ := C09_prefix cap policy cs s h
  rw [← accepted_of_producer, ← ht]
  simp

/-- **C10, bound.** The queue never holds more than its capacity. -/
theorem C10_bounded (cap : Nat) (policy : Policy) (cs : List (Cmd E)) (s : State E)
    (h : State.init.run cap policy cs = some s) : s.queue.length ≤ cap := (run_inv cs s h).bound

/-- **C10, wait.** With the wait policy nothing is ever discarded: every finished call was accepted. -/
theorem C10_wait_never_discards (cap : Nat) (cs : List (Cmd E)) (s : State E)
    (h : State.init.run cap .wait cs = some s) :
    discarded s.trace = [] ∧ ∀ p, ∀ x ∈ endedBy p s.trace, x.2 = true := by
  refine run_induct (P := fun s : State E => discarded s.trace = [] ∧ ∀ p, ∀ x ∈ endedBy p s.trace, x.2 = true)
    ?_ cs _ _ ⟨rfl, by simp [State.init, endedBy]⟩ h
  intro s s' c ⟨i1, i2⟩ h
  have key : ∀ tr : List (Ev E), (∀ p e, Ev.discard p e ∉ tr) →
      discarded (s.trace ++ tr) = [] ∧ ∀ p, ∀ x ∈ endedBy p (s.trace ++ tr), x.2 = true := by
    intro tr htr
    have : discarded tr = [] ∧ ∀ p, ∀ x ∈ endedBy p tr, x.2 = true := by
      clear h
      induction tr with
      | nil => simp [discarded, endedBy]
      | cons e tr ih =>
        have ih' := ih (fun p e he => htr p e (by simp [he]))
        cases e with
        | discard p e => exact absurd (by simp) (htr p e)
        | accept q e =>
          refine ⟨by simpa [discarded] using ih'.1, ?_⟩
          intro p x hx
          simp only [endedBy] at hx
          split at hx
          · simp at hx; rcases hx with rfl | hx
            · rfl
            · exact ih'.2 p x hx
          · exact ih'.2 p x hx
        | _ => exact ⟨by simpa [discarded] using ih'.1, by simpa [endedBy] using ih'.2⟩
    refine ⟨by simp [i1, this.1], ?_⟩
    intro p x hx
    simp only [endedBy_append, List.mem_append] at hx
    rcases hx with hx | hx
    · exact i2 p x hx
    · exact this.2 p x hx
  cases c <;> simp only [State.step, State.produce, State.consume, Policy.overflow] at h <;>
    (repeat' split at h) <;> simp only [Option.some.injEq, reduceCtorEq] at h <;> subst h <;>
    first
      | exact ⟨i1, i2⟩
      | exact key _ (by simp)

/-- **C10, wait, return.** A call returns only at the step that puts its event into the queue. -/
theorem C10_wait_returns_accepted (cap : Nat) (s s' : State E) (c : Cmd E) (p : Nat) (e : E)
    (hp : s.producers p = .trying e ∨ s.producers p = .full e) (h : s.step cap .wait c = some s')
    (hret : s'.producers p = .idle) :
    s'.queue = s.queue ++ [(p, e)] ∧ s'.trace = s.trace ++ [.accept p e] := by
  cases c <;> simp only [State.step, State.produce, State.consume, Policy.overflow] at h <;>
    (repeat' split at h) <;> simp only [Option.some.injEq, reduceCtorEq] at h <;> subst h <;>
    simp only [State.setProducer] at hret ⊢ <;> grind

/-- **C10, drop, never blocks.** With the drop policy a call takes at most two steps of its own, whatever the
others do in between; the other threads' steps do not change where the call is. -/
theorem C10_drop_returns (cap : Nat) (s : State E) (p : Nat) (e : E) :
    (s.producers p = .trying e → ∃ s', s.step cap .drop (.producer p) = some s' ∧
      (s'.producers p = .idle ∨ s'.producers p = .full e)) ∧
    (s.producers p = .full e → ∃ s', s.step cap .drop (.producer p) = some s' ∧
      s'.producers p = .idle) ∧
    (∀ c s', s.step cap .drop c = some s' → c ≠ .producer p → (∀ x, c ≠ .emit p x) →
      s'.producers p = s.producers p) := by
  refine ⟨?_, ?_, ?_⟩
  · intro hp
    by_cases hlt : s.queue.length < cap
    · exact ⟨_, by simp only [State.step, State.produce, hp, hlt, if_true]; rfl, by simp [State.setProducer]⟩
    · exact ⟨_, by simp only [State.step, State.produce, hp, hlt, if_false]; rfl, by simp [State.setProducer]⟩
  · intro hp
    exact ⟨_, by simp only [State.step, State.produce, hp, Policy.overflow]; rfl, by simp [State.setProducer]⟩
  · intro c s' h h1 h2
    cases c <;> simp only [State.step, State.produce, State.consume, Policy.overflow] at h <;>
      (repeat' split at h) <;> simp only [Option.some.injEq, reduceCtorEq] at h <;> subst h <;>
      simp only [State.setProducer] <;> grind

/-- **C10, drop, only when full.** A producer reaches the point where its event is discarded only by a step that
found the queue full; and the discarding step exists only from there. -/
theorem C10_drop_only_when_full (cap : Nat) (policy : Policy) (s s' : State E) (c : Cmd E) (p : Nat) (e : E)
    (h : s.step cap policy c = some s') :
    (s'.producers p = .full e → s.producers p ≠ .full e →
      s.producers p = .trying e ∧ ¬ s.queue.length < cap) ∧
    (discarded s'.trace = discarded s.trace ++ [(p, e)] → s.producers p = .full e ∧ policy = .drop) := by
  constructor
  · intro h1 h2
    cases c <;> simp only [State.step, State.produce, State.consume] at h <;>
      (repeat' split at h) <;> simp only [Option.some.injEq, reduceCtorEq] at h <;> subst h <;>
      simp only [State.setProducer] at h1 <;> grind
  · intro h1
    cases policy <;> cases c <;> simp only [State.step, State.produce, State.consume, Policy.overflow] at h <;>
      (repeat' split at h) <;> simp only [Option.some.injEq, reduceCtorEq] at h <;> subst h <;>
      simp [State.setProducer, discarded] at h1
    obtain ⟨rfl, rfl⟩ := h1
    exact ⟨by assumption, rfl⟩

/-- **C11, the part that holds.** Split a schedule at the moment the destructor sets the flag. If at that moment
the consumer does not have a failed dequeue pending while something is queued, then once the destructor has
returned, everything accepted before that moment has been delivered, in order. Missing for the full claim: exactly
the excluded case, for which it is false (`C11_fails_pending_dequeue`). -/
theorem C11_drains_partial (cap : Nat) (policy : Policy) (cs₁ cs₂ : List (Cmd E)) (s₁ s₂ : State E)
    (h₁ : State.init.run cap policy cs₁ = some s₁)
    (h₂ : s₁.run cap policy (.stop :: cs₂) = some s₂)
    (hok : s₁.consumer = .got none → s₁.queue = [])
    (hj : s₂.consumer = .exited) :
    accepted s₁.trace <+: delivered s₂.trace := by
  have i := run_inv cs₁ s₁ h₁
  simp only [State.run, Option.bind_eq_some_iff] at h₂
  obtain ⟨m, hm, h₂⟩ := h₂
  have him := i.step hm
  have hm' : m = { s₁ with stopped := true, trace := s₁.trace ++ [.stop] } := by
    simp only [State.step] at hm
    split at hm <;> simp only [Option.some.injEq, reduceCtorEq] at hm
    exact hm.symm
  have hst : StopInv (accepted s₁.trace).length cap m := by
    subst hm'
    refine ⟨him, rfl, ?_, ?_, by simp⟩
    · intro hg
      have hg' : s₁.consumer = .got none := hg
      have hq := hok hg'
      have hf := i.fifo
      rw [hg', hq] at hf
      simp [CPc.inHand] at hf
      simp [delivered, hf]
    · intro hg
      -- the consumer cannot have exited before the flag was set
      have hg' : s₁.consumer = .exited := hg
      have hnot : s₁.stopped = false := by
        simp only [State.step] at hm
        split at hm
        · simp at hm
        · rename_i hns; simpa using hns
      have : ∀ s : State E, State.init.run cap policy cs₁ = some s → s.consumer = .exited → s.stopped = true := by
        intro s hs
        refine run_induct (P := fun s : State E => s.consumer = .exited → s.stopped = true) ?_ cs₁ _ _
          (by simp [State.init]) hs
        intro s s' c i h
        cases c <;> simp only [State.step, State.produce, State.consume] at h <;>
          (repeat' split at h) <;> simp only [Option.some.injEq, reduceCtorEq] at h <;> subst h <;>
          simp_all [State.setProducer]
      rw [this s₁ h₁ hg'] at hnot
      simp at hnot
  have hfin := run_induct (P := StopInv (accepted s₁.trace).length cap) (fun _ _ _ i h => i.step h) cs₂ m s₂ hst h₂
  have hlen := hfin.exited hj
  have hpre : accepted s₁.trace <+: accepted s₂.trace := by
    obtain ⟨t, ht⟩ := run_trace cs₂ m s₂ h₂
    rw [← ht, hm']
    exact ⟨accepted [Ev.stop] ++ accepted t, by simp [accepted]⟩
  obtain ⟨t, ht⟩ := hpre
  have hdel : delivered s₂.trace <+: accepted s₂.trace := ⟨s₂.consumer.inHand ++ s₂.queue, by
    rw [hfin.inv.fifo, List.append_assoc]⟩
  exact List.prefix_of_prefix_length_le ⟨t, ht⟩ hdel hlen

/-- The destructor returns only after the consumer has returned. -/
theorem C11_join_waits (cap : Nat) (policy : Policy) (s s' : State E) (h : s.step cap policy .join = some s') :
    s.consumer = .exited ∧ s'.consumer = .exited := by
  simp only [State.step] at h
  split at h <;> simp only [Option.some.injEq, reduceCtorEq] at h
  rename_i hc
  subst h; exact ⟨hc, hc⟩

/-- **C11, negation, in general.** Whenever the flag is set while a failed dequeue is pending and the queue is not
empty, the consumer's very next step is to return: everything queued is lost. -/
theorem C11_fails_pending_dequeue (cap : Nat) (policy : Policy) (s : State E) (hs : s.stopped = false)
    (hc : s.consumer = .got none) :
    ∃ s', s.run cap policy [.stop, .consumer] = some s' ∧ s'.consumer = .exited ∧ s'.queue = s.queue ∧
      delivered s'.trace = delivered s.trace ∧ ∀ policy' : Policy, s'.step cap policy' .consumer = none := by
  refine ⟨{ s with stopped := true, trace := s.trace ++ [.stop], consumer := .exited }, ?_, rfl, rfl, ?_, ?_⟩
  · simp [State.run, State.step, hs, State.consume, hc]
  · simp [delivered]
  · intro _; rfl

/-- The schedule of the loss: the consumer finds the queue empty, then an event is accepted and `emit` returns,
then the sink is destroyed. -/
def lossSchedule : List (Cmd Nat) :=
  [.consumer, .emit 0 7, .producer 0, .stop, .consumer, .join]

/-- **C11, negation, concrete.** The destructor has returned, event 7 was accepted before it began, and nothing
was delivered. -/
theorem C11_fails_concrete :
    ∃ s, State.init.run 4 .wait lossSchedule = some s ∧ s.joined = true ∧ accepted s.trace = [(0, 7)] ∧
      delivered s.trace = [] :=
  ⟨_, rfl, rfl, rfl, rfl⟩

/-- **C11, the destructor terminates.** Once the flag is set and the consumer is about to look at the queue, and
as long as the wrapped sink does not throw, the consumer returns after finitely many steps of its own, having
delivered the whole queue. -/
theorem C11_terminates (cap : Nat) (policy : Policy) (s : State E) (hs : s.stopped = true)
    (hc : s.consumer = .loop) :
    ∃ s', s.run cap policy (List.replicate (3 * s.queue.length + 2) .consumer) = some s' ∧
      s'.consumer = .exited ∧ s'.queue = [] ∧ delivered s'.trace = delivered s.trace ++ s.queue := by
  obtain ⟨q, pr, c, st, jo, tr⟩ := s
  simp only at hs hc
  subst hs hc
  induction q generalizing tr with
  | nil =>
    exact ⟨_, rfl, rfl, rfl, by simp⟩
  | cons e q ih =>
    obtain ⟨s', h1, h2, h3, h4⟩ := ih (tr ++ [.deliver e.1 e.2])
    refine ⟨s', ?_, h2, h3, ?_⟩
    · have : 3 * (e :: q).length + 2 = (3 * q.length + 2) + 1 + 1 + 1 := by simp; omega
      simp only [this, List.replicate_succ]
      simpa [State.run, State.step, State.consume, List.replicate_succ] using h1
    · rw [h4]; simp [delivered]

/-- **C12, factor.** Construction succeeds exactly for factors in [2; 20], with capacity `2 ^ factor`. -/
theorem C12_factor (factor : Nat) (policy : Policy) :
    (∀ s, Sink.make' factor policy = .ok s ↔ (2 ≤ factor ∧ factor ≤ 20 ∧ s = ⟨2 ^ factor, policy⟩)) ∧
    (¬ (2 ≤ factor ∧ factor ≤ 20) → ∃ what, Sink.make' factor policy = .error (.invalidArgument what)) := by
  by_cases h : factor < 2 ∨ factor > 20
  · have e : Sink.make' factor policy
        = .error (.invalidArgument (ch! "factor should fit in [2; 20] range")) := by
      simp [Sink.make', exp2, h, bind, Except.bind]
    rw [e]
    exact ⟨fun s => ⟨nofun, fun hs => by omega⟩, fun _ => ⟨_, rfl⟩⟩
  · have e : Sink.make' factor policy = .ok ⟨2 ^ factor, policy⟩ := by
      simp [Sink.make', exp2, h, bind, Except.bind]
    rw [e]
    refine ⟨fun s => ?_, fun hn => by omega⟩
    constructor
    · intro hs; cases hs; exact ⟨by omega, by omega, rfl⟩
    · rintro ⟨-, -, rfl⟩; rfl

/-- **C12, names.** `"drop"` and `"wait"` select the two policies, every other name is rejected. -/
theorem C12_policy_names (name : Str) :
    (create name = .ok .drop ↔ name = "drop".toList) ∧ (create name = .ok .wait ↔ name = "wait".toList) ∧
    (name ≠ "drop".toList → name ≠ "wait".toList → ∃ what, create name = .error (.invalidArgument what)) := by
  have h1 : "drop".toList = ch! "drop" := rfl
  have h2 : "wait".toList = ch! "wait" := rfl
  rw [h1, h2]
  unfold create
  by_cases e1 : name = ch! "drop"
  · subst e1; simp
  · by_cases e2 : name = ch! "wait"
    · subst e2; simp
    · simp [e1, e2]

/-- **C12, factory.** A configuration that names a known sink, a factor and a policy gives exactly that sink. -/
theorem C12_factory (c : Config) (s : Sink) :
    fromConfig c = .ok s ↔ ∃ t f name, c.sinkType = some t ∧ c.known = true ∧ c.factor = some f ∧
      c.overflow = some name ∧ 2 ≤ f ∧ f ≤ 20 ∧ s.capacity = 2 ^ f ∧
      ((name = "drop".toList ∧ s.policy = .drop) ∨ (name = "wait".toList ∧ s.policy = .wait)) := by
  obtain ⟨t, k, f, o⟩ := c
  obtain ⟨cap, pol⟩ := s
  cases t with
  | none => simp [fromConfig]
  | some t =>
    cases k with
    | false => simp [fromConfig]
    | true =>
      cases f with
      | none => simp [fromConfig]
      | some f =>
        cases o with
        | none => simp [fromConfig]
        | some name =>
          simp only [fromConfig, Bool.true_eq_false, if_false]
          obtain ⟨d1, d2, d3⟩ := C12_policy_names name
          by_cases e1 : name = "drop".toList
          · rw [d1.2 e1]
            simp only [bind, Except.bind, (C12_factor f .drop).1, Sink.mk.injEq]
            subst e1
            simp
          · by_cases e2 : name = "wait".toList
            · rw [d2.2 e2]
              simp only [bind, Except.bind, (C12_factor f .wait).1, Sink.mk.injEq]
              subst e2
              simp
            · obtain ⟨w, hw⟩ := d3 e1 e2
              rw [hw]
              constructor
              · intro hx; simp [bind, Except.bind] at hx
              · rintro ⟨t', f', name', -, -, -, hn, -, -, -, hx⟩
                simp only [Option.some.injEq] at hn; subst hn
                rcases hx with ⟨hx, -⟩ | ⟨hx, -⟩
                · exact absurd hx e1
                · exact absurd hx e2

/-- **C12, missing factory options** are undefined behaviour, not an exception (an empty optional is read). -/
theorem C12_factory_missing_is_ub (c : Config) (t : Str) (h1 : c.sinkType = some t) (h2 : c.known = true)
    (h3 : c.factor = none ∨ c.overflow = none) : fromConfig c = .error (.ub .nullDeref) := by
  obtain ⟨_, _, f, o⟩ := c
  simp only at h1 h2 h3
  subst h1 h2
  cases f <;> cases o <;> simp_all [fromConfig]

/-- The factor set last. -/
def lastFactor : Nat → List Call → Nat
  | d, [] => d
  | _, .factor n :: cs => lastFactor n cs
  | _, .factorR n :: cs => lastFactor n cs
  | d, _ :: cs => lastFactor d cs

theorem foldl_factor (cs : List Call) (b : Builder) :
    (cs.foldl Builder.call b).factor = lastFactor b.factor cs := by
  induction cs generalizing b with
  | nil => rfl
  | cons c cs ih => cases c <;> simp [List.foldl, ih, Builder.call, lastFactor]

/-- **C12, builder, factor.** The built sink has the factor set last (10 if none), or is rejected for it. -/
theorem C12_builder_factor_partial (cs : List Call) (s : Sink) :
    (cs.foldl Builder.call Builder.init).build = .ok s ↔
      (2 ≤ lastFactor 10 cs ∧ lastFactor 10 cs ≤ 20 ∧ s = ⟨2 ^ lastFactor 10 cs, .wait⟩) := by
  have : (cs.foldl Builder.call Builder.init).factor = lastFactor 10 cs := foldl_factor cs _
  simp only [Builder.build, Sink.make, this]
  exact (C12_factor _ .wait).1 s

/-- **C12, negation for the builder's policy.** Whatever is called on the builder, the sink waits. -/
theorem C12_fails_builder_policy (cs : List Call) (s : Sink)
    (h : (cs.foldl Builder.call Builder.init).build = .ok s) : s.policy = .wait := by
  obtain ⟨-, -, rfl⟩ := (C12_builder_factor_partial cs s).1 h
  rfl

/-- And `drop()` on a temporary does not even record the request. -/
theorem C12_fails_drop_rvalue (cs : List Call) :
    ((cs ++ [Call.dropR]).foldl Builder.call Builder.init).policy = .wait := by
  simp [Builder.call]

/-- The policy asked for last, as the code takes it. -/
def lastPolicy : Policy → List Call → Policy
  | d, [] => d
  | _, .drop :: cs => lastPolicy .drop cs
  | _, .dropR :: cs => lastPolicy .wait cs
  | _, .wait :: cs => lastPolicy .wait cs
  | _, .waitR :: cs => lastPolicy .wait cs
  | d, _ :: cs => lastPolicy d cs

/-- **C12, builder, what is recorded.** The builder keeps the last request: `drop()` on an object that is not a
temporary does record it, but `build` does not look (`C12_fails_builder_policy`). -/
theorem C12_builder_records (cs : List Call) :
    (cs.foldl Builder.call Builder.init).policy = lastPolicy .wait cs ∧
    (cs.foldl Builder.call Builder.init).factor = lastFactor 10 cs := by
  refine ⟨?_, foldl_factor cs _⟩
  have : ∀ b : Builder, (cs.foldl Builder.call b).policy = lastPolicy b.policy cs := by
    induction cs with
    | nil => intro b; rfl
    | cons c cs ih => intro b; cases c <;> simp [List.foldl, ih, Builder.call, lastPolicy]
  exact this _

example : lastPolicy .wait [.wait, .drop, .factor 3] = .drop := rfl

/-! ## Witnesses -/

/-- A schedule with two producers, a full queue, a discarded event and a complete shutdown. -/
private def sched : List (Cmd Nat) :=
  [.emit 0 1, .emit 1 2, .emit 2 3, .producer 0, .producer 2, .producer 1, .producer 1, .consumer, .consumer,
   .consumer, .stop, .consumer, .consumer, .consumer, .consumer, .consumer, .join]

example : ∃ s, State.init.run 2 .drop sched = some s ∧ s.joined = true ∧ accepted s.trace = [(0, 1), (2, 3)] ∧
    delivered s.trace = [(0, 1), (2, 3)] ∧ discarded s.trace = [(1, 2)] ∧ s.consumer = .exited :=
  ⟨_, rfl, rfl, rfl, rfl, rfl, rfl⟩

/-- The hypotheses of `C11_drains_partial` are met by splitting that schedule before `stop`. -/
example : ∃ s₁ s₂, State.init.run 2 .drop (sched.take 10) = some s₁ ∧
    s₁.run 2 .drop (.stop :: sched.drop 11) = some s₂ ∧ s₁.consumer ≠ .got none ∧ s₁.queue ≠ [] ∧
    s₂.consumer = .exited :=
  ⟨_, _, rfl, rfl, nofun, by simp, rfl⟩

/-! The other theorems, of that schedule: -/

example := C09_prefix 2 .drop sched _ rfl
example := C09_producer_order 2 .drop sched _ rfl 1
example := C09_producer_delivery 2 .drop sched _ rfl 2
example := C10_bounded 2 .drop (sched.take 7) _ rfl
example := C10_wait_never_discards 2 (sched.take 6) _ rfl
example : ∃ s s' : State Nat, State.init.run 2 .drop (sched.take 6) = some s ∧ s.producers 1 = .full 2 ∧
    s.step 2 .drop (.producer 1) = some s' ∧ discarded s'.trace = discarded s.trace ++ [(1, 2)] := ⟨_, _, rfl, rfl, rfl, rfl⟩

/-- With the policy that waits, a producer that found the queue full returns when there is room again. -/
example : ∃ s s' : State Nat,
    State.init.run 1 .wait [.emit 0 1, .producer 0, .emit 1 2, .producer 1, .consumer, .producer 1] = some s ∧
    s.producers 1 = .trying 2 ∧ s.step 1 .wait (.producer 1) = some s' ∧ s'.producers 1 = .idle ∧
    s'.queue = s.queue ++ [(1, 2)] :=
  ⟨_, _, rfl, rfl, rfl, rfl, (C10_wait_returns_accepted 1 _ _ (.producer 1) 1 2 (.inl rfl) rfl rfl).1⟩

/-- The destructor begins while two events are queued: `C11_terminates` and `C11_join_waits`. -/
example : ∃ s s' s'' : State Nat,
    State.init.run 2 .drop [.emit 0 1, .producer 0, .emit 1 2, .producer 1, .stop] = some s ∧
    s.stopped = true ∧ s.consumer = .loop ∧ s.queue = [(0, 1), (1, 2)] ∧
    s.run 2 .drop (List.replicate 8 .consumer) = some s' ∧ delivered s'.trace = [(0, 1), (1, 2)] ∧
    s'.step 2 .drop .join = some s'' :=
  ⟨_, _, _, rfl, rfl, rfl, rfl, rfl, rfl, rfl⟩

example := C12_factory_missing_is_ub ⟨some ['f'], true, some 4, none⟩ ['f'] rfl rfl (.inr rfl)
example : fromConfig ⟨some ['f'], true, some 4, some "drop".toList⟩ = .ok ⟨16, .drop⟩ := rfl
example : ([Call.drop, .factor 5, .dropR].foldl Builder.call Builder.init).build = .ok ⟨32, .wait⟩ := rfl

end Blackhole.Async
