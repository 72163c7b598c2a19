import Verif.Async.Lemmas

/-!
# C60: the asynchronous sink makes progress

A schedule is a list of turns. The turns of the worker thread are the `.consumer` ones.
-/

namespace Blackhole.Async
variable {E : Type}

/-- How many turns of a schedule are the worker's. -/
def turns : List (Cmd E) → Nat
  | [] => 0
  | .consumer :: cs => turns cs + 1
  | _ :: cs => turns cs

/-- Nothing in the schedule stops the sink, and the wrapped sink does not throw. -/
def Undisturbed (cs : List (Cmd E)) : Prop := ∀ c ∈ cs, (∀ p e, c ≠ .emit p e) → (∀ p, c ≠ .producer p) → c = .consumer

/-- The wrapped sink does not throw. -/
def NoThrow (cs : List (Cmd E)) : Prop := ∀ c ∈ cs, c ≠ .consumerThrows

/-! ## Helpers -/

/-- Turns the worker needs before `d` more events are delivered. -/
def CPc.need (d : Nat) : CPc E → Nat
  | .loop => 3 * d
  | .sleep => 3 * d + 1
  | .got none => 3 * d + 2
  | .got (some _) => 3 * d - 1
  | .deliver _ => 3 * d - 2
  | .exited => 3 * d + 2
  | .terminated => 3 * d + 2

structure Alive (cap : Nat) (s : State E) : Prop where
  inv : Inv cap s
  running : s.stopped = false
  here : s.consumer ≠ .exited ∧ s.consumer ≠ .terminated

theorem Alive.init {cap : Nat} : Alive cap (State.init (E := E)) :=
  ⟨Inv.init, rfl, nofun, nofun⟩

def Quiet (c : Cmd E) : Prop := (∀ p e, c ≠ .emit p e) → (∀ p, c ≠ .producer p) → c = .consumer

theorem Alive.step {cap : Nat} {policy : Policy} {s s' : State E} {c : Cmd E} (a : Alive cap s)
    (hc : Quiet c) (h : s.step cap policy c = some s') : Alive cap s' := by
  refine ⟨a.inv.step h, ?_, ?_⟩
  · have := a.running
    cases c <;> simp only [State.step, State.produce, State.consume] at h <;>
      (repeat' split at h) <;> simp only [Option.some.injEq, reduceCtorEq] at h <;> subst h <;>
      simp_all [State.setProducer, Quiet]
  · have h1 := a.running
    have h2 := a.here
    cases c <;> simp only [State.step, State.produce, State.consume] at h <;>
      (repeat' split at h) <;> simp only [Option.some.injEq, reduceCtorEq] at h <;> subst h <;>
      simp_all [State.setProducer, Quiet]

/-- The turns needed until `k` events are delivered only go down, by at least one with every turn of the worker. -/
theorem Alive.need_step {cap k : Nat} {policy : Policy} {s s' : State E} {c : Cmd E} (a : Alive cap s)
    (hk : k ≤ (accepted s.trace).length) (hc : Quiet c) (h : s.step cap policy c = some s')
    (hd : (delivered s'.trace).length < k) :
    (delivered s.trace).length < k ∧
    s'.consumer.need (k - (delivered s'.trace).length) + turns [c]
      ≤ s.consumer.need (k - (delivered s.trace).length) := by
  have hf := congrArg List.length a.inv.fifo
  simp only [List.length_append] at hf
  have hr := a.running
  cases c with
  | consumer =>
    simp only [State.step, State.consume] at h
    split at h
    · rename_i hp
      rw [hp] at hf ⊢
      split at h
      · rename_i hq
        simp only [Option.some.injEq] at h; subst h
        simp [hq, CPc.inHand] at hf hd
        omega
      · simp only [Option.some.injEq] at h; subst h
        simp only [CPc.need, turns] at hd ⊢
        omega
    · rename_i hp
      rw [hp]
      simp only [hr, Bool.false_eq_true, if_false, Option.some.injEq] at h
      subst h
      simp only [CPc.need, turns] at hd ⊢
      omega
    · rename_i hp
      rw [hp]
      simp only [Option.some.injEq] at h; subst h
      simp only [CPc.need, turns] at hd ⊢
      omega
    · rename_i hp
      rw [hp]
      simp only [Option.some.injEq] at h; subst h
      simp only [CPc.need, turns, delivered_append, delivered, List.length_append, List.length_singleton] at hd ⊢
      omega
    · rename_i hp
      rw [hp]
      simp only [Option.some.injEq] at h; subst h
      simp only [CPc.need, turns] at hd ⊢
      omega
    · simp at h
    · simp at h
  | emit p e =>
    simp only [State.step] at h
    split at h <;> simp only [Option.some.injEq, reduceCtorEq] at h
    subst h
    simp [State.setProducer, delivered, turns] at hd ⊢
    exact hd
  | producer p =>
    simp only [State.step, State.produce] at h
    (repeat' split at h) <;> simp only [Option.some.injEq, reduceCtorEq] at h <;> subst h <;>
      (simp [State.setProducer, delivered, turns] at hd ⊢; exact hd)
  | consumerThrows => simp [Quiet] at hc
  | stop => simp [Quiet] at hc
  | join => simp [Quiet] at hc

theorem turns_cons (c : Cmd E) (cs : List (Cmd E)) : turns (c :: cs) = turns [c] + turns cs := by
  cases c <;> simp [turns] <;> omega

theorem Alive.need_run {cap k : Nat} {policy : Policy} (cs : List (Cmd E)) :
    ∀ (s s' : State E), Alive cap s → k ≤ (accepted s.trace).length → (∀ c ∈ cs, Quiet c) →
      s.run cap policy cs = some s' → (delivered s'.trace).length < k →
      (delivered s.trace).length < k ∧
      s'.consumer.need (k - (delivered s'.trace).length) + turns cs
        ≤ s.consumer.need (k - (delivered s.trace).length) := by
  induction cs with
  | nil =>
    intro s s' a hk hc h hd
    simp only [State.run, Option.some.injEq] at h; subst h
    exact ⟨hd, by simp [turns]⟩
  | cons c cs ih =>
    intro s s' a hk hc h hd
    simp only [State.run, Option.bind_eq_some_iff] at h
    obtain ⟨m, h1, h2⟩ := h
    have hc1 := hc c (by simp)
    have hk' : k ≤ (accepted m.trace).length := by
      obtain ⟨t, ht⟩ := step_trace h1
      rw [← ht]; simp; omega
    obtain ⟨i1, i2⟩ := ih m s' (a.step hc1 h1) hk' (fun x hx => hc x (by simp [hx])) h2 hd
    obtain ⟨j1, j2⟩ := a.need_step hk hc1 h1 i1
    refine ⟨j1, ?_⟩
    rw [turns_cons]; omega

theorem Alive.run {cap : Nat} {policy : Policy} (cs : List (Cmd E)) :
    ∀ (s s' : State E), Alive cap s → (∀ c ∈ cs, Quiet c) → s.run cap policy cs = some s' → Alive cap s' := by
  induction cs with
  | nil => intro s s' a hc h; simp only [State.run, Option.some.injEq] at h; subst h; exact a
  | cons c cs ih =>
    intro s s' a hc h
    simp only [State.run, Option.bind_eq_some_iff] at h
    obtain ⟨m, h1, h2⟩ := h
    exact ih m s' (a.step (hc c (by simp)) h1) (fun x hx => hc x (by simp [hx])) h2

/-! ## Delivery -/

/-- **C60, delivery.** Whatever the producers do meanwhile, once the worker has had `3 * cap + 2` turns, everything
accepted before has been delivered, in order. -/
theorem C60_delivery_bound (cap : Nat) (policy : Policy) (cs₁ cs₂ : List (Cmd E)) (s₁ s₂ : State E)
    (h₁ : State.init.run cap policy cs₁ = some s₁) (h₂ : s₁.run cap policy cs₂ = some s₂)
    (hu : Undisturbed (cs₁ ++ cs₂)) (ht : 3 * cap + 2 ≤ turns cs₂) :
    accepted s₁.trace <+: delivered s₂.trace := by
  have q1 : ∀ c ∈ cs₁, Quiet c := fun c hc => hu c (by simp [hc])
  have q2 : ∀ c ∈ cs₂, Quiet c := fun c hc => hu c (by simp [hc])
  have a1 := Alive.init.run cs₁ _ _ q1 h₁
  have a2 := a1.run cs₂ _ _ q2 h₂
  have hpre : accepted s₁.trace <+: accepted s₂.trace := by
    obtain ⟨t, ht⟩ := run_trace cs₂ s₁ s₂ h₂
    rw [← ht]; exact ⟨accepted t, by simp⟩
  have hdel : delivered s₂.trace <+: accepted s₂.trace := ⟨s₂.consumer.inHand ++ s₂.queue, by
    rw [a2.inv.fifo, List.append_assoc]⟩
  refine List.prefix_of_prefix_length_le hpre hdel ?_
  refine Nat.le_of_not_lt fun hlt => ?_
  obtain ⟨n1, n2⟩ := a1.need_run cs₂ s₁ s₂ (Nat.le_refl _) q2 h₂ hlt
  have hf := congrArg List.length a1.inv.fifo
  simp only [List.length_append] at hf
  have hb := a1.inv.bound
  have e1 : 0 < s₂.consumer.need ((accepted s₁.trace).length - (delivered s₂.trace).length) := by
    cases hc : s₂.consumer with
    | got e => cases e <;> simp only [CPc.need] <;> omega
    | _ => simp only [CPc.need] <;> omega
  have e2 : s₁.consumer.need ((accepted s₁.trace).length - (delivered s₁.trace).length) ≤ 3 * s₁.queue.length + 2 := by
    cases hc : s₁.consumer with
    | got e => cases e <;> rw [hc] at hf <;> simp [CPc.need, CPc.inHand] at hf ⊢ <;> omega
    | _ => rw [hc] at hf; simp [CPc.need, CPc.inHand] at hf ⊢ <;> omega
  omega

/-- **C60, no blocking.** As long as the sink is not stopped and the wrapped sink does not throw, the worker can
always take its next turn. -/
theorem C60_never_blocks (cap : Nat) (policy : Policy) (cs : List (Cmd E)) (s : State E)
    (h : State.init.run cap policy cs = some s) (hu : Undisturbed cs) :
    ∃ s', s.step cap policy .consumer = some s' := by
  have a := (Alive.init.run cs _ _ (fun c hc => hu c hc) h).here
  simp only [State.step, State.consume]
  cases hc : s.consumer with
  | loop => cases hq : s.queue <;> simp
  | got e =>
    cases e with
    | none => cases hs : s.stopped <;> simp
    | some e => simp
  | deliver e => simp
  | sleep => simp
  | exited => exact absurd hc a.1
  | terminated => exact absurd hc a.2

/-! ## Shutdown -/

/-- Turns left to the worker once the flag is set. -/
def CPc.rest : CPc E → Nat
  | .loop => 2
  | .sleep => 3
  | .got none => 1
  | .got (some _) => 4
  | .deliver _ => 3
  | .exited => 0
  | .terminated => 0

theorem rest_step {cap : Nat} {policy : Policy} {s s' : State E} {c : Cmd E} (hs : s.stopped = true)
    (hc : c ≠ .consumerThrows) (h : s.step cap policy c = some s') :
    s'.stopped = true ∧
    3 * s'.queue.length + s'.consumer.rest + turns [c] + 3 * (accepted s.trace).length
      ≤ 3 * s.queue.length + s.consumer.rest + 3 * (accepted s'.trace).length := by
  cases c with
  | consumer =>
    simp only [State.step, State.consume] at h
    (repeat' split at h) <;> simp only [Option.some.injEq, reduceCtorEq] at h <;> subst h <;>
      simp_all [CPc.rest, turns, accepted] <;> omega
  | emit p e =>
    simp only [State.step] at h
    (repeat' split at h) <;> simp only [Option.some.injEq, reduceCtorEq] at h
    subst h
    simp [turns, State.setProducer, accepted, hs]
  | producer p =>
    simp only [State.step, State.produce] at h
    (repeat' split at h) <;> simp only [Option.some.injEq, reduceCtorEq] at h <;> subst h <;>
      simp [turns, State.setProducer, accepted, hs] <;> omega
  | consumerThrows => exact absurd rfl hc
  | stop => simp [State.step, hs] at h
  | join =>
    simp only [State.step] at h
    (repeat' split at h) <;> simp only [Option.some.injEq, reduceCtorEq] at h
    subst h
    simp [turns, accepted, hs]

theorem rest_run {cap : Nat} {policy : Policy} (cs : List (Cmd E)) :
    ∀ (s s' : State E), s.stopped = true → NoThrow cs → s.run cap policy cs = some s' →
    3 * s'.queue.length + s'.consumer.rest + turns cs + 3 * (accepted s.trace).length
      ≤ 3 * s.queue.length + s.consumer.rest + 3 * (accepted s'.trace).length := by
  induction cs with
  | nil => intro s s' hs hc h; simp only [State.run, Option.some.injEq] at h; subst h; simp [turns]
  | cons c cs ih =>
    intro s s' hs hc h
    simp only [State.run, Option.bind_eq_some_iff] at h
    obtain ⟨m, h1, h2⟩ := h
    obtain ⟨j1, j2⟩ := rest_step hs (hc c (by simp)) h1
    have := ih m s' j1 (fun x hx => hc x (by simp [hx])) h2
    rw [turns_cons]; omega

/-- **C60, shutdown.** After the destructor has set the flag, the worker takes at most `3 * cap + 4` turns, and three
more for every event that producers still get accepted; then it has returned and the destructor can. -/
theorem C60_shutdown_bound (cap : Nat) (policy : Policy) (cs₁ cs₂ : List (Cmd E)) (s₁ s₂ : State E)
    (h₁ : State.init.run cap policy cs₁ = some s₁) (h₂ : s₁.run cap policy (.stop :: cs₂) = some s₂)
    (hn : NoThrow cs₂) :
    turns cs₂ + 3 * (accepted s₁.trace).length ≤ 3 * cap + 4 + 3 * (accepted s₂.trace).length := by
  have hb := (run_inv cs₁ s₁ h₁).bound
  simp only [State.run, Option.bind_eq_some_iff] at h₂
  obtain ⟨m, hm, h₂⟩ := h₂
  simp only [State.step] at hm
  split at hm <;> simp only [Option.some.injEq, reduceCtorEq] at hm
  subst hm
  have := rest_run cs₂ _ _ rfl hn h₂
  have hr : s₁.consumer.rest ≤ 4 := by
    cases hc : s₁.consumer with
    | got e => cases e <;> simp [CPc.rest]
    | _ => simp [CPc.rest]
  simp [accepted] at this
  omega

/-- In every state of a stopped sink whose wrapped sink did not throw, the worker can take a turn or has returned,
and then the destructor can. -/
theorem C60_shutdown_never_blocks (cap : Nat) (policy : Policy) (s : State E) (hs : s.stopped = true)
    (ht : s.consumer ≠ .terminated) (hj : s.joined = false) :
    (∃ s', s.step cap policy .consumer = some s') ∨ ∃ s', s.step cap policy .join = some s' ∧ s'.joined = true := by
  simp only [State.step, State.consume]
  cases hc : s.consumer with
  | loop => cases hq : s.queue <;> simp
  | got e =>
    cases e with
    | none => cases hs : s.stopped <;> simp
    | some e => simp
  | deliver e => simp
  | sleep => simp
  | exited => simp [hs, hj]
  | terminated => exact absurd hc ht

/-! ## What is not guaranteed -/

/-- One round: the worker delivers an event, producer 1 takes the free place, producer 0 tries again and finds the
queue full again. -/
def overtake (e : E) : List (Cmd E) :=
  [.consumer, .consumer, .consumer, .emit 1 e, .producer 1, .producer 0, .producer 0]

theorem overtake_round (cap : Nat) (e : E) (s : State E) (hcap : 0 < cap) (hq : s.queue.length = cap)
    (hc : s.consumer = .loop) (h0 : s.producers 0 = .full e) (h1 : s.producers 1 = .idle) :
    ∃ s', s.run cap .wait (overtake e) = some s' ∧ s'.queue.length = cap ∧ s'.consumer = .loop ∧
      s'.producers 0 = .full e ∧ s'.producers 1 = .idle ∧
      (delivered s'.trace).length = (delivered s.trace).length + 1 ∧ endedBy 0 s'.trace = endedBy 0 s.trace := by
  obtain ⟨q, pr, c, st, jo, tr⟩ := s
  simp only at hq hc h0 h1
  subst hc
  cases q with
  | nil => simp at hq; omega
  | cons x q =>
    have hlt : q.length < cap := by simp at hq; omega
    have hge : ¬ q.length + 1 < cap := by simp at hq; omega
    refine ⟨_, by
      simp [overtake, State.run, State.step, State.consume, State.produce, State.setProducer, h0, h1, hlt, hge,
        Policy.overflow]
      rfl, ?_, rfl, ?_, ?_, ?_, ?_⟩
    · simpa using hq
    · simp
    · simp
    · simp [delivered]
    · simp [endedBy]

/-- **C60, no fairness.** With the wait policy a producer that found the queue full may be overtaken without end: for
every `n` there is a schedule in which the call of producer 0 tries `n` more times, `n` events are delivered meanwhile,
and the call has not ended. -/
theorem C60_starvation (cap : Nat) (e : E) (s : State E) (hcap : 0 < cap) (hq : s.queue.length = cap)
    (hc : s.consumer = .loop) (h0 : s.producers 0 = .full e) (h1 : s.producers 1 = .idle) (n : Nat) :
    ∃ s', s.run cap .wait (List.replicate n (overtake e)).flatten = some s' ∧ s'.producers 0 = .full e ∧
      (delivered s'.trace).length = (delivered s.trace).length + n ∧ endedBy 0 s'.trace = endedBy 0 s.trace := by
  induction n generalizing s with
  | zero => exact ⟨s, rfl, h0, rfl, rfl⟩
  | succ n ih =>
    obtain ⟨m, a1, a2, a3, a4, a5, a6, a7⟩ := overtake_round cap e s hcap hq hc h0 h1
    obtain ⟨s', b1, b2, b3, b4⟩ := ih m a2 a3 a4 a5
    refine ⟨s', ?_, b2, by omega, b4.trans a7⟩
    rw [List.replicate_succ, List.flatten_cons, run_append, a1]
    exact b1

/-! ## What the trace says about the destructor -/

/-- **C11, seen from outside.** The destructor's return is in the trace exactly if it has returned, and after it
nothing is delivered any more. -/
theorem C11_destroyed (cap : Nat) (policy : Policy) (cs : List (Cmd E)) (s : State E)
    (h : State.init.run cap policy cs = some s) :
    (Ev.destroyed ∈ s.trace ↔ s.joined = true) ∧
    ∀ before after, s.trace = before ++ [.destroyed] ++ after → delivered after = [] ∧ Ev.stop ∈ before := by
  have key := run_induct (cap := cap) (policy := policy)
    (P := fun s : State E => (s.joined = true → s.consumer = .exited) ∧ (s.stopped = true ↔ Ev.stop ∈ s.trace) ∧
      (Ev.destroyed ∈ s.trace ↔ s.joined = true) ∧
      ∀ before after, s.trace = before ++ [.destroyed] ++ after → delivered after = [] ∧ Ev.stop ∈ before)
    ?_ cs _ _ (by simp [State.init]) h
  · exact key.2.2
  · intro s s' c ⟨i1, i2, i3, i4⟩ h
    -- adding an event other than a delivery or the return itself keeps the last part
    have keep : ∀ e : Ev E, e ≠ .destroyed → delivered [e] = [] →
        ∀ before after, s.trace ++ [e] = before ++ [.destroyed] ++ after → delivered after = [] ∧ Ev.stop ∈ before := by
      intro e h1 h2 before after ht
      rcases List.eq_nil_or_concat after with rfl | ⟨after', x, rfl⟩
      · simp at ht
        exact absurd ht.2 h1
      · rw [List.concat_eq_append, ← List.append_assoc] at ht
        obtain ⟨t1, t2⟩ := List.append_inj' ht (by simp)
        obtain ⟨j1, j2⟩ := i4 before after' t1
        simp only [List.cons.injEq, and_true] at t2
        subst t2
        exact ⟨by simp [j1, h2], j2⟩
    have none : s.joined = false → ∀ before after, s.trace ≠ before ++ [.destroyed] ++ after := by
      intro hj before after ht
      have : Ev.destroyed ∈ s.trace := by rw [ht]; simp
      rw [i3, hj] at this
      cases this
    cases c with
    | emit p e =>
      simp only [State.step] at h
      (repeat' split at h) <;> simp only [Option.some.injEq, reduceCtorEq] at h
      subst h
      exact ⟨i1, by simpa [State.setProducer] using i2, by simpa [State.setProducer] using i3, keep _ nofun rfl⟩
    | producer p =>
      simp only [State.step, State.produce] at h
      (repeat' split at h) <;> simp only [Option.some.injEq, reduceCtorEq] at h <;> subst h
      · exact ⟨i1, by simpa [State.setProducer] using i2, by simpa [State.setProducer] using i3, keep _ nofun rfl⟩
      · exact ⟨i1, i2, i3, i4⟩
      · exact ⟨i1, i2, i3, i4⟩
      · exact ⟨i1, by simpa [State.setProducer] using i2, by simpa [State.setProducer] using i3, keep _ nofun rfl⟩
    | consumer =>
      have hj : s.joined = false := by
        cases hj : s.joined with
        | false => rfl
        | true => rw [State.step, State.consume, i1 hj] at h; cases h
      simp only [State.step, State.consume] at h
      (repeat' split at h) <;> simp only [Option.some.injEq, reduceCtorEq] at h <;> subst h
      · exact ⟨by simp [hj], i2, i3, i4⟩
      · exact ⟨by simp [hj], i2, i3, i4⟩
      · exact ⟨by simp [hj], i2, i3, i4⟩
      · exact ⟨by simp [hj], i2, i3, i4⟩
      · exact ⟨by simp [hj], i2, i3, i4⟩
      · refine ⟨by simp [hj], by simpa using i2, by simpa using i3, ?_⟩
        intro before after ht
        rcases List.eq_nil_or_concat after with rfl | ⟨after', x, rfl⟩
        · have := congrArg List.getLast? ht
          simp at this
        · rw [List.concat_eq_append, ← List.append_assoc] at ht
          exact absurd (List.append_inj' ht (by simp)).1 (none hj before after')
      · exact ⟨by simp [hj], i2, i3, i4⟩
    | consumerThrows =>
      have hj : s.joined = false := by
        cases hj : s.joined with
        | false => rfl
        | true => rw [State.step, i1 hj] at h; cases h
      simp only [State.step] at h
      (repeat' split at h) <;> simp only [Option.some.injEq, reduceCtorEq] at h
      subst h
      refine ⟨by simp [hj], by simpa using i2, by simpa using i3, ?_⟩
      intro before after ht
      rcases List.eq_nil_or_concat after with rfl | ⟨after', x, rfl⟩
      · have := congrArg List.getLast? ht
        simp at this
      · rw [List.concat_eq_append, ← List.append_assoc] at ht
        exact absurd (List.append_inj' ht (by simp)).1 (none hj before after')
    | stop =>
      simp only [State.step] at h
      (repeat' split at h) <;> simp only [Option.some.injEq, reduceCtorEq] at h
      subst h
      exact ⟨i1, by simp, by simpa using i3, keep _ nofun rfl⟩
    | join =>
      simp only [State.step] at h
      split at h <;> simp only [Option.some.injEq, reduceCtorEq] at h
      rename_i hs hj hc
      subst h
      refine ⟨fun _ => hc, by simpa using i2, by simp, ?_⟩
      intro before after ht
      rcases List.eq_nil_or_concat after with rfl | ⟨after', x, rfl⟩
      · simp only [List.append_nil] at ht
        have := (List.append_inj' ht (by simp)).1
        subst this
        exact ⟨rfl, i2.1 hs⟩
      · rw [List.concat_eq_append, ← List.append_assoc] at ht
        exact absurd (List.append_inj' ht (by simp)).1 (none hj before after')

/-! ## Witnesses -/

/-- Two producers work while the worker has its turns. -/
private def busy : List (Cmd Nat) :=
  [.emit 0 1, .producer 0, .consumer, .consumer, .emit 1 2, .consumer, .producer 1, .consumer, .consumer, .consumer,
   .consumer, .consumer, .consumer]

example : ∃ s₁ s₂, State.init.run 2 .wait (busy.take 2) = some s₁ ∧ s₁.run 2 .wait (busy.drop 2) = some s₂ ∧
    Undisturbed busy ∧ 3 * 2 + 2 ≤ turns (busy.drop 2) ∧ accepted s₁.trace = [(0, 1)] ∧
    delivered s₂.trace = [(0, 1), (1, 2)] := by
  refine ⟨_, _, rfl, rfl, ?_, by decide, rfl, rfl⟩
  intro c hc h1 h2
  simp only [busy, List.mem_cons, List.not_mem_nil, or_false] at hc
  rcases hc with rfl | rfl | rfl | rfl | rfl | rfl | rfl | rfl | rfl | rfl | rfl | rfl | rfl <;> first
    | rfl
    | exact absurd rfl (h1 _ _)
    | exact absurd rfl (h2 _)

/-- The worker can always go on in it, and after `stop` it needs at most the turns of `C60_shutdown_bound`. -/
example : ∃ s s' : State Nat, State.init.run 2 .wait (busy.take 5) = some s ∧ s.step 2 .wait .consumer = some s' :=
  ⟨_, _, rfl, rfl⟩

example : ∃ s₁ s₂ : State Nat, State.init.run 2 .wait [.emit 0 1, .producer 0, .emit 1 2, .producer 1] = some s₁ ∧
    s₁.run 2 .wait (.stop :: List.replicate 8 .consumer) = some s₂ ∧ turns (List.replicate 8 (.consumer : Cmd Nat)) = 8 ∧
    s₂.stopped = true ∧ s₂.consumer ≠ .terminated ∧ s₂.joined = false ∧ s₂.consumer = .exited :=
  ⟨_, _, rfl, rfl, rfl, rfl, nofun, rfl, rfl⟩

/-- A state as in `C60_starvation`. -/
example : ∃ s : State Nat, State.init.run 1 .wait [.emit 1 5, .producer 1, .emit 0 7, .producer 0] = some s ∧
    s.queue.length = 1 ∧ s.consumer = .loop ∧ s.producers 0 = .full 7 ∧ s.producers 1 = .idle :=
  ⟨_, rfl, rfl, rfl, rfl, rfl⟩

/-- A schedule in which the destructor returns. -/
example : ∃ s : State Nat, State.init.run 1 .wait [.emit 1 5, .producer 1, .stop, .consumer, .consumer, .consumer,
    .consumer, .consumer, .join] = some s ∧ Ev.destroyed ∈ s.trace := by
  refine ⟨_, rfl, ?_⟩
  simp

end Blackhole.Async
