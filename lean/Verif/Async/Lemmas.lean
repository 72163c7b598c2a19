import Verif.Async.Spec

namespace Blackhole.Async
variable {E : Type}

@[simp] theorem accepted_append (a b : List (Ev E)) : accepted (a ++ b) = accepted a ++ accepted b := by
  induction a with
  | nil => rfl
  | cons e a ih => cases e <;> simp [accepted, ih]

@[simp] theorem delivered_append (a b : List (Ev E)) : delivered (a ++ b) = delivered a ++ delivered b := by
  induction a with
  | nil => rfl
  | cons e a ih => cases e <;> simp [delivered, ih]

@[simp] theorem discarded_append (a b : List (Ev E)) : discarded (a ++ b) = discarded a ++ discarded b := by
  induction a with
  | nil => rfl
  | cons e a ih => cases e <;> simp [discarded, ih]

@[simp] theorem calledBy_append (p : Nat) (a b : List (Ev E)) :
    calledBy p (a ++ b) = calledBy p a ++ calledBy p b := by
  induction a with
  | nil => rfl
  | cons e a ih => cases e <;> simp [calledBy, ih] <;> split <;> simp

@[simp] theorem endedBy_append (p : Nat) (a b : List (Ev E)) :
    endedBy p (a ++ b) = endedBy p a ++ endedBy p b := by
  induction a with
  | nil => rfl
  | cons e a ih => cases e <;> simp [endedBy, ih] <;> split <;> simp

/-- The event in the consumer's hands. -/
def CPc.inHand : CPc E → List (Nat × E)
  | .got (some e) => [e]
  | .deliver e => [e]
  | _ => []

/-- The event a producer is trying to emit. -/
def PPc.pending : PPc E → List E
  | .idle => []
  | .trying e => [e]
  | .full e => [e]

structure Inv (cap : Nat) (s : State E) : Prop where
  fifo : accepted s.trace = delivered s.trace ++ s.consumer.inHand ++ s.queue
  bound : s.queue.length ≤ cap
  calls : ∀ p, calledBy p s.trace = (endedBy p s.trace).map Prod.fst ++ (s.producers p).pending

theorem Inv.init {cap : Nat} : Inv cap (State.init (E := E)) := by
  constructor <;> simp [State.init, accepted, delivered, CPc.inHand, calledBy, endedBy, PPc.pending]

theorem Inv.step {cap : Nat} {policy : Policy} {s s' : State E} {c : Cmd E} (i : Inv cap s)
    (h : s.step cap policy c = some s') : Inv cap s' := by
  obtain ⟨i1, i2, i3⟩ := i
  cases c with
  | emit p e =>
    simp only [State.step] at h
    split at h
    · rename_i hp
      simp only [Option.some.injEq] at h; subst h
      refine ⟨by simp [accepted, delivered, State.setProducer, i1], i2, ?_⟩
      intro q
      simp only [State.setProducer, calledBy_append, endedBy_append, calledBy, endedBy, i3 q]
      by_cases e : q = p
      · subst e; simp [hp, PPc.pending]
      · simp [e, Ne.symm e]
    · simp at h
  | producer p =>
    simp only [State.step, State.produce] at h
    split at h
    · simp at h
    · rename_i e hp
      split at h
      · rename_i hlt
        simp only [Option.some.injEq] at h; subst h
        refine ⟨by simp [accepted, delivered, State.setProducer, i1], by simp; omega, ?_⟩
        intro q
        simp only [State.setProducer, calledBy_append, endedBy_append, calledBy, endedBy, i3 q]
        by_cases e : q = p
        · subst e; simp [hp, PPc.pending]
        · simp [e, Ne.symm e]
      · simp only [Option.some.injEq] at h; subst h
        refine ⟨i1, i2, ?_⟩
        intro q
        simp only [State.setProducer, i3 q]
        by_cases e : q = p
        · subst e; simp [hp, PPc.pending]
        · simp [e]
    · rename_i e hp
      split at h
      · simp only [Option.some.injEq] at h; subst h
        refine ⟨i1, i2, ?_⟩
        intro q
        simp only [State.setProducer, i3 q]
        by_cases e : q = p
        · subst e; simp [hp, PPc.pending]
        · simp [e]
      · simp only [Option.some.injEq] at h; subst h
        refine ⟨by simp [accepted, delivered, State.setProducer, i1], i2, ?_⟩
        intro q
        simp only [State.setProducer, calledBy_append, endedBy_append, calledBy, endedBy, i3 q]
        by_cases e : q = p
        · subst e; simp [hp, PPc.pending]
        · simp [e, Ne.symm e]
  | consumer =>
    simp only [State.step, State.consume] at h
    split at h
    · rename_i hc
      split at h
      · rename_i hq
        simp only [Option.some.injEq] at h; subst h
        exact ⟨by simpa [CPc.inHand, hc] using i1, i2, i3⟩
      · rename_i e rest hq
        simp only [Option.some.injEq] at h; subst h
        refine ⟨by simpa [CPc.inHand, hc, hq] using i1, ?_, i3⟩
        simp [hq] at i2; simp; omega
    · rename_i hc
      split at h <;> (simp only [Option.some.injEq] at h; subst h) <;>
        exact ⟨by simpa [CPc.inHand, hc] using i1, i2, i3⟩
    · rename_i e hc
      simp only [Option.some.injEq] at h; subst h
      exact ⟨by simpa [CPc.inHand, hc] using i1, i2, i3⟩
    · rename_i e hc
      simp only [Option.some.injEq] at h; subst h
      refine ⟨by simpa [CPc.inHand, hc, accepted, delivered] using i1, i2, ?_⟩
      intro q
      simp [calledBy, endedBy, i3 q]
    · rename_i hc
      simp only [Option.some.injEq] at h; subst h
      exact ⟨by simpa [CPc.inHand, hc] using i1, i2, i3⟩
    · simp at h
    · simp at h
  | consumerThrows =>
    simp only [State.step] at h
    split at h
    · rename_i e hc
      simp only [Option.some.injEq] at h; subst h
      refine ⟨by simpa [CPc.inHand, hc, accepted, delivered] using i1, i2, ?_⟩
      intro q
      simp [calledBy, endedBy, i3 q]
    · simp at h
  | stop =>
    simp only [State.step] at h
    split at h
    · simp at h
    · simp only [Option.some.injEq] at h; subst h
      refine ⟨by simpa [accepted, delivered] using i1, i2, ?_⟩
      intro q
      simp [calledBy, endedBy, i3 q]
  | join =>
    simp only [State.step] at h
    split at h
    · simp only [Option.some.injEq] at h; subst h
      refine ⟨by simpa [accepted, delivered] using i1, i2, ?_⟩
      intro q
      simp [calledBy, endedBy, i3 q]
    · simp at h

/-- Any property kept by every step holds after every schedule. -/
theorem run_induct {cap : Nat} {policy : Policy} {P : State E → Prop}
    (hstep : ∀ s s' c, P s → s.step cap policy c = some s' → P s') :
    ∀ (cs : List (Cmd E)) (s s' : State E), P s → s.run cap policy cs = some s' → P s' := by
  intro cs
  induction cs with
  | nil => intro s s' i h; simp [State.run] at h; subst h; exact i
  | cons c cs ih =>
    intro s s' i h
    simp only [State.run, Option.bind_eq_some_iff] at h
    obtain ⟨m, h1, h2⟩ := h
    exact ih m s' (hstep s m c i h1) h2

theorem run_inv {cap : Nat} {policy : Policy} (cs : List (Cmd E)) (s : State E)
    (h : State.init.run cap policy cs = some s) : Inv cap s :=
  run_induct (P := Inv cap) (fun _ _ _ i h => i.step h) cs _ _ Inv.init h

theorem run_append {cap : Nat} {policy : Policy} (s : State E) (a b : List (Cmd E)) :
    s.run cap policy (a ++ b) = (s.run cap policy a).bind (·.run cap policy b) := by
  induction a generalizing s with
  | nil => rfl
  | cons c a ih =>
    simp only [List.cons_append, State.run]
    cases h : s.step cap policy c with
    | none => rfl
    | some s' => simp [ih]

/-- The trace only grows. -/
theorem step_trace {cap : Nat} {policy : Policy} {s s' : State E} {c : Cmd E}
    (h : s.step cap policy c = some s') : s.trace <+: s'.trace := by
  cases c <;> simp only [State.step, State.produce, State.consume] at h <;>
    (repeat' split at h) <;> simp only [Option.some.injEq, reduceCtorEq] at h <;> subst h <;>
    simp [State.setProducer]

theorem run_trace {cap : Nat} {policy : Policy} (cs : List (Cmd E)) (s s' : State E)
    (h : s.run cap policy cs = some s') : s.trace <+: s'.trace :=
  run_induct (P := fun x => s.trace <+: x.trace) (fun _ _ _ i h => i.trans (step_trace h)) cs s s'
    (List.prefix_refl _) h

/-- After the flag is set: `k` is the number of events accepted before it was set. Either the consumer may still
see the queue, or it has found it empty after all of them were taken. -/
structure StopInv (k : Nat) (cap : Nat) (s : State E) : Prop where
  inv : Inv cap s
  stopped : s.stopped = true
  got : s.consumer = .got none → k ≤ (delivered s.trace).length
  exited : s.consumer = .exited → k ≤ (delivered s.trace).length
  grow : k ≤ (accepted s.trace).length

theorem StopInv.step {k cap : Nat} {policy : Policy} {s s' : State E} {c : Cmd E} (i : StopInv k cap s)
    (h : s.step cap policy c = some s') : StopInv k cap s' := by
  have i' := i.inv.step h
  have hgrow : k ≤ (accepted s'.trace).length := by
    have := step_trace h
    obtain ⟨t, ht⟩ := this
    rw [← ht]; simp; have := i.grow; omega
  obtain ⟨i0, i1, i2, i3, i4⟩ := i
  cases c with
  | consumer =>
    simp only [State.step, State.consume] at h
    split at h
    · rename_i hc
      split at h
      · rename_i hq
        simp only [Option.some.injEq] at h; subst h
        refine ⟨i', i1, ?_, by simp, hgrow⟩
        intro _
        have := i0.fifo
        rw [hc, hq] at this
        simp [CPc.inHand] at this
        show k ≤ (delivered s.trace).length
        rw [← this]; exact i4
      · simp only [Option.some.injEq] at h; subst h
        exact ⟨i', i1, by simp, by simp, hgrow⟩
    · rename_i hc
      split at h
      · simp only [Option.some.injEq] at h; subst h
        exact ⟨i', i1, by simp, fun _ => i2 hc, hgrow⟩
      · rename_i hns; exact absurd i1 hns
    · simp only [Option.some.injEq] at h; subst h
      exact ⟨i', i1, by simp, by simp, hgrow⟩
    · simp only [Option.some.injEq] at h; subst h
      exact ⟨i', i1, by simp, by simp, hgrow⟩
    · simp only [Option.some.injEq] at h; subst h
      exact ⟨i', i1, by simp, by simp, hgrow⟩
    · simp at h
    · simp at h
  | emit p e =>
    simp only [State.step] at h
    split at h <;> simp only [Option.some.injEq, reduceCtorEq] at h
    subst h
    exact ⟨i', i1, by simpa [delivered, State.setProducer] using i2,
      by simpa [delivered, State.setProducer] using i3, hgrow⟩
  | producer p =>
    simp only [State.step, State.produce] at h
    (repeat' split at h) <;> simp only [Option.some.injEq, reduceCtorEq] at h <;> subst h <;>
      exact ⟨i', i1, by simpa [delivered, State.setProducer] using i2,
        by simpa [delivered, State.setProducer] using i3, hgrow⟩
  | consumerThrows =>
    simp only [State.step] at h
    split at h <;> simp only [Option.some.injEq, reduceCtorEq] at h
    subst h
    exact ⟨i', i1, by simp, by simp, hgrow⟩
  | stop =>
    simp [State.step, i1] at h
  | join =>
    simp only [State.step] at h
    split at h <;> simp only [Option.some.injEq, reduceCtorEq] at h
    subst h
    exact ⟨i', by simpa using i1, by simpa [delivered] using i2, by simpa [delivered] using i3, hgrow⟩

end Blackhole.Async
