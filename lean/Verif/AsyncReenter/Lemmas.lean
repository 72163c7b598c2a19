import Verif.AsyncReenter.Spec

/-! # Steps as a relation, and invariants -/

namespace Blackhole.AsyncReenter

open Async (Policy PPc Action)

variable {E : Type}

/-- The steps, one constructor for each branch of the code. -/
inductive Step (cap : Nat) (policy : Policy) (s : State E) : State E → Prop
  | call (p : Who) (e : E) (h : s.callers p = .idle) (hp : p = none → ∃ x, s.consumer = .inside x) :
      Step cap policy s { s.setCaller p (.trying e) with trace := s.trace ++ [.call p e] }
  | accept (p : Who) (e : E) (h : s.callers p = .trying e) (hq : s.queue.length < cap)
      (hp : p = none → ∃ x, s.consumer = .inside x) :
      Step cap policy s { s.setCaller p .idle with queue := s.queue ++ [(p, e)], trace := s.trace ++ [.accept p e] }
  | full (p : Who) (e : E) (h : s.callers p = .trying e) (hq : ¬ s.queue.length < cap)
      (hp : p = none → ∃ x, s.consumer = .inside x) : Step cap policy s (s.setCaller p (.full e))
  | retry (p : Who) (e : E) (h : s.callers p = .full e) (ho : policy.overflow = .retry)
      (hp : p = none → ∃ x, s.consumer = .inside x) : Step cap policy s (s.setCaller p (.trying e))
  | discard (p : Who) (e : E) (h : s.callers p = .full e) (ho : policy.overflow = .drop)
      (hp : p = none → ∃ x, s.consumer = .inside x) :
      Step cap policy s { s.setCaller p .idle with trace := s.trace ++ [.discard p e] }
  | miss (h : s.consumer = .loop) (hq : s.queue = []) : Step cap policy s { s with consumer := .got none }
  | take (e : Who × E) (rest : List (Who × E)) (h : s.consumer = .loop) (hq : s.queue = e :: rest) :
      Step cap policy s { s with consumer := .got (some e), queue := rest }
  | exit (h : s.consumer = .got none) (hs : s.stopped = true) : Step cap policy s { s with consumer := .exited }
  | rest (h : s.consumer = .got none) (hs : s.stopped = false) : Step cap policy s { s with consumer := .sleep }
  | begin (e : Who × E) (h : s.consumer = .got (some e)) : Step cap policy s { s with consumer := .deliver e }
  | deliver (e : Who × E) (h : s.consumer = .deliver e) :
      Step cap policy s { s with consumer := .inside e, trace := s.trace ++ [.deliver e.1 e.2] }
  | back (e : Who × E) (h : s.consumer = .inside e) (hc : s.callers none = .idle) :
      Step cap policy s { s with consumer := .loop, trace := s.trace ++ [.back] }
  | wake (h : s.consumer = .sleep) : Step cap policy s { s with consumer := .loop }
  | throws (e : Who × E) (h : s.consumer = .inside e) (hc : s.callers none = .idle) :
      Step cap policy s { s with consumer := .terminated }
  | stop (hs : s.stopped = false) : Step cap policy s { s with stopped := true, trace := s.trace ++ [.stop] }
  | join (hs : s.stopped = true) (hc : s.consumer = .exited) :
      Step cap policy s { s with joined := true, trace := s.trace ++ [.destroyed] }

theorem call_step {cap : Nat} {policy : Policy} {s s' : State E} {p : Who} {e : E}
    (hp : p = none → ∃ x, s.consumer = .inside x) (h : s.call p e = some s') : Step cap policy s s' := by
  unfold State.call at h
  split at h
  · rename_i hi; cases h; exact .call p e hi hp
  · cases h

theorem produce_step {cap : Nat} {policy : Policy} {s s' : State E} {p : Who}
    (hp : p = none → ∃ x, s.consumer = .inside x) (h : s.produce cap policy p = some s') : Step cap policy s s' := by
  unfold State.produce at h
  split at h
  · cases h
  · rename_i e he
    split at h
    · rename_i hq; cases h; exact .accept p e he hq hp
    · rename_i hq; cases h; exact .full p e he hq hp
  · rename_i e he
    split at h
    · rename_i ho; cases h; exact .retry p e he ho hp
    · rename_i ho; cases h; exact .discard p e he ho hp

theorem consume_step {cap : Nat} {policy : Policy} {s s' : State E} (h : s.consume cap policy = some s') :
    Step cap policy s s' := by
  unfold State.consume at h
  split at h
  · rename_i hc
    split at h
    · rename_i hq; cases h; exact .miss hc hq
    · rename_i e rest hq; cases h; exact .take e rest hc hq
  · rename_i hc
    split at h
    · rename_i hs; cases h; exact .exit hc hs
    · rename_i hs; cases h; exact .rest hc (by simpa using hs)
  · rename_i e hc; cases h; exact .begin e hc
  · rename_i e hc; cases h; exact .deliver e hc
  · rename_i e hc
    split at h
    · rename_i hi; cases h; exact .back e hc hi
    · exact produce_step (fun _ => ⟨e, hc⟩) h
  · rename_i hc; cases h; exact .wake hc
  · cases h
  · cases h

theorem step_sound {cap : Nat} {policy : Policy} {s s' : State E} {c : Cmd E} (h : s.step cap policy c = some s') :
    Step cap policy s s' := by
  cases c with
  | emit p e => exact call_step (by rintro ⟨⟩) h
  | producer p => exact produce_step (by rintro ⟨⟩) h
  | nest e =>
    simp only [State.step] at h
    split at h
    · rename_i x hx; exact call_step (fun _ => ⟨x, hx⟩) h
    · cases h
  | consumer => exact consume_step h
  | consumerThrows =>
    simp only [State.step] at h
    split at h
    · rename_i x hx hi; cases h; exact .throws x hx hi
    · cases h
  | stop =>
    simp only [State.step] at h
    split at h
    · cases h
    · rename_i hs; cases h; exact .stop (by simpa using hs)
  | join =>
    simp only [State.step] at h
    split at h
    · rename_i h1 h2 h3; cases h; exact .join h1 h3
    · cases h

/-- An invariant of steps is one of runs. -/
theorem run_invariant {cap : Nat} {policy : Policy} (I : State E → Prop) (hstep : ∀ s s', I s → Step cap policy s s' → I s')
    {s s' : State E} {cs : List (Cmd E)} (h : s.run cap policy cs = some s') (hi : I s) : I s' := by
  induction cs generalizing s with
  | nil => cases h; exact hi
  | cons c cs ih =>
    simp only [State.run] at h
    cases hc : s.step cap policy c with
    | none => rw [hc] at h; cases h
    | some t => rw [hc] at h; exact ih h (hstep s t hi (step_sound hc))

theorem run_append {cap : Nat} {policy : Policy} {s : State E} (cs ds : List (Cmd E)) :
    s.run cap policy (cs ++ ds) = (s.run cap policy cs).bind (·.run cap policy ds) := by
  induction cs generalizing s with
  | nil => rfl
  | cons c cs ih =>
    simp only [List.cons_append, State.run]
    cases s.step cap policy c with
    | none => rfl
    | some t => exact ih

theorem accepted_append (a b : List (Ev E)) : accepted (a ++ b) = accepted a ++ accepted b := by
  induction a with
  | nil => rfl
  | cons x a ih => cases x <;> simp [accepted, ih]

theorem delivered_append (a b : List (Ev E)) : delivered (a ++ b) = delivered a ++ delivered b := by
  induction a with
  | nil => rfl
  | cons x a ih => cases x <;> simp [delivered, ih]

theorem hasLogged_snoc (tr : List (Ev E)) (ev : Ev E) : hasLogged (tr ++ [ev]) = match ev with
    | .deliver _ _ => false
    | .call none _ => true
    | _ => hasLogged tr := by
  unfold hasLogged
  rw [List.foldl_append]
  cases ev with
  | call p e => cases p <;> rfl
  | _ => rfl

/-- What the consumer has taken and not yet passed on. -/
def hand : CPc E → List (Who × E)
  | .got (some e) => [e]
  | .deliver e => [e]
  | _ => []

/-- Everything accepted is, in order, delivered, in the hand of the consumer, or in the queue. -/
def Ordered (s : State E) : Prop := accepted s.trace = delivered s.trace ++ hand s.consumer ++ s.queue

theorem ordered_step {cap : Nat} {policy : Policy} (s s' : State E) (hi : Ordered s) (h : Step cap policy s s') :
    Ordered s' := by
  unfold Ordered at *
  cases h <;> simp_all [accepted_append, delivered_append, accepted, delivered, hand, State.setCaller]

theorem ordered {cap : Nat} {policy : Policy} {s : State E} {cs : List (Cmd E)}
    (h : State.init.run cap policy cs = some s) : Ordered s :=
  run_invariant Ordered ordered_step h rfl

/-- The trace only grows. -/
theorem trace_grows_step {cap : Nat} {policy : Policy} {s s' : State E} (h : Step cap policy s s') :
    ∃ l, s'.trace = s.trace ++ l := by
  cases h <;> simp [State.setCaller] <;> exact ⟨[], (List.append_nil _).symm⟩

theorem trace_grows {cap : Nat} {policy : Policy} {s s' : State E} {cs : List (Cmd E)}
    (h : s.run cap policy cs = some s') : s'.trace = s.trace ++ newEvents s s' := by
  have : ∃ l, s'.trace = s.trace ++ l := by
    refine run_invariant (fun t => ∃ l, t.trace = s.trace ++ l) ?_ h ⟨[], by simp⟩
    rintro a b ⟨l, hl⟩ hab
    obtain ⟨m, hm⟩ := trace_grows_step hab
    exact ⟨l ++ m, by rw [hm, hl, List.append_assoc]⟩
  obtain ⟨l, hl⟩ := this
  unfold newEvents
  rw [hl, List.drop_left]

theorem newEvents_of {s s' : State E} {l : List (Ev E)} (h : s'.trace = s.trace ++ l) : newEvents s s' = l := by
  unfold newEvents; rw [h, List.drop_left]

theorem nested_append (a b : List (Who × E)) : nested (a ++ b) = nested a ++ nested b := List.filterMap_append

/-- When the consumer is about to leave or sleep, nothing that the wrapped sink logged is left in the queue. -/
def Drained (s : State E) : Prop :=
  (s.consumer = .got none ∨ s.consumer = .sleep ∨ s.consumer = .exited) → nested s.queue = []

theorem drained_step {cap : Nat} {policy : Policy} (s s' : State E) (hi : Drained s) (h : Step cap policy s s') :
    Drained s' := by
  unfold Drained at *
  cases h with
  | accept p e h hq hp =>
    intro hc
    cases p with
    | none =>
      obtain ⟨x, hx⟩ := hp rfl
      simp [State.setCaller, hx] at hc
    | some p =>
      have hn : nested s.queue = [] := hi hc
      show nested (s.queue ++ [(some p, e)]) = []
      rw [nested_append, hn]; rfl
  | miss h hq => intro _; simp [hq, nested]
  | _ => simp_all [State.setCaller]

theorem drained {cap : Nat} {policy : Policy} {s : State E} {cs : List (Cmd E)}
    (h : State.init.run cap policy cs = some s) : Drained s :=
  run_invariant Drained drained_step h (fun _ => rfl)

/-- The wrapped sink is in a call of its own only while it runs; once it has logged and the call has returned, or has
found the queue full, the queue is not empty; the destructor returns after the consumer has left. -/
structure Sane (s : State E) : Prop where
  idle : (∀ x, s.consumer ≠ .inside x) → s.callers none = .idle
  logged : ∀ x, s.consumer = .inside x → hasLogged s.trace = true → s.callers none = .idle → s.queue ≠ []
  full : ∀ e, s.callers none = .full e → s.queue ≠ []
  destroyed : Ev.destroyed ∈ s.trace → s.consumer = .exited

theorem sane_step {cap : Nat} {policy : Policy} (hcap : 0 < cap) (s s' : State E) (hi : Sane s) (h : Step cap policy s s') :
    Sane s' := by
  obtain ⟨h1, h2, h3, h4⟩ := hi
  have hin : ∀ e, s.callers none = .full e → ∃ x, s.consumer = .inside x := by
    intro e he
    apply Classical.byContradiction
    intro hx
    rw [h1 (fun x hc => hx ⟨x, hc⟩)] at he
    cases he
  cases h with
  | call p e h hp =>
    cases p with
    | none =>
      obtain ⟨x, hx⟩ := hp rfl
      exact ⟨fun hc => absurd hx (hc x), by simp [State.setCaller], by simp [State.setCaller], by simpa [State.setCaller] using h4⟩
    | some p =>
      refine ⟨by simpa [State.setCaller] using h1, ?_, by simpa [State.setCaller] using h3, by simpa [State.setCaller] using h4⟩
      simpa [State.setCaller, hasLogged_snoc] using h2
  | accept p e h hq hp =>
    cases p with
    | none =>
      obtain ⟨x, hx⟩ := hp rfl
      exact ⟨fun hc => absurd hx (hc x), by simp [State.setCaller], by simp [State.setCaller], by simpa [State.setCaller] using h4⟩
    | some p =>
      exact ⟨by simpa [State.setCaller] using h1, by simp [State.setCaller], by simp [State.setCaller], by simpa [State.setCaller] using h4⟩
  | full p e h hq hp =>
    have hne : s.queue ≠ [] := by intro h0; rw [h0] at hq; exact hq hcap
    cases p with
    | none =>
      obtain ⟨x, hx⟩ := hp rfl
      exact ⟨fun hc => absurd hx (hc x), fun _ _ _ _ => hne, fun _ _ => hne, h4⟩
    | some p => exact ⟨by simpa [State.setCaller] using h1, fun _ _ _ _ => hne, fun _ _ => hne, h4⟩
  | retry p e h ho hp =>
    cases p with
    | none =>
      obtain ⟨x, hx⟩ := hp rfl
      exact ⟨fun hc => absurd hx (hc x), by simp [State.setCaller], by simp [State.setCaller], h4⟩
    | some p =>
      exact ⟨by simpa [State.setCaller] using h1, by simpa [State.setCaller] using h2, by simpa [State.setCaller] using h3, h4⟩
  | discard p e h ho hp =>
    cases p with
    | none =>
      obtain ⟨x, hx⟩ := hp rfl
      exact ⟨fun hc => absurd hx (hc x), fun _ _ _ _ => h3 e h, fun _ _ => h3 e h, by simpa [State.setCaller] using h4⟩
    | some p =>
      refine ⟨by simpa [State.setCaller] using h1, ?_, by simpa [State.setCaller] using h3, by simpa [State.setCaller] using h4⟩
      simpa [State.setCaller, hasLogged_snoc] using h2
  | miss h hq => exact ⟨fun _ => h1 (by simp [h]), by simp, h3, fun hd => by simp [h4 hd] at h⟩
  | take e rest h hq =>
    have hi := h1 (by simp [h])
    exact ⟨fun _ => hi, by simp, fun e he => (by simp [hi] at he), fun hd => by simp [h4 hd] at h⟩
  | exit h hs => exact ⟨fun _ => h1 (by simp [h]), by simp, h3, fun _ => rfl⟩
  | rest h hs => exact ⟨fun _ => h1 (by simp [h]), by simp, h3, fun hd => by simp [h4 hd] at h⟩
  | begin e h => exact ⟨fun _ => h1 (by simp [h]), by simp, h3, fun hd => by simp [h4 hd] at h⟩
  | deliver e h =>
    exact ⟨fun _ => h1 (by simp [h]), by simp [hasLogged_snoc], h3, fun hd => by
      have := h4 (by simpa using hd); simp [this] at h⟩
  | back e h hc => exact ⟨fun _ => hc, by simp, h3, fun hd => by have := h4 (by simpa using hd); simp [this] at h⟩
  | wake h => exact ⟨fun _ => h1 (by simp [h]), by simp, h3, fun hd => by simp [h4 hd] at h⟩
  | throws e h hc => exact ⟨fun _ => hc, by simp, h3, fun hd => by simp [h4 hd] at h⟩
  | stop hs => exact ⟨h1, by simpa [hasLogged_snoc] using h2, h3, by simpa using h4⟩
  | join hs hc => exact ⟨h1, by simp [hc], h3, fun _ => hc⟩

theorem sane {cap : Nat} {policy : Policy} (hcap : 0 < cap) {s : State E} {cs : List (Cmd E)}
    (h : State.init.run cap policy cs = some s) : Sane s :=
  run_invariant Sane (sane_step hcap) h ⟨fun _ => rfl, by simp [State.init], by simp [State.init], by simp [State.init]⟩

theorem echoes_of_append {a b : List (Ev E)} (h : Echoes (a ++ b)) : Echoes a := by
  intro before after hab
  exact h before (after ++ b) (by rw [hab]; simp)

/-- There is always something to deliver. -/
def Busy (s : State E) : Prop := match s.consumer with
  | .loop => s.queue ≠ []
  | .got none | .sleep | .exited => False
  | _ => True

theorem busy_step {cap : Nat} {policy : Policy} (hcap : 0 < cap) (s s' : State E)
    (hi : Sane s ∧ (Echoes s.trace → Busy s)) (h : Step cap policy s s') :
    Sane s' ∧ (Echoes s'.trace → Busy s') := by
  refine ⟨sane_step hcap s s' hi.1 h, fun he => ?_⟩
  have hb : Busy s := by
    obtain ⟨l, hl⟩ := trace_grows_step h
    rw [hl] at he
    exact hi.2 (echoes_of_append he)
  unfold Busy at hb ⊢
  cases h with
  | call p e h hp => simpa [State.setCaller] using hb
  | accept p e h hq hp =>
    simp only [State.setCaller]
    split <;> simp_all
  | full p e h hq hp => simpa [State.setCaller] using hb
  | retry p e h ho hp => simpa [State.setCaller] using hb
  | discard p e h ho hp => simpa [State.setCaller] using hb
  | back e h hc =>
    exact hi.1.logged e h (he s.trace [] rfl) hc
  | _ => simp_all

/-- A call of the wrapped sink that waits while the queue is full: nothing can happen any more but calls of others. -/
structure Stuck (cap : Nat) (x : E) (s : State E) : Prop where
  inside : ∃ y, s.consumer = .inside y
  waiting : s.callers none = .trying x ∨ s.callers none = .full x
  full : cap ≤ s.queue.length

/-- The events that happen without the consumer. -/
def Outer : Ev E → Prop
  | .call (some _) _ => True
  | .stop => True
  | _ => False

theorem stuck_step {cap : Nat} {policy : Policy} (ho : policy.overflow = .retry) {x : E} (s s' : State E)
    (hi : Stuck cap x s) (h : Step cap policy s s') :
    Stuck cap x s' ∧ ∃ l, s'.trace = s.trace ++ l ∧ ∀ ev ∈ l, Outer ev := by
  obtain ⟨⟨y, hy⟩, hw, hf⟩ := hi
  cases h with
  | call p e h hp =>
    cases p with
    | none => simp [h] at hw
    | some p => exact ⟨⟨⟨y, hy⟩, by simpa [State.setCaller] using hw, hf⟩, _, rfl, by simp [Outer]⟩
  | accept p e h hq hp => omega
  | full p e h hq hp =>
    refine ⟨⟨⟨y, hy⟩, ?_, hf⟩, [], by simp [State.setCaller], by simp⟩
    cases p with
    | none =>
      have : e = x := by rw [h] at hw; simpa using hw
      simp [State.setCaller, this]
    | some p => simpa [State.setCaller] using hw
  | retry p e h ho hp =>
    refine ⟨⟨⟨y, hy⟩, ?_, hf⟩, [], by simp [State.setCaller], by simp⟩
    cases p with
    | none =>
      have : e = x := by rw [h] at hw; simpa using hw
      simp [State.setCaller, this]
    | some p => simpa [State.setCaller] using hw
  | discard p e h hd hp => rw [ho] at hd; cases hd
  | back e h hc => simp [hc] at hw
  | throws e h hc => simp [hc] at hw
  | stop hs => exact ⟨⟨⟨y, hy⟩, hw, hf⟩, _, rfl, by simp [Outer]⟩
  | join hs hc => simp [hy] at hc
  | miss h _ => simp [hy] at h
  | take _ _ h _ => simp [hy] at h
  | exit h _ => simp [hy] at h
  | rest h _ => simp [hy] at h
  | begin _ h => simp [hy] at h
  | deliver _ h => simp [hy] at h
  | wake h => simp [hy] at h

theorem stuck_run {cap : Nat} {policy : Policy} (ho : policy.overflow = .retry) {x : E} {s s' : State E}
    (hi : Stuck cap x s) {cs : List (Cmd E)} (h : s.run cap policy cs = some s') :
    Stuck cap x s' ∧ ∀ ev ∈ newEvents s s', Outer ev := by
  have := run_invariant (fun t => Stuck cap x t ∧ ∃ l, t.trace = s.trace ++ l ∧ ∀ ev ∈ l, Outer ev) ?_ h
    ⟨hi, [], by simp, by simp⟩
  · obtain ⟨h1, l, hl, hall⟩ := this
    exact ⟨h1, by rw [newEvents_of hl]; exact hall⟩
  · rintro a b ⟨h1, l, hl, hall⟩ hab
    obtain ⟨h2, m, hm, hall'⟩ := stuck_step ho a b h1 hab
    refine ⟨h2, l ++ m, by rw [hm, hl, List.append_assoc], ?_⟩
    intro ev hev
    rcases List.mem_append.1 hev with h | h
    · exact hall ev h
    · exact hall' ev h

/-- Fills the queue. -/
def fill (e : E) : Nat → List (Cmd E)
  | 0 => []
  | n + 1 => .emit 0 e :: .producer 0 :: fill e n

theorem fill_run {cap : Nat} {policy : Policy} (e : E) (n : Nat) {s : State E} (hi : s.callers (some 0) = .idle)
    (hn : s.queue.length + n ≤ cap) :
    ∃ s', s.run cap policy (fill e n) = some s' ∧ s'.queue.length = s.queue.length + n ∧ s'.consumer = s.consumer ∧
      s'.callers none = s.callers none := by
  induction n generalizing s with
  | zero => exact ⟨s, rfl, rfl, rfl, rfl⟩
  | succ n ih =>
    have hlt : s.queue.length < cap := by omega
    obtain ⟨s', h1, h2, h3, h4⟩ := ih (s := { s with
        queue := s.queue ++ [(some 0, e)]
        callers := fun q => if q = some 0 then .idle else if q = some 0 then .trying e else s.callers q
        trace := s.trace ++ [.call (some 0) e] ++ [.accept (some 0) e] }) (by simp) (by simp; omega)
    refine ⟨s', ?_, by simp at h2; omega, h3, by simpa using h4⟩
    simp only [fill, State.run, State.step, State.call, hi, Option.bind_some, State.produce, State.setCaller, if_true, hlt]
    exact h1

/-- Steps of the consumer. -/
def isConsumer : Cmd E → Bool
  | .consumer => true
  | _ => false

/-- What a step that is not the consumer's leaves alone while the wrapped sink's call is pending. -/
theorem other_step {cap : Nat} {policy : Policy} {s s' : State E} {c : Cmd E} (hc : isConsumer c = false) {y : Who × E}
    (hy : s.consumer = .inside y) (hw : s.callers none ≠ .idle) (h : s.step cap policy c = some s') :
    s'.consumer = .inside y ∧ s'.callers none = s.callers none := by
  cases c with
  | consumer => cases hc
  | emit p e =>
    simp only [State.step, State.call] at h
    split at h
    · cases h; exact ⟨hy, by simp [State.setCaller]⟩
    · cases h
  | producer p =>
    simp only [State.step, State.produce] at h
    split at h
    · cases h
    · split at h <;> cases h <;> exact ⟨hy, by simp [State.setCaller]⟩
    · split at h <;> cases h <;> exact ⟨hy, by simp [State.setCaller]⟩
  | nest e =>
    simp only [State.step, hy, State.call] at h
    cases h
  | consumerThrows =>
    simp only [State.step] at h
    split at h
    · rename_i hi; exact absurd hi hw
    · cases h
  | stop =>
    simp only [State.step] at h
    split at h
    · cases h
    · cases h; exact ⟨hy, rfl⟩
  | join =>
    simp only [State.step] at h
    split at h
    · rename_i hx; rw [hy] at hx; cases hx
    · cases h

theorem newEvents_trans {cap : Nat} {policy : Policy} {a b c : State E} {l : List (Ev E)} (h : b.trace = a.trace ++ l)
    {cs : List (Cmd E)} (hr : b.run cap policy cs = some c) : newEvents a c = l ++ newEvents b c :=
  newEvents_of (by rw [trace_grows hr, h, List.append_assoc])

/-- How many steps of its own a nested call still needs when records are dropped. -/
theorem drop_pending {cap : Nat} {x : E} {y : Who × E} {ds : List (Cmd E)} {t s' : State E}
    (hy : t.consumer = .inside y)
    (hw : (t.callers none = .trying x ∧ 2 ≤ (ds.filter isConsumer).length) ∨
      (t.callers none = .full x ∧ 1 ≤ (ds.filter isConsumer).length))
    (hr : t.run cap .drop ds = some s') : Ev.accept none x ∈ newEvents t s' ∨ Ev.discard none x ∈ newEvents t s' := by
  induction ds generalizing t with
  | nil => simp at hw
  | cons c ds ih =>
    simp only [State.run] at hr
    cases hc : t.step cap .drop c with
    | none => rw [hc] at hr; cases hr
    | some u =>
      rw [hc] at hr
      have hr : u.run cap .drop ds = some s' := hr
      obtain ⟨l, hl⟩ := trace_grows_step (step_sound hc)
      cases hk : isConsumer c with
      | false =>
        have hni : t.callers none ≠ .idle := by rcases hw with h | h <;> simp [h.1]
        obtain ⟨h1, h2⟩ := other_step hk hy hni hc
        rw [newEvents_trans hl hr]
        rcases ih h1 (by rw [h2]; simpa [hk] using hw) hr with h | h
        · exact .inl (List.mem_append_right _ h)
        · exact .inr (List.mem_append_right _ h)
      | true =>
        cases c <;> cases hk
        rcases hw with ⟨ht, hn⟩ | ⟨ht, hn⟩
        · by_cases hq : t.queue.length < cap
          · simp only [State.step, State.consume, hy, ht, State.produce, hq, if_true] at hc
            cases hc
            left
            rw [newEvents_trans (l := [Ev.accept none x]) rfl hr]; simp
          · simp only [State.step, State.consume, hy, ht, State.produce, hq, if_false] at hc
            cases hc
            rw [newEvents_trans (l := []) (by simp [State.setCaller]) hr]
            refine ih (by simpa [State.setCaller] using hy) (.inr ⟨by simp [State.setCaller], ?_⟩) hr
            have hn : 2 ≤ (ds.filter isConsumer).length + 1 := hn
            omega
        · simp only [State.step, State.consume, hy, ht, State.produce, Policy.overflow] at hc
          cases hc
          right
          rw [newEvents_trans (l := [Ev.discard none x]) rfl hr]; simp

theorem discard_drop_step {cap : Nat} (s s' : State E) (hi : ∀ p e, Ev.discard p e ∉ s.trace)
    (h : Step cap .wait s s') : ∀ p e, Ev.discard p e ∉ s'.trace := by
  cases h with
  | discard p e h ho hp => cases ho
  | _ => simpa [State.setCaller] using hi

/-- The consumer alone, with nothing more logged, gets through with what there is. -/
theorem finishes {cap : Nat} {policy : Policy} (n : Nat) {s : State E} (hn : s.queue.length = n) (hl : s.consumer = .loop)
    (hi : s.callers none = .idle) (hs : s.stopped = true) (hj : s.joined = false) :
    ∃ m s', s.run cap policy (List.replicate m .consumer ++ [.join]) = some s' ∧ Ev.destroyed ∈ newEvents s s' := by
  induction n generalizing s with
  | zero =>
    have hq : s.queue = [] := List.length_eq_zero_iff.1 hn
    refine ⟨2, { s with consumer := .exited, joined := true, trace := s.trace ++ [.destroyed] }, ?_, ?_⟩
    · simp [List.replicate, State.run, State.step, State.consume, hl, hq, hs, hj]
    · rw [newEvents_of (l := [Ev.destroyed]) rfl]; simp
  | succ n ih =>
    obtain ⟨e, rest, hq⟩ : ∃ e rest, s.queue = e :: rest := by
      cases hq : s.queue with
      | nil => simp [hq] at hn
      | cons e rest => exact ⟨e, rest, rfl⟩
    obtain ⟨m, s', h1, h2⟩ := ih (s := { s with queue := rest, trace := s.trace ++ [.deliver e.1 e.2] ++ [.back] })
      (by simp [hq] at hn; exact hn) hl hi hs hj
    refine ⟨m + 1 + 1 + 1 + 1, s', ?_, ?_⟩
    · simp only [List.replicate_succ, List.cons_append, State.run, State.step, State.consume, hl, hq, Option.bind_some, hi]
      rw [← h1, hl]
    · rw [newEvents_trans (l := [.deliver e.1 e.2] ++ [.back]) (by simp) h1]
      exact List.mem_append_right _ h2

theorem joined_step {cap : Nat} {policy : Policy} (s s' : State E) (hi : s.joined = true → Ev.destroyed ∈ s.trace)
    (h : Step cap policy s s') : s'.joined = true → Ev.destroyed ∈ s'.trace := by
  cases h <;> simp_all [State.setCaller]

/-- Destruction ends by steps of the consumer alone. -/
def Finishes (cap : Nat) (policy : Policy) (s : State E) : Prop :=
  ∃ m s', s.run cap policy (List.replicate m .consumer ++ [.join]) = some s' ∧ Ev.destroyed ∈ newEvents s s'

theorem Finishes.before {cap : Nat} {policy : Policy} {s t : State E} (h : s.consume cap policy = some t)
    (hf : Finishes cap policy t) : Finishes cap policy s := by
  obtain ⟨m, s', h1, h2⟩ := hf
  obtain ⟨l, hl⟩ := trace_grows_step (consume_step h)
  refine ⟨m + 1, s', ?_, ?_⟩
  · simp only [List.replicate_succ, List.cons_append, State.run, State.step, h, Option.bind_some, h1]
  · rw [newEvents_trans hl h1]; exact List.mem_append_right _ h2

theorem finishes_exited {cap : Nat} {policy : Policy} {s : State E} (hc : s.consumer = .exited) (hs : s.stopped = true)
    (hj : s.joined = false) : Finishes cap policy s := by
  refine ⟨0, { s with joined := true, trace := s.trace ++ [.destroyed] }, ?_, ?_⟩
  · simp [State.run, State.step, hc, hs, hj]
  · rw [newEvents_of (l := [Ev.destroyed]) rfl]; simp

theorem finishes_inside_idle {cap : Nat} {policy : Policy} {s : State E} {y : Who × E} (hc : s.consumer = .inside y)
    (hi : s.callers none = .idle) (hs : s.stopped = true) (hj : s.joined = false) : Finishes cap policy s := by
  refine Finishes.before (t := { s with consumer := .loop, trace := s.trace ++ [.back] }) ?_ (finishes _ rfl rfl hi hs hj)
  simp [State.consume, hc, hi]

theorem finishes_trying {cap : Nat} {policy : Policy} {s : State E} {y : Who × E} {x : E} (hc : s.consumer = .inside y)
    (hi : s.callers none = .trying x) (hs : s.stopped = true) (hj : s.joined = false)
    (hr : policy = .drop ∨ s.queue.length < cap) : Finishes cap policy s := by
  by_cases hq : s.queue.length < cap
  · refine Finishes.before (t := { s.setCaller none .idle with
      queue := s.queue ++ [(none, x)], trace := s.trace ++ [.accept none x] }) ?_
      (finishes_inside_idle hc (by simp [State.setCaller]) hs hj)
    simp [State.consume, hc, hi, State.produce, hq]
  · have hp : policy = .drop := hr.resolve_right hq
    subst hp
    refine Finishes.before (t := s.setCaller none (.full x)) ?_ (Finishes.before (t := {
      (s.setCaller none (.full x)).setCaller none .idle with trace := s.trace ++ [.discard none x] }) ?_
      (finishes_inside_idle hc (by simp [State.setCaller]) hs hj))
    · simp [State.consume, hc, hi, State.produce, hq]
    · simp [State.consume, hc, State.setCaller, State.produce, Policy.overflow]

theorem finishes_full {cap : Nat} {policy : Policy} {s : State E} {y : Who × E} {x : E} (hc : s.consumer = .inside y)
    (hi : s.callers none = .full x) (hs : s.stopped = true) (hj : s.joined = false)
    (hr : policy = .drop ∨ s.queue.length < cap) : Finishes cap policy s := by
  cases policy with
  | drop =>
    refine Finishes.before (t := { s.setCaller none .idle with trace := s.trace ++ [.discard none x] }) ?_
      (finishes_inside_idle hc (by simp [State.setCaller]) hs hj)
    simp [State.consume, hc, hi, State.produce, Policy.overflow]
  | wait =>
    have hq : s.queue.length < cap := hr.resolve_left (by simp)
    refine Finishes.before (t := s.setCaller none (.trying x)) ?_
      (finishes_trying (x := x) hc (by simp [State.setCaller]) hs hj (.inr hq))
    simp [State.consume, hc, hi, State.produce, Policy.overflow]

end Blackhole.AsyncReenter
