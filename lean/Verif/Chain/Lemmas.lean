import Verif.Chain.Spec
import Verif.Async.Props

namespace Blackhole.Chain

open Pipeline (Reply)
open Async (State Policy CPc PPc accepted delivered calledBy endedBy)

variable {E : Type}

/-- Steps that the consumer does not take. -/
theorem step_other {cap : Nat} {policy : Policy} {s s' : State E} {c : Async.Cmd E} (h : s.step cap policy c = some s')
    (h1 : c ≠ .consumer) (h2 : c ≠ .consumerThrows) :
    s'.consumer = s.consumer ∧ delivered s'.trace = delivered s.trace := by
  cases c <;> simp only [State.step, State.produce, ne_eq, not_true_eq_false, reduceCtorEq] at h h1 h2 <;>
    (repeat' split at h) <;> simp only [Option.some.injEq, reduceCtorEq] at h <;> subst h <;>
    simp [State.setProducer, delivered]

/-- Steps that producers do not take. -/
theorem step_inside {cap : Nat} {policy : Policy} {s s' : State E} {c : Async.Cmd E} (h : s.step cap policy c = some s')
    (h1 : ∀ p e, c ≠ .emit p e) (h2 : ∀ p, c ≠ .producer p) :
    s'.producers = s.producers ∧ accepted s'.trace = accepted s.trace ∧ ∀ p, calledBy p s'.trace = calledBy p s.trace := by
  cases c <;> simp only [State.step, State.consume, ne_eq, not_true_eq_false, reduceCtorEq, not_false_eq_true,
      implies_true, forall_const] at h h1 h2 <;>
    (repeat' split at h) <;> (try simp only [Option.some.injEq, reduceCtorEq] at h) <;> (try subst h) <;>
    simp_all [accepted, calledBy]

theorem consume_deliver {cap : Nat} {policy : Policy} {s s' : State E} {e : Nat × E} (hc : s.consumer = .deliver e)
    (h : s.step cap policy .consumer = some s' ∨ s.step cap policy .consumerThrows = some s') :
    delivered s'.trace = delivered s.trace ++ [e] := by
  rcases h with h | h <;> simp only [State.step, State.consume, hc, Option.some.injEq] at h <;> subst h <;> simp [delivered]

theorem consume_quiet {cap : Nat} {policy : Policy} {s s' : State E} (hc : ∀ e, s.consumer ≠ .deliver e)
    (h : s.step cap policy .consumer = some s') : delivered s'.trace = delivered s.trace := by
  simp only [State.step, State.consume] at h
  (repeat' split at h) <;> (try simp only [Option.some.injEq, reduceCtorEq] at h) <;> (try subst h) <;>
    simp_all [delivered]

/-- Reachable states of an asynchronous sink. -/
def Reached (cap : Nat) (policy : Policy) (q : State Event) : Prop := ∃ cs, State.init.run cap policy cs = some q

theorem Reached.step {cap : Nat} {policy : Policy} {q q' : State Event} {c : Async.Cmd Event} (h : Reached cap policy q)
    (hs : q.step cap policy c = some q') : Reached cap policy q' := by
  obtain ⟨cs, h⟩ := h
  exact ⟨cs ++ [c], by rw [Async.run_append, h]; simp [State.run, hs]⟩

/-- How an asynchronous sink and the one below it fit. -/
def Link (q : State Event) (calling : Bool) : Net → Prop
  | .sink _ given => calling = false ∧ given.map (·.2) = (delivered q.trace).map (·.2)
  | .stage _ _ q' _ _ =>
    (calling = true → ∃ e, q.consumer = .deliver e ∧ calledBy 0 q'.trace = (delivered q.trace).map (·.2) ++ [e.2])
    ∧ (calling = false → q'.producers 0 = .idle ∧ calledBy 0 q'.trace = (delivered q.trace).map (·.2))
    ∧ (∀ p, p ≠ 0 → q'.producers p = .idle) ∧ (∀ x ∈ accepted q'.trace, x.1 = 0)

inductive Good : Essentials.Sink → Net → Prop
  | sink {s : Essentials.Sink} {given : List (Reply × Event)} : bottom s = s →
      Good s (.sink ((Pipeline.start s).after given) given)
  | stage {conf : Async.Sink} {s : Essentials.Sink} {q : State Event} {calling : Bool} {below : Net} :
      Reached conf.capacity conf.policy q → Link q calling below → Good s below →
      Good (.asynchronous conf s) (.stage conf.capacity conf.policy q calling below)

theorem bottom_bottom (s : Essentials.Sink) : bottom (bottom s) = bottom s := by
  induction s with
  | asynchronous q s ih => exact ih
  | _ => rfl

theorem bottom_ne (s : Essentials.Sink) (conf : Async.Sink) (s' : Essentials.Sink) : bottom s ≠ .asynchronous conf s' := by
  induction s with
  | asynchronous q s ih => exact ih
  | _ => intro h; cases h

theorem Good.asynchronous {conf : Async.Sink} {s : Essentials.Sink} {n : Net} (g : Good (.asynchronous conf s) n) :
    ∃ q calling below, n = .stage conf.capacity conf.policy q calling below := by
  cases g with
  | sink h => exact absurd h (bottom_ne _ _ _)
  | stage _ _ _ => exact ⟨_, _, _, rfl⟩

theorem good_start (s : Essentials.Sink) : Good s (start s) := by
  induction s with
  | asynchronous q s ih =>
    refine .stage ⟨[], rfl⟩ ?_ ih
    cases s <;> simp [start, Link, State.init, accepted, delivered, calledBy]
  | _ => exact .sink (given := []) rfl

/-- What the sink above can see has not changed. -/
def Face : Net → Net → Prop
  | .stage _ _ q _ _, .stage _ _ q' _ _ =>
    q'.producers = q.producers ∧ accepted q'.trace = accepted q.trace ∧ ∀ p, calledBy p q'.trace = calledBy p q.trace
  | _, _ => False

theorem Link.face {q : State Event} {calling : Bool} {n n' : Net} (h : Link q calling n) (f : Face n n') :
    Link q calling n' := by
  cases n with
  | sink => exact f.elim
  | stage cap policy q1 c1 b1 =>
    cases n' with
    | sink => exact f.elim
    | stage cap policy q2 c2 b2 =>
      obtain ⟨f1, f2, f3⟩ := f
      simp only [Link] at h ⊢
      rw [f1, f2, f3]
      exact h

theorem Link.above {q q' : State Event} {calling : Bool} {n : Net} (h : Link q calling n)
    (hc : q'.consumer = q.consumer) (hd : delivered q'.trace = delivered q.trace) : Link q' calling n := by
  cases n <;> simp only [Link] at h ⊢ <;> rw [hd] <;> first | exact h | (rw [hc]; exact h)

theorem good_outer {s : Essentials.Sink} {n n' : Net} {c : Async.Cmd Event} (g : Good s n)
    (h1 : c ≠ .consumer) (h2 : c ≠ .consumerThrows) (h : outer c n = some n') : Good s n' := by
  cases g with
  | sink => simp [outer] at h
  | stage r l g =>
    simp only [outer, Option.map_eq_some_iff] at h
    obtain ⟨q', hq, rfl⟩ := h
    obtain ⟨e1, e2⟩ := step_other hq h1 h2
    exact .stage (r.step hq) (l.above e1 e2) g

theorem good_destroy {c : Async.Cmd Event} (hc : c = .stop ∨ c = .join) (d : Nat) :
    ∀ {s : Essentials.Sink} {n n' : Net}, Good s n → destroy c d n = some n' → Good s n' ∧ Face n n' := by
  induction d with
  | zero =>
    intro s n n' g h
    cases g with
    | sink => simp [destroy] at h
    | stage r l g =>
      simp only [destroy, Option.map_eq_some_iff] at h
      obtain ⟨q', hq, rfl⟩ := h
      obtain ⟨e1, e2⟩ := step_other hq (by rcases hc with rfl | rfl <;> simp) (by rcases hc with rfl | rfl <;> simp)
      refine ⟨.stage (r.step hq) (l.above e1 e2) g, ?_⟩
      exact step_inside hq (by rcases hc with rfl | rfl <;> simp) (by rcases hc with rfl | rfl <;> simp)
  | succ d ih =>
    intro s n n' g h
    cases g with
    | sink => simp [destroy] at h
    | stage r l g =>
      simp only [destroy] at h
      split at h
      · simp only [Option.map_eq_some_iff] at h
        obtain ⟨b', hb, rfl⟩ := h
        obtain ⟨g', f⟩ := ih g hb
        exact ⟨.stage r (l.face f) g', rfl, rfl, fun _ => rfl⟩
      · simp at h

theorem after_snoc (s : Pipeline.Sink) (es : List (Reply × Int × Str)) (e : Reply × Int × Str) :
    s.after (es ++ [e]) = ((s.after es).emit e.1 e.2.1 e.2.2).1 := by
  simp [Pipeline.Sink.after]

/-- Steps of producer 0. -/
theorem producer_zero {cap : Nat} {policy : Policy} {q q' : State Event}
    (h : q.step cap policy (.producer 0) = some q') :
    (∀ p, calledBy p q'.trace = calledBy p q.trace) ∧ (∀ p, p ≠ 0 → q'.producers p = q.producers p)
    ∧ ((∀ x ∈ accepted q.trace, x.1 = 0) → ∀ x ∈ accepted q'.trace, x.1 = 0) := by
  simp only [State.step, State.produce] at h
  (repeat' split at h) <;> simp only [Option.some.injEq, reduceCtorEq] at h <;> subst h <;>
    simp [State.setProducer, accepted, calledBy] <;> grind

theorem emit_zero {cap : Nat} {policy : Policy} {q q' : State Event} {e : Event}
    (h : q.step cap policy (.emit 0 e) = some q') :
    calledBy 0 q'.trace = calledBy 0 q.trace ++ [e] ∧ (∀ p, p ≠ 0 → q'.producers p = q.producers p)
    ∧ accepted q'.trace = accepted q.trace := by
  simp only [State.step] at h
  (repeat' split at h) <;> simp only [Option.some.injEq, reduceCtorEq] at h
  subst h
  simp [State.setProducer, accepted, calledBy]
  grind

theorem good_work (rep : Reply) (d : Nat) :
    ∀ {s : Essentials.Sink} {n n' : Net}, Good s n → work rep d n = some n' → Good s n' ∧ Face n n' := by
  induction d with
  | succ d ih =>
    intro s n n' g h
    cases g with
    | sink => simp [work] at h
    | stage r l g =>
      simp only [work, Option.map_eq_some_iff] at h
      obtain ⟨b', hb, rfl⟩ := h
      obtain ⟨g', f⟩ := ih g hb
      exact ⟨.stage r (l.face f) g', rfl, rfl, fun _ => rfl⟩
  | zero =>
    intro s n n' g h
    cases g with
    | sink => simp [work] at h
    | @stage conf s q calling below r l g =>
      simp only [work] at h
      split at h
      · rename_i e hc
        split at h
        · rename_i b given
          obtain ⟨l1, l2⟩ := l
          cases g with
          | sink hs =>
            have key : ∀ q', (q.step conf.capacity conf.policy .consumer = some q'
                ∨ q.step conf.capacity conf.policy .consumerThrows = some q') →
                ∀ b', b' = (((Pipeline.start s).after given).emit rep e.2.1 e.2.2).1 →
                Good (.asynchronous conf s) (.stage conf.capacity conf.policy q' false (.sink b' (given ++ [(rep, e.2)])))
                ∧ Face (.stage conf.capacity conf.policy q calling (.sink ((Pipeline.start s).after given) given))
                  (.stage conf.capacity conf.policy q' false (.sink b' (given ++ [(rep, e.2)]))) := by
              intro q' hq b' hb'
              have hb2 : b' = (Pipeline.start s).after (given ++ [(rep, e.2)]) := by rw [hb', after_snoc]
              refine ⟨?_, ?_⟩
              · rw [hb2]
                refine .stage (hq.elim r.step r.step) ⟨rfl, ?_⟩ (.sink hs)
                rw [consume_deliver hc hq, List.map_append, List.map_append, l2]
                rfl
              · exact hq.elim (fun h => step_inside h (by simp) (by simp)) (fun h => step_inside h (by simp) (by simp))
            split at h
            · rename_i b' hb'
              simp only [Option.map_eq_some_iff] at h
              obtain ⟨q', hq, rfl⟩ := h
              exact key q' (.inl hq) b' (by rw [hb'])
            · rename_i b' o _ hb'
              simp only [Option.map_eq_some_iff] at h
              obtain ⟨q', hq, rfl⟩ := h
              exact key q' (.inr hq) b' (by rw [hb'])
        · rename_i cap' policy' q' calling' below'
          obtain ⟨l1, l2, l3, l4⟩ := l
          split at h
          · rename_i hcall
            split at h
            · rename_i hidle
              simp only [Option.map_eq_some_iff] at h
              obtain ⟨q2, hq, rfl⟩ := h
              obtain ⟨e', he', hcalls⟩ := l1 hcall
              rw [hc] at he'
              cases he'
              refine ⟨.stage (r.step hq) ⟨fun h => by simp at h, fun _ => ⟨hidle, ?_⟩, l3, l4⟩ g,
                step_inside hq (by simp) (by simp)⟩
              rw [hcalls, consume_deliver hc (.inl hq), List.map_append]
              rfl
            · simp only [Option.map_eq_some_iff] at h
              obtain ⟨q2, hq, rfl⟩ := h
              obtain ⟨p1, p2, p3⟩ := producer_zero hq
              cases g with
              | stage r' l' g' =>
                obtain ⟨e1, e2⟩ := step_other hq (by simp) (by simp)
                refine ⟨.stage r ⟨fun _ => ?_, fun h => by simp at h, fun p hp => ?_, p3 l4⟩
                  (.stage (r'.step hq) (l'.above e1 e2) g'), rfl, rfl, fun _ => rfl⟩
                · rw [p1]; exact l1 hcall
                · rw [p2 p hp]; exact l3 p hp
          · rename_i hcall
            simp only [Option.map_eq_some_iff] at h
            obtain ⟨q2, hq, rfl⟩ := h
            obtain ⟨p1, p2, p3⟩ := emit_zero hq
            cases g with
            | stage r' l' g' =>
              obtain ⟨e1, e2⟩ := step_other hq (by simp) (by simp)
              refine ⟨.stage r ⟨fun _ => ⟨e, hc, ?_⟩, fun h => by simp at h, fun p hp => ?_, by rw [p3]; exact l4⟩
                (.stage (r'.step hq) (l'.above e1 e2) g'), rfl, rfl, fun _ => rfl⟩
              · rw [p1, (l2 (by simpa using hcall)).2]
              · rw [p2 p hp]; exact l3 p hp
      · rename_i hc
        simp only [Option.map_eq_some_iff] at h
        obtain ⟨q', hq, rfl⟩ := h
        refine ⟨.stage (r.step hq) ?_ g, step_inside hq (by simp) (by simp)⟩
        have hd := consume_quiet (fun e he => hc e he) hq
        cases below with
        | sink => simp only [Link, hd] at l ⊢; exact l
        | stage =>
          simp only [Link, hd] at l ⊢
          refine ⟨fun h => ?_, l.2⟩
          obtain ⟨e, he, -⟩ := l.1 h
          exact absurd he (hc e)

theorem good_step {s : Essentials.Sink} {n n' : Net} {c : Cmd} (g : Good s n) (h : step n c = some n') : Good s n' := by
  unfold step at h
  split at h
  · simp at h
  · cases c with
    | emit p e => exact good_outer g (by simp) (by simp) h
    | thread p => exact good_outer g (by simp) (by simp) h
    | worker d rep => exact (good_work rep d g h).1
    | stop d => exact (good_destroy (.inl rfl) d g h).1
    | join d => exact (good_destroy (.inr rfl) d g h).1

theorem run_induct {P : Net → Prop} (hstep : ∀ n n' c, P n → step n c = some n' → P n') (cs : List Cmd) :
    ∀ n n', P n → run n cs = some n' → P n' := by
  induction cs with
  | nil => intro n n' i h; simp [run] at h; subst h; exact i
  | cons c cs ih =>
    intro n n' i h
    simp only [run, Option.bind_eq_some_iff] at h
    obtain ⟨m, h1, h2⟩ := h
    exact ih m n' (hstep n m c i h1) h2

theorem good_run {s : Essentials.Sink} {n : Net} (cs : List Cmd) (h : run (start s) cs = some n) : Good s n :=
  run_induct (P := Good s) (fun _ _ _ g h => good_step g h) cs _ _ (good_start s) h

/-! ## What the sink at the end was given -/

theorem good_last {s : Essentials.Sink} {n : Net} (g : Good s n) : n.last = (Pipeline.start (bottom s)).after n.given := by
  induction g with
  | sink h => rw [h]; rfl
  | stage _ _ _ ih => exact ih

theorem map_snd_of_zero {l : List (Nat × Event)} (h : ∀ x ∈ l, x.1 = 0) : l.filter (fun x => x.1 = 0) = l := by
  rw [List.filter_eq_self]
  simpa using h

theorem ended_pending {cap : Nat} {policy : Policy} {q : State Event} (r : Reached cap policy q)
    (h : ∀ x ∈ accepted q.trace, x.1 = 0) :
    ((accepted q.trace).map (·.2)).Sublist (calledBy 0 q.trace)
    ∧ (policy = .wait → (accepted q.trace).map (·.2) ++ (q.producers 0).pending = calledBy 0 q.trace) := by
  obtain ⟨cs, hr⟩ := r
  have hc := (Async.run_inv cs q hr).calls 0
  have ha := Async.accepted_of_producer 0 q.trace
  rw [map_snd_of_zero h] at ha
  refine ⟨?_, ?_⟩
  · rw [hc]
    show ((accepted q.trace).map Prod.snd).Sublist _
    rw [ha]
    exact ((List.filter_sublist).map _).trans (List.sublist_append_left _ _)
  · rintro rfl
    have hw := (Async.C10_wait_never_discards cap cs q hr).2 0
    rw [hc]
    show (accepted q.trace).map Prod.snd ++ _ = _
    rw [ha, List.filter_eq_self.2 (by simpa using hw)]

theorem good_given {conf : Async.Sink} {s : Essentials.Sink} {q : State Event} {cap : Nat} {policy : Policy}
    {calling : Bool} {below : Net} (g : Good (.asynchronous conf s) (.stage cap policy q calling below)) :
    (below.given.map (·.2)).Sublist ((accepted q.trace).map (·.2))
    ∧ (AllWait s → below.given.map (·.2) <+: (accepted q.trace).map (·.2)) := by
  induction below generalizing conf s q cap policy calling with
  | sink b given =>
    cases g with
    | stage r l g =>
      obtain ⟨cs, hr⟩ := r
      have hp := (Async.C09_prefix _ _ cs q hr).1.map Prod.snd
      have : given.map (·.2) <+: (accepted q.trace).map (·.2) := by rw [l.2]; exact hp
      exact ⟨this.sublist, fun _ => this⟩
  | stage cap' policy' q' calling' below' ih =>
    cases g with
    | stage r l g =>
      cases g with
      | stage r' l' g' =>
        obtain ⟨i1, i2⟩ := ih (.stage r' l' g')
        obtain ⟨cs, hr⟩ := r
        have hf := (Async.run_inv cs q hr).fifo
        have hcalls : calledBy 0 q'.trace <+: (accepted q.trace).map (·.2) := by
          cases calling with
          | false =>
            rw [(l.2.1 rfl).2]
            exact (Async.C09_prefix _ _ cs q hr).1.map Prod.snd
          | true =>
            obtain ⟨e, he, hc⟩ := l.1 rfl
            rw [hc, hf, he]
            exact ⟨q.queue.map (·.2), by simp [CPc.inHand]⟩
        obtain ⟨e1, e2⟩ := ended_pending r' l.2.2.2
        refine ⟨(i1.trans e1).trans hcalls.sublist, fun hw => (i2 hw.2).trans ?_⟩
        have := e2 hw.1
        exact List.IsPrefix.trans ⟨_, this⟩ hcalls

/-- Every reply the sink at the end met comes from the schedule. -/
theorem given_work (rep : Reply) (d : Nat) : ∀ {n n' : Net}, work rep d n = some n' →
    ∀ x ∈ n'.given, x ∈ n.given ∨ x.1 = rep := by
  induction d with
  | succ d ih =>
    intro n n' h
    cases n with
    | sink => simp [work] at h
    | stage =>
      simp only [work, Option.map_eq_some_iff] at h
      obtain ⟨b, hb, rfl⟩ := h
      exact (ih hb :)
  | zero =>
    intro n n' h
    cases n with
    | sink => simp [work] at h
    | stage =>
      simp only [work] at h
      (repeat' split at h) <;> simp only [Option.map_eq_some_iff] at h <;> obtain ⟨b, hb, rfl⟩ := h <;>
        simp only [Net.given] <;> intro x hx <;> (try exact .inl hx) <;>
        (rcases List.mem_append.1 hx with hx | hx
         · exact .inl hx
         · right; simp only [List.mem_singleton] at hx; rw [hx])

theorem given_outer {c : Async.Cmd Event} {n n' : Net} (h : outer c n = some n') : n'.given = n.given := by
  cases n with
  | sink => simp [outer] at h
  | stage =>
    simp only [outer, Option.map_eq_some_iff] at h
    obtain ⟨q, -, rfl⟩ := h
    rfl

theorem given_destroy {c : Async.Cmd Event} (d : Nat) : ∀ {n n' : Net}, destroy c d n = some n' → n'.given = n.given := by
  induction d with
  | zero =>
    intro n n' h
    cases n with
    | sink => simp [destroy] at h
    | stage =>
      simp only [destroy, Option.map_eq_some_iff] at h
      obtain ⟨q, -, rfl⟩ := h
      rfl
  | succ d ih =>
    intro n n' h
    cases n with
    | sink => simp [destroy] at h
    | stage =>
      simp only [destroy] at h
      split at h
      · simp only [Option.map_eq_some_iff] at h
        obtain ⟨b, hb, rfl⟩ := h
        exact (ih hb :)
      · simp at h

theorem given_run (cs : List Cmd) : ∀ (n n' : Net), run n cs = some n' →
    ∀ x ∈ n'.given, x ∈ n.given ∨ ∃ d, Cmd.worker d x.1 ∈ cs := by
  induction cs with
  | nil => intro n n' h x hx; cases h; exact .inl hx
  | cons c cs ih =>
    intro n n' h x hx
    simp only [run, Option.bind_eq_some_iff] at h
    obtain ⟨m, h1, h2⟩ := h
    rcases ih m n' h2 x hx with hx | ⟨d, hd⟩
    · unfold step at h1
      split at h1
      · simp at h1
      · cases c with
        | emit p e => rw [given_outer h1] at hx; exact .inl hx
        | thread p => rw [given_outer h1] at hx; exact .inl hx
        | stop d => rw [given_destroy d h1] at hx; exact .inl hx
        | join d => rw [given_destroy d h1] at hx; exact .inl hx
        | worker d rep =>
          rcases given_work rep d h1 x hx with hx | hx
          · exact .inl hx
          · exact .inr ⟨d, by simp [hx]⟩
    · exact .inr ⟨d, by simp [hd]⟩

theorem given_start (s : Essentials.Sink) : (start s).given = [] := by
  induction s with
  | asynchronous q s ih => exact ih
  | _ => rfl

theorem run_append (n : Net) (a b : List Cmd) : run n (a ++ b) = (run n a).bind fun m => run m b := by
  induction a generalizing n with
  | nil => rfl
  | cons c a ih =>
    simp only [List.cons_append, run]
    cases step n c with
    | none => rfl
    | some m => exact ih m

/-! ## Draining -/

open Async (StopInv)

theorem Reached.joined {cap : Nat} {policy : Policy} {q : State Event} (r : Reached cap policy q) :
    q.joined = true → q.consumer = .exited ∧ q.stopped = true := by
  obtain ⟨cs, h⟩ := r
  refine Async.run_induct (P := fun q : State Event => q.joined = true → q.consumer = .exited ∧ q.stopped = true) ?_ cs _ _
    (by simp [State.init]) h
  intro s s' c i h
  cases c <;> simp only [State.step, State.produce, State.consume] at h <;>
    (repeat' split at h) <;> simp only [Option.some.injEq, reduceCtorEq] at h <;> subst h <;>
    simp_all [State.setProducer]

theorem stop_inv {cap : Nat} {policy : Policy} {q q' : State Event} (i : Async.Inv cap q)
    (hok : q.consumer = .got none → q.queue = []) (hex : q.stopped = false → q.consumer ≠ .exited)
    (h : q.step cap policy .stop = some q') : StopInv (accepted q.trace).length cap q' := by
  have i' := i.step h
  simp only [State.step] at h
  split at h <;> simp only [Option.some.injEq, reduceCtorEq] at h
  rename_i hns
  subst h
  refine ⟨i', rfl, ?_, ?_, by simp [accepted]⟩
  · intro hc
    have hf := i.fifo
    change q.consumer = _ at hc
    rw [hc, hok hc] at hf
    simp [CPc.inHand] at hf
    simp [hf, delivered]
  · intro hc
    exact absurd hc (hex (by simpa using hns))

theorem Reached.exited {cap : Nat} {policy : Policy} {q : State Event} (r : Reached cap policy q) :
    q.consumer = .exited → q.stopped = true := by
  obtain ⟨cs, h⟩ := r
  refine Async.run_induct (P := fun q : State Event => q.consumer = .exited → q.stopped = true) ?_ cs _ _
    (by simp [State.init]) h
  intro s s' c i h
  cases c <;> simp only [State.step, State.produce, State.consume] at h <;>
    (repeat' split at h) <;> simp only [Option.some.injEq, reduceCtorEq] at h <;> subst h <;>
    simp_all [State.setProducer]

theorem Reached.inv {cap : Nat} {policy : Policy} {q : State Event} (r : Reached cap policy q) : Async.Inv cap q := by
  obtain ⟨cs, h⟩ := r
  exact Async.run_inv cs q h

/-- Below an asynchronous sink: whatever is being destroyed has no caller any more, and is going to deliver all it has
accepted. -/
def Inner (up : State Event) : Net → Prop
  | .sink _ _ => True
  | .stage cap _ q _ below => (q.stopped = true → up.consumer = .exited ∧ StopInv (accepted q.trace).length cap q) ∧ Inner q below

theorem Inner.above {up up' : State Event} {n : Net} (h : Inner up n)
    (hc : up.consumer = .exited → up'.consumer = .exited) : Inner up' n := by
  cases n with
  | sink => trivial
  | stage => exact ⟨fun hs => ⟨hc (h.1 hs).1, (h.1 hs).2⟩, h.2⟩

theorem exited_stays {cap : Nat} {policy : Policy} {s s' : State E} {c : Async.Cmd E} (h : s.step cap policy c = some s')
    (hc : s.consumer = .exited) : s'.consumer = .exited := by
  cases c <;> simp only [State.step, State.produce, State.consume, hc] at h <;>
    (repeat' split at h) <;> simp only [Option.some.injEq, reduceCtorEq] at h <;> subst h <;> simp_all [State.setProducer]

/-- The whole of it: the outermost sink has its own count. -/
def Drains (k : Nat) : Net → Prop
  | .sink _ _ => True
  | .stage cap _ q _ below => (q.stopped = true → StopInv k cap q) ∧ Inner q below

theorem stopped_keeps {cap : Nat} {policy : Policy} {s s' : State E} {c : Async.Cmd E} (h : s.step cap policy c = some s')
    (hc : c ≠ .stop) : s'.stopped = s.stopped := by
  cases c <;> simp only [State.step, State.produce, State.consume, ne_eq, not_true_eq_false] at h hc <;>
    (repeat' split at h) <;> simp only [Option.some.injEq, reduceCtorEq] at h <;> subst h <;> rfl

/-- A turn of the outermost worker: it takes a step itself, or makes the sink below take one. -/
theorem work_zero {rep : Reply} {cap : Nat} {policy : Policy} {q : State Event} {calling : Bool} {below n' : Net}
    (i : Inner q below) (h : work rep 0 (.stage cap policy q calling below) = some n') :
    ∃ q' k b, n' = .stage cap policy q' k b ∧ Inner q' b
      ∧ (q' = q ∨ ∃ c, (c = .consumer ∨ c = .consumerThrows) ∧ q.step cap policy c = some q') := by
  have hb : ∀ {c : Async.Cmd Event} {q' : State Event}, q.step cap policy c = some q' → Inner q' below :=
    fun hq => Inner.above i (exited_stays hq)
  simp only [work] at h
  split at h
  · rename_i e hc
    split at h
    · split at h <;> simp only [Option.map_eq_some_iff] at h <;> obtain ⟨q', hq, rfl⟩ := h
      · exact ⟨_, _, _, rfl, trivial, .inr ⟨_, .inl rfl, hq⟩⟩
      · exact ⟨_, _, _, rfl, trivial, .inr ⟨_, .inr rfl, hq⟩⟩
    · rename_i cap' policy' q' calling' below'
      have hlive : ∀ {q2 : State Event} {c : Async.Cmd Event}, q'.step cap' policy' c = some q2 →
          c ≠ .stop → Inner q (.stage cap' policy' q2 calling' below') := by
        intro q2 c hq2 h0
        refine ⟨fun h => ?_, Inner.above i.2 (exited_stays hq2)⟩
        rw [stopped_keeps hq2 h0] at h
        have := (i.1 h).1
        rw [hc] at this
        cases this
      split at h
      · split at h <;> simp only [Option.map_eq_some_iff] at h <;> obtain ⟨q2, hq, rfl⟩ := h
        · exact ⟨_, _, _, rfl, hb hq, .inr ⟨_, .inl rfl, hq⟩⟩
        · exact ⟨_, _, _, rfl, hlive hq (by simp), .inl rfl⟩
      · simp only [Option.map_eq_some_iff] at h
        obtain ⟨q2, hq, rfl⟩ := h
        exact ⟨_, _, _, rfl, hlive hq (by simp), .inl rfl⟩
  · simp only [Option.map_eq_some_iff] at h
    obtain ⟨q', hq, rfl⟩ := h
    exact ⟨_, _, _, rfl, hb hq, .inr ⟨_, .inl rfl, hq⟩⟩

theorem inner_work (rep : Reply) (d : Nat) : ∀ {n n' : Net} {up : State Event}, Inner up n → work rep d n = some n' →
    Inner up n' := by
  induction d with
  | succ d ih =>
    intro n n' up i h
    cases n with
    | sink => simp [work] at h
    | stage =>
      simp only [work, Option.map_eq_some_iff] at h
      obtain ⟨b', hb, rfl⟩ := h
      exact ⟨i.1, ih i.2 hb⟩
  | zero =>
    intro n n' up i h
    cases n with
    | sink => simp [work] at h
    | stage =>
      obtain ⟨q', k, b, rfl, hb, hq⟩ := work_zero i.2 h
      rcases hq with rfl | ⟨c, hc, hq⟩
      · exact ⟨i.1, hb⟩
      · refine ⟨fun hs => ?_, hb⟩
        rw [stopped_keeps hq (by rcases hc with rfl | rfl <;> simp)] at hs
        rw [(step_inside hq (by rcases hc with rfl | rfl <;> simp) (by rcases hc with rfl | rfl <;> simp)).2.1]
        exact ⟨(i.1 hs).1, (i.1 hs).2.step hq⟩

theorem inner_destroy {c : Async.Cmd Event} (hc : c = .stop ∨ c = .join) (d : Nat) :
    ∀ {s : Essentials.Sink} {n n' : Net} {up : State Event}, Good s n → Inner up n → up.consumer = .exited →
    (c = .stop → ∀ q, n.stageAt d = some q → q.consumer = .got none → q.queue = []) →
    destroy c d n = some n' → Inner up n' := by
  induction d with
  | zero =>
    intro s n n' up g i hup hok h
    cases g with
    | sink => simp [destroy] at h
    | stage r l g =>
      simp only [destroy, Option.map_eq_some_iff] at h
      obtain ⟨q', hq, rfl⟩ := h
      refine ⟨fun hs => ⟨hup, ?_⟩, Inner.above i.2 (exited_stays hq)⟩
      rw [(step_inside hq (by rcases hc with rfl | rfl <;> simp) (by rcases hc with rfl | rfl <;> simp)).2.1]
      rcases hc with rfl | rfl
      · exact stop_inv r.inv (hok rfl _ rfl) (fun hn he => by rw [r.exited he] at hn; cases hn) hq
      · rw [stopped_keeps hq (by simp)] at hs
        exact (i.1 hs).2.step hq
  | succ d ih =>
    intro s n n' up g i hup hok h
    cases g with
    | sink => simp [destroy] at h
    | stage r l g =>
      simp only [destroy] at h
      split at h
      · rename_i hj
        simp only [Option.map_eq_some_iff] at h
        obtain ⟨b', hb, rfl⟩ := h
        exact ⟨i.1, ih g i.2 (r.joined hj).1 (fun hcs q hq => hok hcs q hq) hb⟩
      · simp at h

theorem drains_step {s : Essentials.Sink} {n n' : Net} {c : Cmd} {k : Nat} (g : Good s n) (i : Drains k n)
    (hst : c = .stop 0 → k = (accepted n.trace).length)
    (hok : ∀ d, c = .stop d → ∀ q, n.stageAt d = some q → q.consumer = .got none → q.queue = [])
    (h : step n c = some n') : Drains k n' := by
  unfold step at h
  split at h
  · simp at h
  · have key : ∀ {ac : Async.Cmd Event}, ac ≠ .stop → outer ac n = some n' → Drains k n' := by
      intro ac hac h
      cases n with
      | sink => simp [outer] at h
      | stage =>
        simp only [outer, Option.map_eq_some_iff] at h
        obtain ⟨q', hq, rfl⟩ := h
        refine ⟨fun hs => ?_, Inner.above i.2 (exited_stays hq)⟩
        rw [stopped_keeps hq hac] at hs
        exact (i.1 hs).step hq
    have dest : ∀ {ac : Async.Cmd Event} {d : Nat}, (ac = .stop ∧ c = .stop d ∨ ac = .join) → destroy ac d n = some n' → Drains k n' := by
      intro ac d hac h
      have hac' : ac = .stop ∨ ac = .join := hac.imp (·.1) id
      cases g with
      | sink => cases d <;> simp [destroy] at h
      | stage r l g =>
        cases d with
        | zero =>
          simp only [destroy, Option.map_eq_some_iff] at h
          obtain ⟨q', hq, rfl⟩ := h
          refine ⟨fun hs => ?_, Inner.above i.2 (exited_stays hq)⟩
          rcases hac with ⟨rfl, hcs⟩ | rfl
          · rw [hst hcs]
            exact stop_inv r.inv (hok 0 hcs _ rfl) (fun hn he => by rw [r.exited he] at hn; cases hn) hq
          · rw [stopped_keeps hq (by simp)] at hs
            exact (i.1 hs).step hq
        | succ d =>
          simp only [destroy] at h
          split at h
          · rename_i hj
            simp only [Option.map_eq_some_iff] at h
            obtain ⟨b', hb, rfl⟩ := h
            refine ⟨i.1, inner_destroy hac' d g i.2 (r.joined hj).1 (fun hcs q hq => ?_) hb⟩
            rcases hac with ⟨-, hcs⟩ | rfl
            · exact hok (d + 1) hcs q hq
            · cases hcs
          · simp at h
    cases c with
    | emit p e => exact key (by simp) h
    | thread p => exact key (by simp) h
    | stop d => exact dest (.inl ⟨rfl, rfl⟩) h
    | join d => exact dest (.inr rfl) h
    | worker d rep =>
      cases n with
      | sink => cases d <;> simp [work] at h
      | stage =>
        cases d with
        | succ d =>
          simp only [work, Option.map_eq_some_iff] at h
          obtain ⟨b', hb, rfl⟩ := h
          exact ⟨i.1, inner_work rep d i.2 hb⟩
        | zero =>
          obtain ⟨q', k', b, rfl, hb, hq⟩ := work_zero i.2 h
          rcases hq with rfl | ⟨ac, hc, hq⟩
          · exact ⟨i.1, hb⟩
          · refine ⟨fun hs => ?_, hb⟩
            rw [stopped_keeps hq (by rcases hc with rfl | rfl <;> simp)] at hs
            exact (i.1 hs).step hq

theorem drains_start (k : Nat) (s : Essentials.Sink) : Drains k (start s) := by
  have : ∀ up, Inner up (start s) := by
    induction s with
    | asynchronous q s ih => intro up; exact ⟨fun h => (by cases h), ih _⟩
    | _ => intro up; trivial
  cases s with
  | asynchronous q s => exact ⟨fun h => (by cases h), (this State.init).2⟩
  | _ => trivial

/-- The outermost sink takes a step of its own, or none. -/
theorem step_stage {cap : Nat} {policy : Policy} {q : State Event} {k : Bool} {b n' : Net} {c : Cmd}
    (h : step (.stage cap policy q k b) c = some n') :
    ∃ q' k' b', n' = .stage cap policy q' k' b' ∧ (q' = q ∨ ∃ ac, q.step cap policy ac = some q')
      ∧ (q.stopped = true → c ≠ .stop 0 ∧ q'.stopped = true) := by
  have hkeep : ∀ {ac q'}, q.step cap policy ac = some q' → q.stopped = true → q'.stopped = true := by
    intro ac q' hq hs
    by_cases hac : ac = .stop
    · subst hac
      simp [State.step, hs] at hq
    · rw [stopped_keeps hq hac, hs]
  unfold step at h
  split at h
  · simp at h
  · cases c with
    | emit p e =>
      simp only [outer, Option.map_eq_some_iff] at h
      obtain ⟨q', hq, rfl⟩ := h
      exact ⟨_, _, _, rfl, .inr ⟨_, hq⟩, fun hs => ⟨by simp, hkeep hq hs⟩⟩
    | thread p =>
      simp only [outer, Option.map_eq_some_iff] at h
      obtain ⟨q', hq, rfl⟩ := h
      exact ⟨_, _, _, rfl, .inr ⟨_, hq⟩, fun hs => ⟨by simp, hkeep hq hs⟩⟩
    | worker d rep =>
      cases d with
      | succ d =>
        simp only [work, Option.map_eq_some_iff] at h
        obtain ⟨b', hb, rfl⟩ := h
        exact ⟨_, _, _, rfl, .inl rfl, fun hs => ⟨by simp, hs⟩⟩
      | zero =>
        simp only [work] at h
        (repeat' split at h) <;> simp only [Option.map_eq_some_iff] at h <;> obtain ⟨q', hq, rfl⟩ := h <;>
          first
          | exact ⟨_, _, _, rfl, .inl rfl, fun hs => ⟨by simp, hs⟩⟩
          | exact ⟨_, _, _, rfl, .inr ⟨_, hq⟩, fun hs => ⟨by simp, hkeep hq hs⟩⟩
    | stop d =>
      cases d with
      | zero =>
        simp only [destroy, Option.map_eq_some_iff] at h
        obtain ⟨q', hq, rfl⟩ := h
        exact ⟨_, _, _, rfl, .inr ⟨_, hq⟩, fun hs => by simp [State.step, hs] at hq⟩
      | succ d =>
        simp only [destroy] at h
        split at h <;> simp only [Option.map_eq_some_iff, reduceCtorEq] at h
        obtain ⟨b', hb, rfl⟩ := h
        exact ⟨_, _, _, rfl, .inl rfl, fun hs => ⟨by simp, hs⟩⟩
    | join d =>
      cases d with
      | zero =>
        simp only [destroy, Option.map_eq_some_iff] at h
        obtain ⟨q', hq, rfl⟩ := h
        exact ⟨_, _, _, rfl, .inr ⟨_, hq⟩, fun hs => ⟨by simp, hkeep hq hs⟩⟩
      | succ d =>
        simp only [destroy] at h
        split at h <;> simp only [Option.map_eq_some_iff, reduceCtorEq] at h
        obtain ⟨b', hb, rfl⟩ := h
        exact ⟨_, _, _, rfl, .inl rfl, fun hs => ⟨by simp, hs⟩⟩

theorem run_stage (cs : List Cmd) : ∀ {cap : Nat} {policy : Policy} {q : State Event} {k : Bool} {b n' : Net},
    run (.stage cap policy q k b) cs = some n' →
    ∃ q' k' b', n' = .stage cap policy q' k' b' ∧ q.trace <+: q'.trace ∧ (q.stopped = true → Cmd.stop 0 ∉ cs) := by
  induction cs with
  | nil => intro _ _ _ _ _ _ h; cases h; exact ⟨_, _, _, rfl, List.prefix_rfl, by simp⟩
  | cons c cs ih =>
    intro cap policy q k b n' h
    simp only [run, Option.bind_eq_some_iff] at h
    obtain ⟨m, h1, h2⟩ := h
    obtain ⟨q1, k1, b1, rfl, hq, hs⟩ := step_stage h1
    obtain ⟨q2, k2, b2, rfl, ht, hs'⟩ := ih h2
    refine ⟨q2, k2, b2, rfl, List.IsPrefix.trans ?_ ht, fun h => ?_⟩
    · rcases hq with rfl | ⟨ac, hq⟩
      · exact List.prefix_rfl
      · exact Async.step_trace hq
    · have := hs h
      simp [Ne.symm this.1, hs' this.2]

theorem drains_run {s : Essentials.Sink} {k : Nat} (cs : List Cmd) : ∀ {n n' : Net}, Good s n → Drains k n →
    (∀ pre post, cs = pre ++ .stop 0 :: post → ∀ m, run n pre = some m → k = (accepted m.trace).length) →
    (∀ d pre post, cs = pre ++ .stop d :: post → ∀ m, run n pre = some m → ∀ q, m.stageAt d = some q →
      q.consumer = .got none → q.queue = []) →
    run n cs = some n' → Drains k n' := by
  induction cs with
  | nil => intro n n' _ i _ _ h; cases h; exact i
  | cons c cs ih =>
    intro n n' g i hst hok h
    simp only [run, Option.bind_eq_some_iff] at h
    obtain ⟨m, h1, h2⟩ := h
    refine ih (good_step g h1) (drains_step g i (fun hc => hst [] cs (by simp [hc]) n rfl)
      (fun d hc => hok d [] cs (by simp [hc]) n rfl) h1) ?_ ?_ h2
    · intro pre post hcs m' hm'
      exact hst (c :: pre) post (by simp [hcs]) m' (by simp [run, h1, hm'])
    · intro d pre post hcs m' hm'
      exact hok d (c :: pre) post (by simp [hcs]) m' (by simp [run, h1, hm'])

/-- Once the destructors have returned, what a worker handed over has reached the end. -/
theorem drained {conf : Async.Sink} {s : Essentials.Sink} {q : State Event} {cap : Nat} {policy : Policy}
    {calling : Bool} {below : Net} (g : Good (.asynchronous conf s) (.stage cap policy q calling below))
    (i : Inner q below) (hq : q.consumer = .exited) (hd : below.destroyed) (hw : AllWait s) :
    below.given.map (·.2) = (delivered q.trace).map (·.2) := by
  induction below generalizing conf s q cap policy calling with
  | sink b given =>
    cases g with
    | stage r l g => exact l.2
  | stage cap' policy' q' calling' below' ih =>
    cases g with
    | stage r l g =>
      cases g with
      | stage r' l' g' =>
        have hcall : calling = false := by
          cases calling with
          | false => rfl
          | true =>
            obtain ⟨e, he, -⟩ := l.1 rfl
            rw [hq] at he
            cases he
        obtain ⟨hidle, hcalls⟩ := l.2.1 hcall
        obtain ⟨hex, hst⟩ := r'.joined hd.1
        have hall := (ended_pending r' l.2.2.2).2 hw.1
        rw [hidle, hcalls] at hall
        simp only [Async.PPc.pending, List.append_nil] at hall
        have hlen := (i.1 hst).2.exited hex
        obtain ⟨cs, hr⟩ := r'
        have hpre := (Async.C09_prefix _ _ cs q' hr).1
        have heq : delivered q'.trace = accepted q'.trace := hpre.eq_of_length (Nat.le_antisymm hpre.length_le hlen)
        show below'.given.map (·.2) = _
        rw [ih (.stage ⟨cs, hr⟩ l' g') i.2 hex hd.2 hw.2, heq, hall]

end Blackhole.Chain
