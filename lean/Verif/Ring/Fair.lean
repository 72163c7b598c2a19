import Verif.Ring.Props

/-! # The queue inside the asynchronous sink: what must happen (C78)

`C78_can_deliver_partial` says that records can be delivered, whatever happened before. Here is that they are, in every
infinite execution in which the scheduler forgets no thread. -/

namespace Blackhole.Ring
variable {E : Type} {policy : Async.Policy} {s s' : State E}

/-! ## Specification -/

/-- Calls and steps of calls and of the worker: no failing copy, no failing wrapped sink, no destructor. -/
def Cmd.regular : Cmd E → Bool
  | .emit _ _ | .producer _ _ | .consumer _ => true
  | _ => false

/-- The worker's next step is the `compare_exchange` of the dequeue position, which has not changed. -/
def State.exchanges (s : State E) : Prop := s.consumer = .seen s.head (s.head + 1)

/-- An infinite execution that forgets nobody. -/
structure FairExec (cap : Nat) (policy : Async.Policy) (st : Nat → State E) (cmd : Nat → Cmd E) : Prop where
  start : st 0 = State.init
  next : ∀ n, (st n).step cap policy (cmd n) = some (st (n + 1))
  regular : ∀ n, (cmd n).regular = true
  /-- The worker goes on for ever. -/
  worker : ∀ n, ∃ m, n ≤ m ∧ ∃ b, cmd m = .consumer b
  /-- A call that has not ended makes another step. -/
  calls : ∀ n p, (st n).producers p ≠ .idle → ∃ m, n ≤ m ∧ ∃ b, cmd m = .producer p b
  /-- `compare_exchange_weak` of the worker does not fail for no reason whenever it is tried. -/
  exchange : (∀ n, ∃ m, n ≤ m ∧ (st m).exchanges ∧ ∃ b, cmd m = .consumer b) →
    ∀ n, ∃ m, n ≤ m ∧ (st m).exchanges ∧ cmd m = .consumer false

/-! ## Proofs -/

/-- Something that stays, and comes nearer to its end with every act, comes to its end. -/
theorem eventually {act P Q : Nat → Prop} {μ : Nat → Nat} (fair : ∀ n, P n → ¬ Q n → ∃ m, n ≤ m ∧ act m)
    (stays : ∀ n, P n → ¬ Q n → ¬ act n → P (n + 1) ∧ μ (n + 1) ≤ μ n)
    (acts : ∀ n, P n → ¬ Q n → act n → P (n + 1) ∧ (μ (n + 1) < μ n ∨ Q (n + 1))) (n : Nat) (h : P n) :
    ∃ m, n ≤ m ∧ P m ∧ Q m := by
  have main : ∀ k n, μ n = k → P n → ∃ m, n ≤ m ∧ P m ∧ Q m := by
    intro k
    induction k using Nat.strongRecOn with
    | _ k ihk =>
      intro n hk hp
      by_cases hq : Q n
      · exact ⟨n, Nat.le_refl _, hp, hq⟩
      obtain ⟨m, hm, ha⟩ := fair n hp hq
      have walk : ∀ d n, n + d = m → μ n ≤ k → P n → ∃ m, n ≤ m ∧ P m ∧ Q m := by
        intro d
        induction d with
        | zero =>
          intro n hd h0 hp
          by_cases hq : Q n
          · exact ⟨n, Nat.le_refl _, hp, hq⟩
          have : n = m := by omega
          subst this
          obtain ⟨h1, h2 | h2⟩ := acts n hp hq ha
          · obtain ⟨x, hx, h3⟩ := ihk _ (by omega) (n + 1) rfl h1
            exact ⟨x, by omega, h3⟩
          · exact ⟨n + 1, by omega, h1, h2⟩
        | succ d ih =>
          intro n hd h0 hp
          by_cases hq : Q n
          · exact ⟨n, Nat.le_refl _, hp, hq⟩
          by_cases han : act n
          · obtain ⟨h1, h2 | h2⟩ := acts n hp hq han
            · obtain ⟨x, hx, h3⟩ := ihk _ (by omega) (n + 1) rfl h1
              exact ⟨x, by omega, h3⟩
            · exact ⟨n + 1, by omega, h1, h2⟩
          · obtain ⟨h1, h2⟩ := stays n hp hq han
            obtain ⟨x, hx, h3⟩ := ih (n + 1) (by omega) (by omega) h1
            exact ⟨x, by omega, h3⟩
      exact walk (m - n) n (by omega) (by omega) hp
  exact main (μ n) n rfl h

theorem two_le {k : Nat} (hk : 1 ≤ k) : 2 ≤ 2 ^ k := by
  have := Nat.pow_le_pow_right (n := 2) (by omega) hk
  omega

/-- What regular steps never change or never lower. -/
structure Later (s s' : State E) : Prop where
  seq : ∀ c, s.seq c ≤ s'.seq c
  head : s.head ≤ s'.head
  tail : s.tail ≤ s'.tail
  claims : s.claims <+: s'.claims
  stopped : s'.stopped = s.stopped

theorem upd_ge {f : Nat → Nat} {a b : Nat} (h : f a ≤ b) (c : Nat) : f c ≤ upd f a b c := by
  unfold upd
  split
  · rename_i e; rw [e]; exact h
  · exact Nat.le_refl _

theorem later_step {k : Nat} (hk : 1 ≤ k) {c : Cmd E} (h : Inv (2 ^ k) s) (hc : c.regular = true)
    (hs : s.step (2 ^ k) policy c = some s') : Later s s' := by
  have same : ∀ {t : State E}, t.seq = s.seq → t.head = s.head → t.tail = s.tail → t.claims = s.claims →
      t.stopped = s.stopped → Later s t := fun h1 h2 h3 h4 h5 =>
    ⟨fun c => by rw [h1]; exact Nat.le_refl _, by omega, by omega, by rw [h4]; exact List.prefix_refl _, h5⟩
  cases c with
  | emit p e =>
    simp only [State.step] at hs
    split at hs
    · cases hs; exact same rfl rfl rfl rfl rfl
    · cases hs
  | producer p b =>
    have hp := h.prod p
    simp only [State.step, State.produce] at hs
    split at hs
    · cases hs
    · cases hs; exact same rfl rfl rfl rfl rfl
    · cases hs; exact same rfl rfl rfl rfl rfl
    · split at hs
      · split at hs
        · rename_i e1 e2
          cases hs
          refine ⟨fun _ => Nat.le_refl _, Nat.le_refl _, ?_, List.prefix_append _ _, rfl⟩
          simp only [State.go, State.say]; omega
        · cases hs; exact same rfl rfl rfl rfl rfl
      · split at hs <;> cases hs <;> exact same rfl rfl rfl rfl rfl
    · cases hs; exact same rfl rfl rfl rfl rfl
    · split at hs <;> cases hs <;> exact same rfl rfl rfl rfl rfl
    · cases hs; exact same rfl rfl rfl rfl rfl
    · cases hs; exact same rfl rfl rfl rfl rfl
    · rename_i e q hq
      cases hs
      rw [hq] at hp
      refine ⟨fun c => ?_, Nat.le_refl _, Nat.le_refl _, List.prefix_refl _, rfl⟩
      simp only [State.go, State.say]
      refine upd_ge ?_ c
      rw [cell_eq, hp.2.2.2.1]
      omega
  | consumer b =>
    have hp := h.cons
    simp only [State.step, State.consume] at hs
    split at hs
    · cases hs; exact same rfl rfl rfl rfl rfl
    · cases hs; exact same rfl rfl rfl rfl rfl
    · split at hs
      · split at hs
        · rename_i e1 e2
          cases hs
          refine ⟨fun _ => Nat.le_refl _, ?_, Nat.le_refl _, List.prefix_refl _, rfl⟩
          simp only; omega
        · cases hs; exact same rfl rfl rfl rfl rfl
      · split at hs <;> cases hs <;> exact same rfl rfl rfl rfl rfl
    · cases hs; exact same rfl rfl rfl rfl rfl
    · cases hs; exact same rfl rfl rfl rfl rfl
    · split at hs <;> cases hs <;> exact same rfl rfl rfl rfl rfl
    · rename_i q x hq
      cases hs
      rw [hq] at hp
      refine ⟨fun c => ?_, Nat.le_refl _, Nat.le_refl _, List.prefix_refl _, rfl⟩
      refine upd_ge ?_ c
      rw [cell_eq, hp.2.1]
      have := two_le hk
      omega
    · split at hs <;> cases hs <;> exact same rfl rfl rfl rfl rfl
    · cases hs; exact same rfl rfl rfl rfl rfl
    · cases hs; exact same rfl rfl rfl rfl rfl
    · cases hs; exact same rfl rfl rfl rfl rfl
    · cases hs
    · cases hs
    · cases hs
  | throws p => cases hc
  | consumerThrows => cases hc
  | stop => cases hc
  | join => cases hc

/-- The worker moves only by its own steps. -/
theorem consumer_stays {cap : Nat} {c : Cmd E} (hc : c.regular = true) (hn : ∀ b, c ≠ .consumer b)
    (hs : s.step cap policy c = some s') : s'.consumer = s.consumer := by
  cases c with
  | emit p e =>
    simp only [State.step] at hs
    split at hs <;> cases hs
    rfl
  | producer p b =>
    simp only [State.step, State.produce] at hs
    split at hs
    · cases hs
    · cases hs; rfl
    · cases hs; rfl
    · split at hs
      · split at hs <;> cases hs <;> rfl
      · split at hs <;> cases hs <;> rfl
    · cases hs; rfl
    · split at hs <;> cases hs <;> rfl
    · cases hs; rfl
    · cases hs; rfl
    · cases hs; rfl
  | consumer b => exact absurd rfl (hn b)
  | throws p => cases hc
  | consumerThrows => cases hc
  | stop => cases hc
  | join => cases hc

/-- A call moves only by its own steps. -/
theorem producer_stays {cap : Nat} {c : Cmd E} {p : Nat} (hc : c.regular = true) (hn : ∀ b, c ≠ .producer p b)
    (hi : s.producers p ≠ .idle) (hs : s.step cap policy c = some s') : s'.producers p = s.producers p := by
  cases c with
  | emit q e =>
    simp only [State.step] at hs
    split at hs
    · rename_i hq
      cases hs
      have : p ≠ q := fun e => hi (e ▸ hq)
      simp [State.go, State.say, upd, this]
    · cases hs
  | producer q b =>
    have : p ≠ q := fun e => hn b (e ▸ rfl)
    simp only [State.step, State.produce] at hs
    split at hs
    · cases hs
    · cases hs; simp [State.go, upd, this]
    · cases hs; simp [State.go, upd, this]
    · split at hs
      · split at hs <;> cases hs <;> simp [State.go, State.say, upd, this]
      · split at hs <;> cases hs <;> simp [State.go, upd, this]
    · cases hs; simp [State.go, upd, this]
    · split at hs <;> cases hs <;> simp [State.go, State.say, upd, this]
    · cases hs; simp [State.go, upd, this]
    · cases hs; simp [State.go, upd, this]
    · cases hs; simp [State.go, State.say, upd, this]
  | consumer b =>
    simp only [State.step, State.consume] at hs
    split at hs
    · cases hs; rfl
    · cases hs; rfl
    · split at hs
      · split at hs <;> cases hs <;> rfl
      · split at hs <;> cases hs <;> rfl
    · cases hs; rfl
    · cases hs; rfl
    · split at hs <;> cases hs <;> rfl
    · cases hs; rfl
    · split at hs <;> cases hs <;> rfl
    · cases hs; rfl
    · cases hs; rfl
    · cases hs; rfl
    · cases hs
    · cases hs
    · cases hs
  | throws p => cases hc
  | consumerThrows => cases hc
  | stop => cases hc
  | join => cases hc

/-- Nor do other steps add to the events of a call. -/
theorem events_stay {cap : Nat} {c : Cmd E} {p : Nat} (hc : c.regular = true) (hn : ∀ b, c ≠ .producer p b)
    (hi : s.producers p ≠ .idle) (hs : s.step cap policy c = some s') :
    s'.trace.filter (Ev.by p) = s.trace.filter (Ev.by p) := by
  cases c with
  | emit q e =>
    simp only [State.step] at hs
    split at hs
    · rename_i hq
      cases hs
      have : q ≠ p := fun e => hi (e ▸ hq)
      simp [State.go, State.say, List.filter_append, Ev.by, this]
    · cases hs
  | producer q b =>
    have : q ≠ p := fun e => hn b (e ▸ rfl)
    simp only [State.step, State.produce] at hs
    split at hs
    · cases hs
    · cases hs; rfl
    · cases hs; rfl
    · split at hs
      · split at hs <;> cases hs
        · simp [State.go, State.say, List.filter_append, Ev.by, this]
        · rfl
      · split at hs <;> cases hs <;> rfl
    · cases hs; rfl
    · split at hs <;> cases hs
      · rfl
      · simp [State.go, State.say, List.filter_append, Ev.by, this]
    · cases hs; rfl
    · cases hs; rfl
    · cases hs; simp [State.go, State.say, List.filter_append, Ev.by, this]
  | consumer b =>
    simp only [State.step, State.consume] at hs
    split at hs
    · cases hs; rfl
    · cases hs; rfl
    · split at hs
      · split at hs <;> cases hs <;> rfl
      · split at hs <;> cases hs <;> rfl
    · cases hs; rfl
    · cases hs; rfl
    · split at hs <;> cases hs <;> rfl
    · cases hs; rfl
    · split at hs <;> cases hs <;> rfl
    · cases hs; rfl
    · cases hs; simp [State.say, List.filter_append, Ev.by]
    · cases hs; rfl
    · cases hs
    · cases hs
    · cases hs
  | throws p => cases hc
  | consumerThrows => cases hc
  | stop => cases hc
  | join => cases hc

/-- How far a call that has a place is from its end. -/
def PPc.steps : PPc E → Nat
  | .claimed _ _ => 3
  | .writing _ _ => 2
  | .written _ _ => 1
  | _ => 0

/-- A step of a call that has a place: nearer to the end, or ended and the record is there. -/
theorem place_step {k p q : Nat} {e : E} {b : Bool} (hp : (s.producers p).place = some (e, q))
    (hs : s.step (2 ^ k) policy (.producer p b) = some s') :
    ((s'.producers p).place = some (e, q) ∧ (s'.producers p).steps < (s.producers p).steps ∧ s'.trace = s.trace) ∨
      (s'.producers p = .idle ∧ s'.seq (q % 2 ^ k) = q + 1 ∧ s'.trace = s.trace ++ [.returned p e]) := by
  simp only [State.step, State.produce] at hs
  cases hx : s.producers p <;> rw [hx] at hp hs <;> simp only [PPc.place, reduceCtorEq, Option.some.injEq, Prod.mk.injEq] at hp <;>
    obtain ⟨rfl, rfl⟩ := hp <;> simp only [Option.some.injEq] at hs <;> subst hs
  · left; simp [State.go, upd, PPc.place, PPc.steps]
  · left; simp [State.go, upd, PPc.place, PPc.steps]
  · right
    simp [State.go, State.say, upd, cell_eq]

/-- The worker is still there. -/
theorem working_step {k : Nat} (hk : 1 ≤ k) {c : Cmd E} (h : Inv (2 ^ k) s) (hst : s.stopped = false) (hc : c.regular = true)
    (hw : s.consumer.working = true) (hs : s.step (2 ^ k) policy c = some s') : s'.consumer.working = true := by
  have h' := (inv_step hk h hs).cons
  by_cases hn : ∀ b, c ≠ .consumer b
  · rw [consumer_stays hc hn hs]; exact hw
  obtain ⟨b, rfl⟩ : ∃ b, c = .consumer b := by
    cases c with
    | consumer b => exact ⟨b, rfl⟩
    | _ => exact absurd (fun b e => by cases e) hn
  simp only [State.step, State.consume] at hs
  split at hs
  · cases hs; rfl
  · cases hs; rfl
  · split at hs
    · split at hs <;> cases hs <;> rfl
    · split at hs <;> cases hs <;> rfl
  · cases hs; simp only; split <;> rfl
  · cases hs; rfl
  · split at hs
    · cases hs; rfl
    · cases hs; exact absurd h' (by simp [CGood])
  · cases hs; rfl
  · simp only [hst, Bool.false_eq_true, if_false] at hs; cases hs; rfl
  · cases hs; rfl
  · cases hs; rfl
  · cases hs; rfl
  · cases hs
  · cases hs
  · cases hs

/-- How far the worker is from the `compare_exchange` that takes a record which is there, in position `h`. -/
def CPc.toExchange (h : Nat) : CPc E → Nat
  | .seen pos n => if n = h + 1 ∧ pos = h then 0 else 6
  | .loaded _ => 1
  | .loop => 2
  | .sleep => 3
  | .got none => 4
  | .behind _ => 5
  | .deliver _ => 3
  | .got (some _) => 4
  | .copied _ _ => 5
  | .reading _ => 6
  | .taken _ => 7
  | _ => 0

theorem exchange_step {k : Nat} {b : Bool} (h : Inv (2 ^ k) s) (hst : s.stopped = false)
    (hw : s.consumer.working = true) (hseq : s.seq (s.head % 2 ^ k) = s.head + 1) (he : ¬ s.exchanges)
    (hs : s.step (2 ^ k) policy (.consumer b) = some s') :
    s'.consumer.toExchange s.head < s.consumer.toExchange s.head ∧ s'.head = s.head := by
  have hg := h.cons
  unfold State.exchanges at he
  simp only [State.step, State.consume] at hs
  cases hx : s.consumer with
  | loop => rw [hx] at hs; simp only [Option.some.injEq] at hs; subst hs; simp [CPc.toExchange]
  | loaded pos =>
    rw [hx] at hs hg
    simp only [CGood] at hg
    subst hg
    simp only [Option.some.injEq] at hs; subst hs
    simp [CPc.toExchange, cell_eq, hseq]
  | seen pos n =>
    rw [hx] at hs hg he
    simp only [CGood] at hg
    obtain ⟨rfl, -⟩ := hg
    have hn : n ≠ s.head + 1 := fun e => he (by rw [e])
    simp only [if_neg hn] at hs
    split at hs <;> cases hs <;> simp [CPc.toExchange, hn]
  | behind pos =>
    rw [hx] at hs
    simp only [Option.some.injEq] at hs; subst hs
    simp only
    split <;> simp [CPc.toExchange]
  | taken pos => rw [hx] at hs; simp only [Option.some.injEq] at hs; subst hs; simp [CPc.toExchange]
  | reading pos =>
    rw [hx] at hs
    simp only at hs
    split at hs <;> cases hs <;> simp [CPc.toExchange]
  | copied pos x => rw [hx] at hs; simp only [Option.some.injEq] at hs; subst hs; simp [CPc.toExchange]
  | got o =>
    rw [hx] at hs
    cases o with
    | none => simp only [hst, Bool.false_eq_true, if_false, Option.some.injEq] at hs; subst hs; simp [CPc.toExchange]
    | some x => simp only [Option.some.injEq] at hs; subst hs; simp [CPc.toExchange]
  | deliver x => rw [hx] at hs; simp only [Option.some.injEq] at hs; subst hs; simp [CPc.toExchange, State.say]
  | sleep => rw [hx] at hs; simp only [Option.some.injEq] at hs; subst hs; simp [CPc.toExchange]
  | exited => rw [hx] at hw; cases hw
  | terminated => rw [hx] at hw; cases hw
  | corrupt => rw [hx] at hw; cases hw

/-- How far the worker is from giving what it holds to the wrapped sink. -/
def CPc.toDeliver : CPc E → Nat
  | .taken _ => 5
  | .reading _ => 4
  | .copied _ _ => 3
  | .got (some _) => 2
  | .deliver _ => 1
  | _ => 0

theorem hand_step {k : Nat} {b : Bool} (h : Inv (2 ^ k) s) (hh : s.consumer.hand s.claims ≠ [])
    (hs : s.step (2 ^ k) policy (.consumer b) = some s') : s'.consumer.toDeliver < s.consumer.toDeliver := by
  have hg := h.cons
  simp only [State.step, State.consume] at hs
  cases hx : s.consumer with
  | taken pos => rw [hx] at hs; simp only [Option.some.injEq] at hs; subst hs; simp [CPc.toDeliver]
  | reading pos =>
    rw [hx] at hs
    simp only at hs
    split at hs <;> cases hs <;> simp [CPc.toDeliver]
  | copied pos x => rw [hx] at hs; simp only [Option.some.injEq] at hs; subst hs; simp [CPc.toDeliver]
  | got o =>
    rw [hx] at hs hh
    cases o with
    | none => simp [CPc.hand] at hh
    | some x => simp only [Option.some.injEq] at hs; subst hs; simp [CPc.toDeliver]
  | deliver x => rw [hx] at hs; simp only [Option.some.injEq] at hs; subst hs; simp [CPc.toDeliver, State.say]
  | _ => rw [hx] at hh; simp [CPc.hand] at hh

theorem hand_length (claims : List (Nat × E)) (c : CPc E) : (c.hand claims).length ≤ 1 := by
  cases c with
  | taken pos => simp only [CPc.hand]; cases claims[pos]? <;> simp
  | reading pos => simp only [CPc.hand]; cases claims[pos]? <;> simp
  | got o => cases o <;> simp [CPc.hand]
  | _ => simp [CPc.hand]

section
variable {k : Nat} {st : Nat → State E} {cmd : Nat → Cmd E}

theorem FairExec.all (hk : 1 ≤ k) (f : FairExec (2 ^ k) policy st cmd) (n : Nat) :
    Sound k (st n) ∧ (st n).stopped = false ∧ (st n).consumer.working = true := by
  induction n with
  | zero => rw [f.start]; exact ⟨sound_init, rfl, rfl⟩
  | succ n ih =>
    obtain ⟨h1, h2, h3⟩ := ih
    have hr := f.regular n
    have hn := f.next n
    refine ⟨sound_step hk h1 (fun p e => ?_) hn, (later_step hk h1.inv hr hn).stopped.trans h2,
      working_step hk h1.inv h2 hr h3 hn⟩
    rw [e] at hr
    cases hr

theorem FairExec.later (hk : 1 ≤ k) (f : FairExec (2 ^ k) policy st cmd) {n m : Nat} (h : n ≤ m) : Later (st n) (st m) := by
  obtain ⟨d, rfl⟩ := Nat.exists_eq_add_of_le h
  clear h
  induction d with
  | zero => exact ⟨fun _ => Nat.le_refl _, Nat.le_refl _, Nat.le_refl _, List.prefix_refl _, rfl⟩
  | succ d ih =>
    have hs := later_step hk (f.all hk (n + d)).1.inv (f.regular _) (f.next (n + d))
    exact ⟨fun c => Nat.le_trans (ih.seq c) (hs.seq c), Nat.le_trans ih.head hs.head, Nat.le_trans ih.tail hs.tail,
      ih.claims.trans hs.claims, hs.stopped.trans ih.stopped⟩

/-- A record that has got a place is there at some time, and its call has returned. -/
theorem FairExec.filled (f : FairExec (2 ^ k) policy st cmd) {n p q : Nat} {e : E}
    (h : ((st n).producers p).place = some (e, q)) :
    ∃ m, n ≤ m ∧ q + 1 ≤ (st m).seq (q % 2 ^ k) ∧
      (st m).trace.filter (Ev.by p) = (st n).trace.filter (Ev.by p) ++ [.returned p e] := by
  have notIdle : ∀ {x : PPc E}, x.place = some (e, q) → x ≠ .idle := by
    rintro x hx rfl
    cases hx
  obtain ⟨m, h1, ⟨-, h2⟩, h3, h4⟩ := eventually (act := fun m => ∃ b, cmd m = .producer p b)
    (P := fun m => ((st m).producers p).place = some (e, q) ∧ (st m).trace.filter (Ev.by p) = (st n).trace.filter (Ev.by p))
    (Q := fun m => q + 1 ≤ (st (m + 1)).seq (q % 2 ^ k) ∧ (st (m + 1)).trace = (st m).trace ++ [.returned p e])
    (μ := fun m => ((st m).producers p).steps)
    (fun m hm _ => f.calls m p (notIdle hm.1))
    (fun m hm _ ha => by
      have h1 := producer_stays (f.regular m) (fun b e => ha ⟨b, e⟩) (notIdle hm.1) (f.next m)
      have h2 := events_stay (f.regular m) (fun b e => ha ⟨b, e⟩) (notIdle hm.1) (f.next m)
      exact ⟨⟨by rw [h1]; exact hm.1, h2.trans hm.2⟩, by rw [h1]; exact Nat.le_refl _⟩)
    (fun m hm hq ha => by
      obtain ⟨b, hb⟩ := ha
      have hn := f.next m
      rw [hb] at hn
      rcases place_step hm.1 hn with ⟨h1, h2, h3⟩ | ⟨h1, h2, h3⟩
      · exact ⟨⟨h1, by rw [h3]; exact hm.2⟩, .inl h2⟩
      · exact absurd ⟨by omega, h3⟩ hq) n ⟨h, rfl⟩
  refine ⟨m + 1, by omega, h3, ?_⟩
  rw [h4, List.filter_append, h2]
  simp [Ev.by]

/-- A record that is there is taken. -/
theorem FairExec.takes (hk : 1 ≤ k) (f : FairExec (2 ^ k) policy st cmd) {n h : Nat} (hh : (st n).head = h)
    (ht : h < (st n).tail) (hs : h + 1 ≤ (st n).seq (h % 2 ^ k)) : ∃ m, n ≤ m ∧ h < (st m).head := by
  apply Classical.byContradiction
  intro hno
  have head : ∀ m, n ≤ m → (st m).head = h := by
    intro m hm
    have h1 := (f.later hk hm).head
    have h2 : ¬ h < (st m).head := fun hl => hno ⟨m, hm, hl⟩
    omega
  have there : ∀ m, n ≤ m → (st m).seq ((st m).head % 2 ^ k) = (st m).head + 1 := by
    intro m hm
    have hl := f.later hk hm
    have h1 := hl.seq (h % 2 ^ k)
    have h2 := hl.tail
    rcases (f.all hk m).1.inv.used h (by rw [head m hm]; exact Nat.le_refl _) (by omega) with ⟨h3, -⟩ | h3
    · rw [head m hm]; exact h3
    · omega
  have again : ∀ m, ∃ m', m ≤ m' ∧ (st m').exchanges ∧ ∃ b, cmd m' = .consumer b := by
    intro m
    obtain ⟨m1, a1, a2, a3⟩ := eventually (act := fun m => ∃ b, cmd m = .consumer b) (P := fun m => n ≤ m)
      (Q := fun m => (st m).exchanges) (μ := fun m => (st m).consumer.toExchange h)
      (fun m _ _ => f.worker m)
      (fun m hm _ ha => by
        rw [consumer_stays (f.regular m) (fun b e => ha ⟨b, e⟩) (f.next m)]
        exact ⟨by omega, Nat.le_refl _⟩)
      (fun m hm hq ha => by
        obtain ⟨b, hb⟩ := ha
        have hn := f.next m
        rw [hb] at hn
        have all := f.all hk m
        have := (exchange_step all.1.inv all.2.1 all.2.2 (there m hm) hq hn).1
        rw [head m hm] at this
        exact ⟨by omega, .inl this⟩) (max n m) (by omega)
    obtain ⟨m2, b1, b2, b3⟩ := eventually (act := fun m => ∃ b, cmd m = .consumer b) (P := fun m => n ≤ m ∧ (st m).exchanges)
      (Q := fun m => ∃ b, cmd m = .consumer b) (μ := fun _ => 0) (fun m _ _ => f.worker m)
      (fun m hm _ ha => by
        refine ⟨⟨by omega, ?_⟩, Nat.le_refl _⟩
        have hc := consumer_stays (f.regular m) (fun b e => ha ⟨b, e⟩) (f.next m)
        have he := hm.2
        unfold State.exchanges at he ⊢
        rw [hc, head (m + 1) (by omega), he, head m hm.1])
      (fun m _ hq ha => absurd ha hq) m1 ⟨a2, a3⟩
    exact ⟨m2, by omega, b2.2, b3⟩
  obtain ⟨m, hm, he, hc⟩ := f.exchange again n
  have hn := f.next m
  rw [hc] at hn
  unfold State.exchanges at he
  simp only [State.step, State.consume, he, if_true, and_self, Option.some.injEq] at hn
  have h1 : (st (m + 1)).head = (st m).head + 1 := by rw [← hn]
  rw [head m hm] at h1
  exact hno ⟨m + 1, by omega, by omega⟩

/-- What is claimed is taken. -/
theorem FairExec.reaches (hk : 1 ≤ k) (f : FairExec (2 ^ k) policy st cmd) (h : Nat) : ∀ d n, h - (st n).head ≤ d →
    h < (st n).tail → ∃ m, n ≤ m ∧ h < (st m).head := by
  have one : ∀ n, (st n).head < (st n).tail → ∃ m, n ≤ m ∧ (st n).head < (st m).head := by
    intro n hl
    rcases (f.all hk n).1.inv.used _ (Nat.le_refl _) hl with ⟨h1, -⟩ | h1
    · exact f.takes hk rfl hl (by omega)
    · obtain ⟨p, e, hp⟩ := (f.all hk n).1.owned _ (Nat.le_refl _) hl h1
      obtain ⟨m, hm, h2, -⟩ := f.filled hp
      have hlat := f.later hk hm
      by_cases heq : (st m).head = (st n).head
      · obtain ⟨m', hm', h3⟩ := f.takes hk heq (Nat.lt_of_lt_of_le hl hlat.tail) h2
        exact ⟨m', by omega, h3⟩
      · exact ⟨m, hm, by have := hlat.head; omega⟩
  intro d
  induction d with
  | zero =>
    intro n hd ht
    by_cases hlt : h < (st n).head
    · exact ⟨n, Nat.le_refl _, hlt⟩
    · obtain ⟨m, hm, h1⟩ := one n (by omega)
      exact ⟨m, hm, by omega⟩
  | succ d ih =>
    intro n hd ht
    by_cases hlt : h < (st n).head
    · exact ⟨n, Nat.le_refl _, hlt⟩
    · obtain ⟨m, hm, h1⟩ := one n (by omega)
      have := (f.later hk hm).tail
      obtain ⟨m', hm', h2⟩ := ih m (by omega) (by omega)
      exact ⟨m', by omega, h2⟩

/-- What is taken is delivered. -/
theorem FairExec.gives (hk : 1 ≤ k) (f : FairExec (2 ^ k) policy st cmd) {n h : Nat} (hh : h < (st n).head) :
    ∃ m, n ≤ m ∧ h < (delivered (st m).trace).length := by
  have count : ∀ m, n ≤ m → ¬ h < (delivered (st m).trace).length → (st m).consumer.hand (st m).claims ≠ [] := by
    intro m hm hl hz
    have all := f.all hk m
    have hd := all.1.told.delivered
    rw [hz, List.append_nil] at hd
    have := congrArg List.length hd
    rw [List.length_take, all.1.inv.count] at this
    have h1 := all.1.inv.low
    have h2 := (f.later hk hm).head
    omega
  obtain ⟨m, h1, -, h3⟩ := eventually (act := fun m => ∃ b, cmd m = .consumer b) (P := fun m => n ≤ m)
    (Q := fun m => h < (delivered (st m).trace).length) (μ := fun m => (st m).consumer.toDeliver) (fun m _ _ => f.worker m)
    (fun m hm _ ha => by
      rw [consumer_stays (f.regular m) (fun b e => ha ⟨b, e⟩) (f.next m)]
      exact ⟨by omega, Nat.le_refl _⟩)
    (fun m hm hq ha => by
      obtain ⟨b, hb⟩ := ha
      have hn := f.next m
      rw [hb] at hn
      exact ⟨by omega, .inl (hand_step (f.all hk m).1.inv (count m hm hq) hn)⟩) n (Nat.le_refl _)
  exact ⟨m, h1, h3⟩

/-! ## The properties -/

/-- **C78.** In every execution that forgets no thread, in which no copy and no call of the wrapped sink fails: whatever has
got a place in the queue is delivered. -/
theorem C78_delivers_partial (hk : 1 ≤ k) (f : FairExec (2 ^ k) policy st cmd) (n : Nat) :
    ∃ m, n ≤ m ∧ claimed (st n).trace <+: delivered (st m).trace := by
  have told := (f.all hk n).1.told.claimed
  have cnt := (f.all hk n).1.inv.count
  by_cases hz : (st n).tail = 0
  · refine ⟨n, Nat.le_refl _, ?_⟩
    rw [told, List.eq_nil_of_length_eq_zero (cnt.trans hz)]
    exact List.nil_prefix
  · obtain ⟨m1, a1, a2⟩ := f.reaches hk ((st n).tail - 1) _ n (Nat.le_refl _) (by omega)
    obtain ⟨m, b1, b2⟩ := f.gives hk a2
    refine ⟨m, by omega, ?_⟩
    have hm := (f.all hk m).1
    have hd : delivered (st m).trace <+: (st m).claims :=
      (List.prefix_append _ _).trans (hm.told.delivered ▸ List.take_prefix _ _)
    rw [told]
    exact List.prefix_of_prefix_length_le (f.later hk (by omega)).claims hd (by omega)

theorem done_last {p : Nat} {d : List (Ev E)} (h : Done p d) (e : E) : d.getLast? ≠ some (.claim p e) := by
  induction h with
  | none => simp
  | @accepted e tr h ih => cases tr <;> simp_all
  | @discarded e tr h ih => cases tr <;> simp_all
  | @threw e tr h ih => cases tr <;> simp_all

/-- A call whose last event is that it has got its place. -/
theorem placed_of (h : CallsOf s) {p : Nat} {e : E} (hl : (s.trace.filter (Ev.by p)).getLast? = some (.claim p e)) :
    ∃ q, (s.producers p).place = some (e, q) := by
  obtain ⟨d, h1, h2⟩ := h p
  rw [h2] at hl
  cases hx : s.producers p <;> rw [hx] at hl <;>
    simp only [PPc.begun, List.append_nil, List.getLast?_append, List.getLast?_cons_cons, List.getLast?_singleton, Option.some_or,
      Option.some.injEq, reduceCtorEq, Ev.claim.injEq, true_and] at hl
  · exact absurd hl (done_last h1 e)
  all_goals (subst hl; exact ⟨_, rfl⟩)

/-- **C78.** And the call that has got the place returns, as its next event. -/
theorem C78_returns_partial (f : FairExec (2 ^ k) policy st cmd) {n p : Nat} {e : E}
    (h : ((st n).trace.filter (Ev.by p)).getLast? = some (.claim p e)) :
    ∃ m, n ≤ m ∧ (st m).trace.filter (Ev.by p) = (st n).trace.filter (Ev.by p) ++ [.returned p e] := by
  have calls : CallsOf (st n) := by
    clear h
    induction n with
    | zero => rw [f.start]; exact fun _ => ⟨[], .none, rfl⟩
    | succ n ih => exact calls_step ih (f.next n)
  obtain ⟨q, hq⟩ := placed_of calls h
  obtain ⟨m, h1, -, h2⟩ := f.filled hq
  exact ⟨m, h1, h2⟩

end

/-! An execution that forgets nobody: one call, and then the worker for ever. -/

private def oneCall (n : Nat) : Cmd Nat :=
  if n = 0 then .emit 0 7 else if n < 7 then .producer 0 false else .consumer false

private def after (policy : Async.Policy) : Nat → State Nat
  | 0 => State.init
  | n + 1 => ((after policy n).step 2 policy (oneCall n)).getD (after policy n)

private theorem consume_some {cap : Nat} {b : Bool} (hw : s.consumer.working = true) :
    ∃ t, s.consume cap b = some t ∧ t.producers = s.producers := by
  unfold State.consume
  cases hx : s.consumer with
  | loop => exact ⟨_, rfl, rfl⟩
  | loaded pos => exact ⟨_, rfl, rfl⟩
  | seen pos n =>
    simp only
    split
    · split <;> exact ⟨_, rfl, rfl⟩
    · split <;> exact ⟨_, rfl, rfl⟩
  | behind pos => exact ⟨_, rfl, rfl⟩
  | taken pos => exact ⟨_, rfl, rfl⟩
  | reading pos => simp only; split <;> exact ⟨_, rfl, rfl⟩
  | copied pos x => exact ⟨_, rfl, rfl⟩
  | got o =>
    cases o with
    | none => simp only; split <;> exact ⟨_, rfl, rfl⟩
    | some x => exact ⟨_, rfl, rfl⟩
  | deliver x => exact ⟨_, rfl, rfl⟩
  | sleep => exact ⟨_, rfl, rfl⟩
  | exited => rw [hx] at hw; cases hw
  | terminated => rw [hx] at hw; cases hw
  | corrupt => rw [hx] at hw; cases hw

private theorem after_start : (State.init : State Nat).run 2 policy
    [.emit 0 7, .producer 0 false, .producer 0 false, .producer 0 false, .producer 0 false, .producer 0 false, .producer 0 false]
      = some (after policy 7) := by
  simp [State.run, after, oneCall, State.step, State.init, State.produce, State.go, State.say, upd, cell]

private theorem after_worker (d : Nat) : Inv (2 ^ 1) (after policy (d + 7)) ∧ (after policy (d + 7)).stopped = false ∧
    (after policy (d + 7)).consumer.working = true ∧ (∀ p, (after policy (d + 7)).producers p = .idle) ∧
    (after policy (d + 7)).step 2 policy (oneCall (d + 7)) = some (after policy (d + 8)) := by
  have hc : ∀ d, oneCall (d + 7) = .consumer false := fun d => by simp [oneCall]
  have step : ∀ d, (after policy (d + 7)).consumer.working = true →
      (after policy (d + 7)).step 2 policy (.consumer false) = some (after policy (d + 8)) ∧
      (after policy (d + 8)).producers = (after policy (d + 7)).producers := by
    intro d hw
    obtain ⟨t, h1, h2⟩ := consume_some (cap := 2) (b := false) hw
    have e : after policy (d + 8) = t := by
      show ((after policy (d + 7)).step 2 policy (oneCall (d + 7))).getD _ = t
      rw [hc, State.step, h1]; rfl
    rw [e]
    exact ⟨h1, h2⟩
  induction d with
  | zero =>
    have w : (after policy (0 + 7)).consumer.working = true := by
      simp [after, oneCall, State.step, State.init, State.produce, State.go, State.say, upd, cell, CPc.working]
    refine ⟨inv_run (Nat.le_refl 1) inv_init after_start, ?_, w, ?_, ?_⟩
    · simp [after, oneCall, State.step, State.init, State.produce, State.go, State.say, upd, cell]
    · intro p
      by_cases hp : p = 0
      · subst hp; simp [after, oneCall, State.step, State.init, State.produce, State.go, State.say, upd, cell]
      · simp [after, oneCall, State.step, State.init, State.produce, State.go, State.say, upd, hp, cell]
    · rw [hc]; exact (step 0 w).1
  | succ d ih =>
    obtain ⟨h1, h2, h3, h4, h5⟩ := ih
    rw [hc] at h5
    have w := working_step (Nat.le_refl 1) h1 h2 rfl h3 h5
    have e := step (d + 1)
    rw [show d + 1 + 7 = d + 8 by omega] at e ⊢
    refine ⟨inv_step (Nat.le_refl 1) h1 h5, (later_step (Nat.le_refl 1) h1 rfl h5).stopped.trans h2, w, ?_, ?_⟩
    · rw [(step d h3).2]; exact h4
    · rw [show oneCall (d + 8) = .consumer false from hc (d + 1)]; exact (e w).1

private theorem after_fair : FairExec (2 ^ 1) policy (after policy) oneCall where
  start := rfl
  next n := by
    by_cases h : n < 7
    · rcases n with _ | _ | _ | _ | _ | _ | _ | n
      case succ.succ.succ.succ.succ.succ.succ => omega
      all_goals simp [after, oneCall, State.step, State.init, State.produce, State.go, State.say, upd, cell]
    · obtain ⟨d, rfl⟩ : ∃ d, n = d + 7 := ⟨n - 7, by omega⟩
      exact (after_worker d).2.2.2.2
  regular n := by unfold oneCall; split; rfl; split <;> rfl
  worker n := ⟨n + 7, by omega, false, by simp [oneCall]⟩
  calls n p h := by
    by_cases hn : n < 7
    · by_cases hp : p = 0
      · subst hp
        by_cases h0 : n = 0
        · subst h0; exact absurd rfl h
        · exact ⟨n, Nat.le_refl _, false, by simp [oneCall, h0, hn]⟩
      · refine absurd ?_ h
        rcases n with _ | _ | _ | _ | _ | _ | _ | n
        case succ.succ.succ.succ.succ.succ.succ => omega
        all_goals simp [after, oneCall, State.step, State.init, State.produce, State.go, State.say, upd, hp, cell]
    · obtain ⟨d, rfl⟩ : ∃ d, n = d + 7 := ⟨n - 7, by omega⟩
      exact absurd ((after_worker d).2.2.2.1 p) h
  exchange h n := by
    obtain ⟨m, h1, h2, b, h3⟩ := h n
    refine ⟨m, h1, h2, ?_⟩
    unfold oneCall at h3 ⊢
    split at h3
    · cases h3
    · split at h3
      · cases h3
      · rename_i a b; simp [a, b]

example : ∃ m, 7 ≤ m ∧ [(0, 7)] <+: delivered (after policy m).trace :=
  have h : claimed (after policy 7).trace = [(0, 7)] := by
    simp [after, oneCall, State.step, State.init, State.produce, State.go, State.say, upd, cell, claimed]
  h ▸ C78_delivers_partial (Nat.le_refl 1) after_fair 7

end Blackhole.Ring
