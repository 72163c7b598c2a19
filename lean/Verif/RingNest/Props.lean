import Verif.RingNest.Model
import Verif.Ring.Props

/-!
# C108: functions of attributes that log to, or throw in, the asynchronous sink that takes their record
-/

namespace Blackhole.RingNest

open Async (Policy)
open Ring (upd claimed delivered Inv PPc CPc Ev cell_eq)

variable {E : Type} {policy : Policy} {s t : State E} {k cap : Nat} {cs : List (Cmd E)}

/-! ## Specification -/

/-- Call `p` has a place, the `n`-th, and is running the functions of its record `e`. -/
def State.inFunction (s : State E) (p : Nat) (e : E) (n : Nat) : Prop := s.ring.producers p = .claimed e n

/-- The call goes on and has no place. -/
def Waits (x : PPc E) : Prop :=
  match x with
  | .start _ | .loaded _ _ | .seen _ _ _ | .behind _ _ | .full _ => True
  | _ => False

/-- Steps of call `q` and of the worker. -/
def only (q : Nat) : Cmd E → Prop
  | .plain (.producer p _) => p = q
  | .plain (.consumer _) => True
  | _ => False

/-! ## The queue is that of C78 -/

theorem ring_step {c : Cmd E} (h : s.step cap policy c = some t) : ∃ d, s.ring.step cap policy d = some t.ring := by
  have hl : ∀ (s : State E) (q : Nat), (s.leave q).ring = s.ring := by
    intro s q
    unfold State.leave
    split <;> rfl
  cases c with
  | plain c =>
    simp only [State.step] at h
    split at h
    · obtain ⟨r, h1, rfl⟩ := Option.map_eq_some_iff.1 h
      exact ⟨c, h1⟩
    · split at h
      · cases h
      · obtain ⟨r, h1, rfl⟩ := Option.map_eq_some_iff.1 h
        exact ⟨c, by rw [hl]; exact h1⟩
  | nest p q e =>
    simp only [State.step] at h
    split at h
    · obtain ⟨r, h1, rfl⟩ := Option.map_eq_some_iff.1 h
      exact ⟨_, h1⟩
    · cases h

theorem run_append (cs ds : List (Cmd E)) : s.run cap policy (cs ++ ds) = (s.run cap policy cs).bind (·.run cap policy ds) := by
  induction cs generalizing s with
  | nil => rfl
  | cons c cs ih =>
    simp only [List.cons_append, State.run]
    cases s.step cap policy c with
    | none => rfl
    | some b => exact ih

theorem run_invariant {P : State E → Prop} (hs : ∀ s t c, P s → s.step cap policy c = some t → P t)
    (h : s.run cap policy cs = some t) (hp : P s) : P t := by
  induction cs generalizing s with
  | nil => cases h; exact hp
  | cons c cs ih =>
    simp only [State.run] at h
    cases hc : s.step cap policy c with
    | none => rw [hc] at h; cases h
    | some b => rw [hc] at h; exact ih h (hs _ _ _ hp hc)

/-- **C108, the queue.** Whatever functions of attributes log, to any depth, and whether they throw, the queue does only what it
does without nested calls: everything of C78 that is said about all schedules holds. -/
theorem C108_queue (h : (State.init : State E).run cap policy cs = some s) :
    ∃ ds, (Ring.State.init : Ring.State E).run cap policy ds = some s.ring := by
  refine run_invariant (P := fun s : State E => ∃ ds, (Ring.State.init : Ring.State E).run cap policy ds = some s.ring) ?_ h
    ⟨[], rfl⟩
  rintro s t c ⟨ds, h1⟩ h2
  obtain ⟨d, h3⟩ := ring_step h2
  exact ⟨ds ++ [d], by rw [Ring.run_append, h1]; simp [Ring.State.run, h3]⟩

theorem inv (hk : 1 ≤ k) (h : (State.init : State E).run (2 ^ k) policy cs = some s) : Inv (2 ^ k) s.ring := by
  obtain ⟨ds, h1⟩ := C108_queue h
  exact Ring.inv_run hk Ring.inv_init h1

theorem inv_next (hk : 1 ≤ k) (hi : Inv (2 ^ k) s.ring) {c : Cmd E} (h : s.step (2 ^ k) policy c = some t) :
    Inv (2 ^ k) t.ring := by
  obtain ⟨d, h1⟩ := ring_step h
  exact Ring.inv_step hk hi h1

/-- **C108, delivery.** The wrapped sink gets the records that have a place, in the order of their places, each once. A record that
a function logs has a later place than the record that the function belongs to. -/
theorem C108_delivery (hk : 1 ≤ k) (h : (State.init : State E).run (2 ^ k) policy cs = some s) :
    delivered s.ring.trace <+: claimed s.ring.trace
    ∧ ∀ p q x s1, s.step (2 ^ k) policy (.nest p q x) = some s1 →
        ∃ e n, s.inFunction p e n ∧ (claimed s.ring.trace)[n]? = some (p, e) := by
  obtain ⟨ds, h1⟩ := C108_queue h
  refine ⟨(Ring.C78_delivered hk h1).1, ?_⟩
  intro p q x s1 hn
  simp only [State.step] at hn
  split at hn
  · next e n hp _ =>
    refine ⟨e, n, hp, ?_⟩
    rw [(Ring.told_run hk Ring.inv_init ⟨rfl, rfl⟩ h1).claimed]
    exact (Ring.place_good (inv hk h) (by rw [hp]; rfl)).2.2.1
  · cases hn

/-- **C108, room.** While a call runs the functions of its record, which has the `n`-th place, nothing from this place on is
delivered, and with a queue of `2 ^ k` places at most the next `2 ^ k - 1` records get one, whoever logs them. -/
theorem C108_room (hk : 1 ≤ k) (h : (State.init : State E).run (2 ^ k) policy cs = some s) {p n : Nat} {e : E}
    (hp : s.inFunction p e n) :
    (delivered s.ring.trace).length ≤ n ∧ (claimed s.ring.trace).length ≤ n + 2 ^ k := by
  have hi := inv hk h
  obtain ⟨ds, h1⟩ := C108_queue h
  have ht := Ring.told_run hk Ring.inv_init ⟨rfl, rfl⟩ h1
  have hg := Ring.place_good (q := n) (e := e) hi (by rw [hp]; rfl)
  have hh := Ring.head_le hi hg.1 hg.2.2.2
  constructor
  · have := congrArg List.length ht.delivered
    rw [List.length_append, List.length_take] at this
    omega
  · rw [ht.claimed, hi.count]
    have := hi.high
    omega

/-- **C108 fails: exceptions.** If a function throws while its record is put into the queue, as the `n`-th, then not more than the
`n` records before it are ever delivered, whatever happens later and however many calls return; and the destructor of the sink never
returns, unless the worker had just found the queue empty. -/
theorem C108_fails_exception (hk : 1 ≤ k) (h : (State.init : State E).run (2 ^ k) policy cs = some s) {p n : Nat} {e : E}
    (hp : s.inFunction p e n) {s1 : State E} (ht : s.step (2 ^ k) policy (.plain (.throws p)) = some s1) :
    ∀ ds t, s1.run (2 ^ k) policy ds = some t →
      (delivered t.ring.trace).length ≤ n
      ∧ ((∀ o, s.ring.consumer = .got o → o ≠ none) → s.ring.consumer ≠ .exited → Ev.destroyed ∉ t.ring.trace) := by
  intro ds t hr
  obtain ⟨cs', h1⟩ := C108_queue h
  have hstep : s.ring.step (2 ^ k) policy (.throws p) = some s1.ring := by
    simp only [State.step, mover] at ht
    split at ht
    · cases ht
    · obtain ⟨r, h2, rfl⟩ := Option.map_eq_some_iff.1 ht
      rw [h2]
      congr 1
      unfold State.leave
      split <;> rfl
  have hrun : ∃ ds', s1.ring.run (2 ^ k) policy ds' = some t.ring := by
    refine run_invariant (P := fun t : State E => ∃ ds, s1.ring.run (2 ^ k) policy ds = some t.ring) ?_ hr ⟨[], rfl⟩
    rintro a b c ⟨ds, h1⟩ h2
    obtain ⟨d, h3⟩ := ring_step h2
    exact ⟨ds ++ [d], by rw [Ring.run_append, h1]; simp [Ring.State.run, h3]⟩
  obtain ⟨ds', hrun⟩ := hrun
  have hi := inv hk h
  have hpl : (s.ring.producers p).place = some (e, n) := by rw [hp]; rfl
  have hst : s1.ring = (s.ring.go p .idle).say (.threw p e) := by
    have h2 := hstep
    simp only [Ring.State.step, Ring.State.fail] at h2
    rw [hp] at h2
    exact (Option.some.inj h2).symm
  have hi1 := Ring.inv_step hk hi hstep
  have hlost := Ring.lost_fail hi hpl (.threw p e)
  rw [← hst] at hlost
  obtain ⟨hl, hu⟩ := Ring.lost_run hk hi1 hlost hrun
  have htold := Ring.told_run hk Ring.inv_init ⟨rfl, rfl⟩ h1
  have htold1 := Ring.told_step hk hi htold hstep
  constructor
  · have := congrArg List.length (Ring.told_run hk hi1 htold1 hrun).delivered
    rw [List.length_append, List.length_take] at this
    have := hl.low
    omega
  · intro h2 h3 hm
    obtain ⟨e', n', -, -, h4⟩ := Ring.C78_fails_exception hk h1 hstep
    exact (h4 ds' _ hrun).2 h2 h3 hm

/-! ## Waiting for ever -/

/-- Without room, a call that has no place gets none. -/
theorem produce_waits (hk : 1 ≤ k) {r r' : Ring.State E} (hi : Inv (2 ^ k) r) (hfull : r.base + 2 ^ k ≤ r.tail) {q : Nat} {b : Bool}
    (hq : Waits (r.producers q)) (h : r.produce (2 ^ k) .wait q b = some r') :
    ∃ x, r' = r.go q x ∧ Waits x := by
  unfold Ring.State.produce at h
  have hg := hi.prod q
  cases hx : r.producers q with
  | idle => rw [hx] at hq; cases hq
  | claimed e pos => rw [hx] at hq; cases hq
  | writing e pos => rw [hx] at hq; cases hq
  | written e pos => rw [hx] at hq; cases hq
  | start e => rw [hx] at h; cases h; exact ⟨_, rfl, trivial⟩
  | loaded e pos => rw [hx] at h; cases h; exact ⟨_, rfl, trivial⟩
  | seen e pos n =>
    rw [hx] at h hg
    simp only at h
    split at h
    · next hn =>
      split at h
      · next ht =>
        have h2 : 2 ≤ 2 ^ k := by
          have := Nat.pow_le_pow_right (n := 2) (by omega) hk
          omega
        have := Ring.room h2 hi (by rw [ht.1]; exact hg.2 hn ht.1)
        omega
      · cases h; exact ⟨_, rfl, trivial⟩
    · split at h
      · cases h; exact ⟨_, rfl, trivial⟩
      · cases h; exact ⟨_, rfl, trivial⟩
  | behind e pos =>
    rw [hx] at h
    cases h
    refine ⟨_, rfl, ?_⟩
    split <;> trivial
  | full e =>
    rw [hx] at h
    simp only [Policy.overflow] at h
    cases h
    exact ⟨_, rfl, trivial⟩

theorem calm (hk : 1 ≤ k) {r r' : Ring.State E} (hi : Inv (2 ^ k) r) {p n : Nat} {e : E} (hp : r.producers p = .claimed e n)
    (hfull : r.tail = n + 2 ^ k) {c : Ring.Cmd E} (hc : mover c ≠ some p) (h : r.step (2 ^ k) .wait c = some r') :
    r'.tail = r.tail ∧ r'.producers p = .claimed e n ∧ (∀ q, Waits (r.producers q) → Waits (r'.producers q)) := by
  have hb := (Ring.place_good (q := n) (e := e) hi (by rw [hp]; rfl)).1
  have go : ∀ (r : Ring.State E) (a : Nat) (x : PPc E), a ≠ p → r.producers p = .claimed e n →
      (Waits (r.producers a) → Waits x) → (r.go a x).producers p = .claimed e n
        ∧ ∀ q, Waits (r.producers q) → Waits ((r.go a x).producers q) := by
    intro r a x ha hp hx
    refine ⟨by simp only [Ring.State.go, Ring.upd_ne _ _ (Ne.symm ha), hp], ?_⟩
    intro q hq
    by_cases h1 : q = a
    · subst h1
      simp only [Ring.State.go, Ring.upd_same]
      exact hx hq
    · simp only [Ring.State.go, Ring.upd_ne _ _ h1]
      exact hq
  cases c with
  | emit a x =>
    simp only [Ring.State.step] at h
    split at h
    · next hidle =>
      cases h
      have ha : a ≠ p := by rintro rfl; rw [hp] at hidle; cases hidle
      exact ⟨rfl, go r a _ ha hp fun _ => trivial⟩
    · cases h
  | producer a b =>
    have ha : a ≠ p := fun h1 => hc (by simp [mover, h1])
    simp only [Ring.State.step] at h
    by_cases hw : Waits (r.producers a)
    · obtain ⟨x, rfl, hx⟩ := produce_waits hk hi (by omega) hw h
      exact ⟨rfl, go r a x ha hp fun _ => hx⟩
    · unfold Ring.State.produce at h
      cases hx : r.producers a with
      | idle => rw [hx] at h; cases h
      | claimed y pos =>
        rw [hx] at h; cases h
        exact ⟨rfl, go { r with data := _ } a _ ha hp fun h1 => absurd h1 hw⟩
      | writing y pos =>
        rw [hx] at h; cases h
        exact ⟨rfl, go { r with data := _ } a _ ha hp fun h1 => absurd h1 hw⟩
      | written y pos =>
        rw [hx] at h; cases h
        exact ⟨rfl, go { r with seq := _ } a _ ha hp fun h1 => absurd h1 hw⟩
      | start y => rw [hx] at hw; exact absurd trivial hw
      | loaded y pos => rw [hx] at hw; exact absurd trivial hw
      | seen y pos m => rw [hx] at hw; exact absurd trivial hw
      | behind y pos => rw [hx] at hw; exact absurd trivial hw
      | full y => rw [hx] at hw; exact absurd trivial hw
  | throws a =>
    have ha : a ≠ p := fun h1 => hc (by simp [mover, h1])
    simp only [Ring.State.step, Ring.State.fail] at h
    split at h
    · next hx =>
      cases h
      exact ⟨rfl, go r a _ ha hp fun h1 => by rw [hx] at h1; cases h1⟩
    · next hx =>
      cases h
      exact ⟨rfl, go r a _ ha hp fun h1 => by rw [hx] at h1; cases h1⟩
    · cases h
  | consumer b =>
    simp only [Ring.State.step, Ring.State.consume] at h
    split at h <;> (try split at h) <;> (try split at h) <;> cases h <;> exact ⟨rfl, hp, fun _ h => h⟩
  | consumerThrows =>
    simp only [Ring.State.step] at h
    split at h <;> cases h
    exact ⟨rfl, hp, fun _ h => h⟩
  | stop =>
    simp only [Ring.State.step] at h
    split at h <;> cases h
    exact ⟨rfl, hp, fun _ h => h⟩
  | join =>
    simp only [Ring.State.step] at h
    split at h <;> cases h
    exact ⟨rfl, hp, fun _ h => h⟩

/-- A call that was made by a function is the one that the function waits for. -/
def Nested (s : State E) : Prop := ∀ q p, s.outer q = some p → s.inner p = some q

theorem nested_leave {s : State E} (h : Nested s) (q : Nat) : Nested (s.leave q) := by
  unfold State.leave
  split
  · next p h1 h2 =>
    intro r p' hr
    by_cases hrq : r = q
    · subst hrq
      simp only [Ring.upd_same, reduceCtorEq] at hr
    · simp only [Ring.upd_ne _ _ hrq] at hr
      have h3 := h r p' hr
      by_cases hp : p' = p
      · subst hp
        rw [h q p' h2] at h3
        cases h3
        exact absurd rfl hrq
      · simpa only [Ring.upd_ne _ _ hp] using h3
  · exact h

theorem nested_step {c : Cmd E} (h : Nested s) (hs : s.step cap policy c = some t) : Nested t := by
  cases c with
  | plain c =>
    simp only [State.step] at hs
    split at hs
    · obtain ⟨r, h1, rfl⟩ := Option.map_eq_some_iff.1 hs
      exact h
    · split at hs
      · cases hs
      · obtain ⟨r, h1, rfl⟩ := Option.map_eq_some_iff.1 hs
        exact nested_leave (s := { s with ring := r }) h _
  | nest p q e =>
    simp only [State.step] at hs
    split at hs
    · next e' n hp hin =>
      obtain ⟨r, h1, rfl⟩ := Option.map_eq_some_iff.1 hs
      intro a b hab
      by_cases ha : a = q
      · subst ha
        simp only [Ring.upd_same, Option.some.injEq] at hab
        subst hab
        simp only [Ring.upd_same]
      · simp only [Ring.upd_ne _ _ ha] at hab
        have h3 := h a b hab
        by_cases hb : b = p
        · subst hb
          rw [hin] at h3
          cases h3
        · simpa only [Ring.upd_ne _ _ hb] using h3
    · cases hs

/-- A function of call `p` has made the call `q`, which waits for a place; all places are taken, by `p` and what came after it. -/
structure Stuck (k p : Nat) (e : E) (n q : Nat) (s : State E) : Prop where
  inv : Inv (2 ^ k) s.ring
  runs : s.ring.producers p = .claimed e n
  inner : s.inner p = some q
  nested : Nested s
  waits : Waits (s.ring.producers q)
  full : s.ring.tail = n + 2 ^ k

theorem inner_leave {s : State E} {p q r : Nat} (hn : Nested s) (hin : s.inner p = some q) (hw : Waits (s.ring.producers q)) :
    (s.leave r).inner p = some q := by
  unfold State.leave
  split
  · next p' h1 h2 =>
    have h3 := hn r p' h2
    by_cases hp : p = p'
    · subst hp
      rw [hin] at h3
      cases h3
      rw [h1] at hw
      cases hw
    · simpa only [Ring.upd_ne _ _ hp] using hin
  · exact hin

theorem stuck_step (hk : 1 ≤ k) {p n q : Nat} {e : E} {c : Cmd E} (h : Stuck k p e n q s)
    (hs : s.step (2 ^ k) .wait c = some t) : Stuck k p e n q t := by
  have hi := inv_next hk h.inv hs
  have hn := nested_step h.nested hs
  have hl : ∀ (s : State E) (q : Nat), (s.leave q).ring = s.ring := by
    intro s q
    unfold State.leave
    split <;> rfl
  cases c with
  | plain c =>
    simp only [State.step] at hs
    split at hs
    · next hm =>
      obtain ⟨r, h1, rfl⟩ := Option.map_eq_some_iff.1 hs
      obtain ⟨a1, a2, a3⟩ := calm hk h.inv h.runs h.full (by rw [hm]; simp) h1
      exact ⟨hi, a2, h.inner, hn, a3 q h.waits, a1.trans h.full⟩
    · next a hm =>
      split at hs
      · cases hs
      · next hin =>
        obtain ⟨r, h1, rfl⟩ := Option.map_eq_some_iff.1 hs
        have hap : a ≠ p := by
          rintro rfl
          rw [h.inner] at hin
          cases hin
        obtain ⟨a1, a2, a3⟩ := calm hk h.inv h.runs h.full (by rw [hm]; simpa using hap) h1
        refine ⟨hi, by rw [hl]; exact a2, ?_, hn, by rw [hl]; exact a3 q h.waits, by rw [hl]; exact a1.trans h.full⟩
        exact inner_leave (s := { s with ring := r }) h.nested h.inner (a3 q h.waits)
  | nest a b x =>
    simp only [State.step] at hs
    split at hs
    · next e' n' hp hin =>
      obtain ⟨r, h1, rfl⟩ := Option.map_eq_some_iff.1 hs
      obtain ⟨a1, a2, a3⟩ := calm hk h.inv h.runs h.full (by simp [mover]) h1
      refine ⟨hi, a2, ?_, hn, a3 q h.waits, a1.trans h.full⟩
      have hap : p ≠ a := by
        rintro rfl
        rw [h.inner] at hin
        cases hin
      simp only [Ring.upd_ne _ _ hap]
      exact h.inner
    · cases hs

theorem nested_run (h : (State.init : State E).run cap policy cs = some s) : Nested s :=
  run_invariant (P := Nested) (fun _ _ _ h1 h2 => nested_step h1 h2) h (fun q p h => by cases h)

/-- **C108 fails: waiting.** With the policy that waits, if a function of call `p` logs to the sink when `p` and the records after it
have all places, then this goes on for ever: the function does not come back, no record gets a place any more, and nothing from that of
`p` on is ever delivered. -/
theorem C108_fails_waiting (hk : 1 ≤ k) (h : (State.init : State E).run (2 ^ k) .wait cs = some s) {p q n : Nat} {e x : E}
    (hp : s.inFunction p e n) (hfull : (claimed s.ring.trace).length = n + 2 ^ k) {s1 : State E}
    (hn : s.step (2 ^ k) .wait (.nest p q x) = some s1) :
    ∀ ds t, s1.run (2 ^ k) .wait ds = some t →
      t.inFunction p e n ∧ Waits (t.ring.producers q)
      ∧ (claimed t.ring.trace).length = n + 2 ^ k ∧ (delivered t.ring.trace).length ≤ n := by
  intro ds t hr
  have hi := inv hk h
  obtain ⟨cs', hc'⟩ := C108_queue h
  have htail : s.ring.tail = n + 2 ^ k := by
    rw [← hi.count, ← (Ring.told_run hk Ring.inv_init ⟨rfl, rfl⟩ hc').claimed, hfull]
  have h1 : Stuck k p e n q s1 := by
    have hi1 := inv_next hk hi hn
    have hne := nested_step (nested_run h) hn
    simp only [State.step] at hn
    split at hn
    · obtain ⟨r, h2, rfl⟩ := Option.map_eq_some_iff.1 hn
      obtain ⟨a1, a2, -⟩ := calm hk hi hp htail (by simp [mover]) h2
      refine ⟨hi1, a2, by simp only [Ring.upd_same], hne, ?_, a1.trans htail⟩
      simp only [Ring.State.step] at h2
      split at h2
      · cases h2
        simp only [Ring.State.say, Ring.State.go, Ring.upd_same]
        trivial
      · cases h2
    · cases hn
  have h2 := run_invariant (P := Stuck k p e n q) (fun _ _ _ a b => stuck_step hk a b) hr h1
  have hall : (State.init : State E).run (2 ^ k) .wait (cs ++ .nest p q x :: ds) = some t := by
    rw [run_append, h]
    simp only [Option.bind_some, State.run, hn]
    exact hr
  obtain ⟨ds', hd'⟩ := C108_queue hall
  refine ⟨h2.runs, h2.waits, ?_, (C108_room hk hall h2.runs).1⟩
  rw [(Ring.told_run hk Ring.inv_init ⟨rfl, rfl⟩ hd').claimed, h2.inv.count, h2.full]

end Blackhole.RingNest
