import Verif.RingNest.Props

/-! # C108: a function that logs as many records as the queue has places -/

namespace Blackhole.RingNest

open Async (Policy)
open Ring (upd claimed delivered Inv PPc CPc Ev cell_eq)

variable {E : Type} {policy : Policy} {s t : State E} {k cap : Nat} {cs : List (Cmd E)}

/-- A function of the first record runs, and has logged `m` records. -/
structure Filled (k : Nat) (e : E) (m : Nat) (s : State E) : Prop where
  inv : Inv (2 ^ k) s.ring
  runs : s.ring.producers 0 = .claimed e 0
  others : s.ring.producers 1 = .idle
  inner : s.inner 0 = none
  free : s.inner 1 = none
  outer : s.outer 1 = none
  consumer : s.ring.consumer = .loop
  head : s.ring.head = 0
  tail : s.ring.tail = m + 1

/-- The function logs one record, and the call returns. -/
def one (e : E) : List (Cmd E) := .nest 0 1 e :: List.replicate 6 (.plain (.producer 1 false))

theorem inv_run (hk : 1 ≤ k) (hi : Inv (2 ^ k) s.ring) (h : s.run (2 ^ k) policy cs = some t) : Inv (2 ^ k) t.ring :=
  run_invariant (P := fun s : State E => Inv (2 ^ k) s.ring) (fun _ _ _ a b => inv_next hk a b) h hi

theorem fill_one (hk : 1 ≤ k) {e : E} {m : Nat} (h : Filled k e m s) (hm : m + 1 < 2 ^ k) :
    ∃ t, s.run (2 ^ k) policy (one e) = some t ∧ Filled k e (m + 1) t := by
  have hf : s.ring.seq (Ring.cell (2 ^ k) (m + 1)) = m + 1 := by
    rw [cell_eq]
    refine h.inv.free _ (Nat.le_of_eq h.tail) ?_
    rw [Ring.State.base, h.consumer, h.head]
    omega
  have : ∃ t, s.run (2 ^ k) policy (one e) = some t ∧ t.ring.producers 0 = .claimed e 0 ∧ t.ring.producers 1 = .idle
      ∧ t.inner 0 = none ∧ t.inner 1 = none ∧ t.outer 1 = none ∧ t.ring.consumer = .loop ∧ t.ring.head = 0 ∧ t.ring.tail = m + 1 + 1 := by
    simp [one, List.replicate, State.run, State.step, mover, State.leave, Ring.State.step, Ring.State.produce, Ring.State.go,
      Ring.State.say, upd, h.runs, h.others, h.inner, h.free, h.consumer, h.head, h.tail, hf]
  obtain ⟨t, h1, h2, h3, h4, h5, h6, h7, h8, h9⟩ := this
  exact ⟨t, h1, inv_run hk h.inv h1, h2, h3, h4, h5, h6, h7, h8, h9⟩

theorem fill (hk : 1 ≤ k) {e : E} (j : Nat) {m : Nat} (h : Filled k e m s) (hm : m + j < 2 ^ k) :
    ∃ t, s.run (2 ^ k) policy ((List.replicate j (one e)).flatten) = some t ∧ Filled k e (m + j) t := by
  induction j generalizing s m with
  | zero => exact ⟨s, rfl, h⟩
  | succ j ih =>
    obtain ⟨u, h1, h2⟩ := fill_one (policy := policy) hk h (by omega)
    obtain ⟨t, h3, h4⟩ := ih h2 (by omega)
    refine ⟨t, ?_, by rw [show m + (j + 1) = m + 1 + j by omega]; exact h4⟩
    rw [List.replicate_succ, List.flatten_cons, run_append, h1]
    exact h3

/-- The first call, until its functions run. -/
def begin (e : E) : List (Cmd E) := .plain (.emit 0 e) :: List.replicate 3 (.plain (.producer 0 false))

/-- **C108 fails: a function that logs.** Whatever the capacity of the queue, with the policy that waits: one thread, and a
function that logs as many records as the queue has places. All calls before the last return; the last never does. -/
theorem C108_fails_nested (hk : 1 ≤ k) (e : E) :
    ∃ s, (State.init : State E).run (2 ^ k) .wait (begin e ++ (List.replicate (2 ^ k - 1) (one e)).flatten ++ [.nest 0 1 e]) = some s
      ∧ ∀ ds t, s.run (2 ^ k) .wait ds = some t →
        t.inFunction 0 e 0 ∧ Waits (t.ring.producers 1) ∧ delivered t.ring.trace = [] := by
  have hpos := Nat.two_pow_pos k
  have hc0 : Ring.cell (2 ^ k) 0 = 0 := by rw [cell_eq]; simp
  have : ∃ s0, (State.init : State E).run (2 ^ k) .wait (begin e) = some s0 ∧ s0.ring.producers 0 = .claimed e 0
      ∧ s0.ring.producers 1 = .idle ∧ s0.inner 0 = none ∧ s0.inner 1 = none ∧ s0.outer 1 = none ∧ s0.ring.consumer = .loop ∧ s0.ring.head = 0
      ∧ s0.ring.tail = 0 + 1 := by
    simp [begin, List.replicate, State.run, State.step, State.init, mover, State.leave, Ring.State.step, Ring.State.produce,
      Ring.State.go, Ring.State.say, Ring.State.init, upd, hc0]
  obtain ⟨s0, h0, a1, a2, a3, a4, a5, a6, a7, a8⟩ := this
  obtain ⟨s1, h1, h2⟩ := fill (policy := .wait) hk (2 ^ k - 1) (e := e) (m := 0) (s := s0)
    ⟨inv hk h0, a1, a2, a3, a4, a5, a6, a7, a8⟩ (by omega)
  have hall : (State.init : State E).run (2 ^ k) .wait (begin e ++ (List.replicate (2 ^ k - 1) (one e)).flatten) = some s1 := by
    rw [run_append, h0]
    exact h1
  have hst : ∃ s2, s1.step (2 ^ k) .wait (.nest 0 1 e) = some s2 := by
    simp [State.step, Ring.State.step, h2.runs, h2.inner, h2.others]
  obtain ⟨s2, hst⟩ := hst
  have hfull : (claimed s1.ring.trace).length = 0 + 2 ^ k := by
    obtain ⟨ds, hd⟩ := C108_queue hall
    rw [(Ring.told_run hk Ring.inv_init ⟨rfl, rfl⟩ hd).claimed, h2.inv.count, h2.tail]
    omega
  refine ⟨s2, by rw [run_append, hall]; simp [State.run, hst], ?_⟩
  intro ds t hr
  obtain ⟨b1, b2, -, b4⟩ := C108_fails_waiting hk hall h2.runs hfull hst ds t hr
  exact ⟨b1, b2, List.length_eq_zero_iff.1 (Nat.le_zero.1 b4)⟩

/-! ## Nested calls that return -/

/-- The worker is not in the middle of taking a record. -/
def Between (r : Ring.State E) : Prop := r.base = r.head

theorem consumer_step {b : Bool} {r : Ring.State E} (h : s.ring.consume cap b = some r) :
    s.step cap policy (.plain (.consumer b)) = some { s with ring := r } := by
  simp [State.step, mover, Ring.State.step, h]

/-- The worker gives back the cell that it has. -/
theorem to_between (hk : 1 ≤ k) (hi : Inv (2 ^ k) s.ring) :
    ∃ ds t, (∀ c ∈ ds, c = Cmd.plain (.consumer false)) ∧ s.run (2 ^ k) policy ds = some t ∧ Between t.ring
      ∧ t.ring.tail = s.ring.tail ∧ t.ring.head = s.ring.head ∧ t.ring.producers = s.ring.producers ∧ t.inner = s.inner
      ∧ t.outer = s.outer := by
  have hg := hi.cons
  cases hc : s.ring.consumer with
  | taken pos =>
    rw [hc] at hg
    obtain ⟨g1, g2, g3⟩ := hg
    have hx : ∃ x, s.ring.data (pos % 2 ^ k) = some x := by
      rw [g3]
      have := hi.low
      have := hi.count
      exact ⟨s.ring.claims[pos], by simp [show pos < s.ring.claims.length by omega]⟩
    obtain ⟨x, hx⟩ := hx
    rw [← cell_eq] at hx
    refine ⟨List.replicate 3 (.plain (.consumer false)), ?_⟩
    simp [List.replicate, State.run, State.step, mover, Ring.State.step, Ring.State.consume, hc, hx, Between, Ring.State.base]
  | reading pos =>
    rw [hc] at hg
    obtain ⟨g1, g2, g3⟩ := hg
    have hx : ∃ x, s.ring.data (pos % 2 ^ k) = some x := by
      rw [g3]
      have := hi.low
      have := hi.count
      exact ⟨s.ring.claims[pos], by simp [show pos < s.ring.claims.length by omega]⟩
    obtain ⟨x, hx⟩ := hx
    rw [← cell_eq] at hx
    refine ⟨List.replicate 2 (.plain (.consumer false)), ?_⟩
    simp [List.replicate, State.run, State.step, mover, Ring.State.step, Ring.State.consume, hc, hx, Between, Ring.State.base]
  | copied pos x =>
    refine ⟨List.replicate 1 (.plain (.consumer false)), ?_⟩
    simp [List.replicate, State.run, State.step, mover, Ring.State.step, Ring.State.consume, hc, Between, Ring.State.base]
  | _ =>
    refine ⟨[], s, by simp, rfl, ?_, rfl, rfl, rfl, rfl, rfl⟩
    simp [Between, Ring.State.base, hc]

/-- Call `q` can return by steps of its own and of the worker. -/
def Returns (k : Nat) (policy : Policy) (q : Nat) (s : State E) : Prop :=
  ∃ ds t, (∀ c ∈ ds, only q c) ∧ s.run (2 ^ k) policy ds = some t ∧ t.ring.producers q = .idle

/-- The same for every state with this queue. -/
def R (k : Nat) (policy : Policy) (q : Nat) (r : Ring.State E) : Prop :=
  ∀ s : State E, s.ring = r → s.inner q = none → Returns k policy q s

theorem R.idle {q : Nat} {r : Ring.State E} (h : r.producers q = .idle) : R k policy q r :=
  fun s hs _ => ⟨[], s, by simp, rfl, by rw [hs, h]⟩

theorem R.next {q : Nat} {r r' : Ring.State E} (h : r.produce (2 ^ k) policy q false = some r') (h' : R k policy q r') :
    R k policy q r := by
  rintro s rfl hq
  have hm : s.step (2 ^ k) policy (.plain (.producer q false)) = some (State.leave { s with ring := r' } q) := by
    simp [State.step, mover, hq, Ring.State.step, h]
  have h1 : (State.leave { s with ring := r' } q).ring = r' := by
    unfold State.leave
    split <;> rfl
  have h2 : (State.leave { s with ring := r' } q).inner q = none := by
    unfold State.leave
    split
    · simp only [upd]
      split
      · rfl
      · exact hq
    · exact hq
  obtain ⟨ds, t, a1, a2, a3⟩ := h' _ h1 h2
  refine ⟨.plain (.producer q false) :: ds, t, ?_, by simp only [State.run, hm]; exact a2, a3⟩
  intro c hc
  rcases List.mem_cons.1 hc with rfl | hc
  · rfl
  · exact a1 c hc

theorem r_placed {q n : Nat} {e : E} {r : Ring.State E} (h : (r.producers q).place = some (e, n)) : R k policy q r := by
  have written : ∀ (r : Ring.State E) e n, r.producers q = .written e n → R k policy q r := by
    intro r e n h
    refine .next (by simp only [Ring.State.produce, h]; rfl) (.idle ?_)
    simp [Ring.State.go, Ring.State.say, upd]
  have writing : ∀ (r : Ring.State E) e n, r.producers q = .writing e n → R k policy q r := by
    intro r e n h
    refine .next (by simp only [Ring.State.produce, h]; rfl) (written _ e n ?_)
    simp [Ring.State.go, upd]
  cases hx : r.producers q with
  | claimed e' n' =>
    refine .next (by simp only [Ring.State.produce, hx]; rfl) (writing _ e' n' ?_)
    simp [Ring.State.go, upd]
  | writing e' n' => exact writing _ _ _ hx
  | written e' n' => exact written _ _ _ hx
  | _ => rw [hx] at h; cases h

/-- There is room, or the record may be discarded. -/
def Ready (k : Nat) (policy : Policy) (r : Ring.State E) : Prop :=
  r.seq (Ring.cell (2 ^ k) r.tail) = r.tail
    ∨ policy = .drop ∧ r.seq (Ring.cell (2 ^ k) r.tail) < r.tail ∧ r.tail = r.head + 2 ^ k

theorem r_drop {q : Nat} {e : E} {r : Ring.State E} (h : r.producers q = .full e) : R k .drop q r := by
  refine .next (r' := (r.go q .idle).say (.discard q e)) (by simp [Ring.State.produce, h, Policy.overflow]) (.idle ?_)
  simp [Ring.State.go, Ring.State.say, upd]

theorem r_fresh {q : Nat} {e : E} {r : Ring.State E} (hr : Ready k policy r) (h : r.producers q = .loaded e r.tail) :
    R k policy q r := by
  have at_ : ∀ (r : Ring.State E) x, (r.go q x).producers q = x := by
    intro r x
    simp [Ring.State.go, upd]
  refine .next (r' := r.go q (.seen e r.tail (r.seq (Ring.cell (2 ^ k) r.tail)))) (by simp [Ring.State.produce, h]) ?_
  rcases hr with h1 | ⟨rfl, h1, h2⟩
  · rw [h1]
    refine .next (r' := ({ r.go q (.seen e r.tail r.tail) with tail := r.tail + 1, claims := r.claims ++ [(q, e)] }.go q
      (.claimed e r.tail)).say (.claim q e)) ?_ (r_placed (e := e) (n := r.tail) ?_)
    · simp [Ring.State.produce, Ring.State.go, upd]
    · simp [Ring.State.go, Ring.State.say, upd, PPc.place]
  · refine .next (r' := (r.go q (.seen e r.tail (r.seq (Ring.cell (2 ^ k) r.tail)))).go q (.behind e r.tail)) ?_ ?_
    · simp only [Ring.State.produce, at_]
      rw [if_neg (by omega), if_pos h1]
    · refine .next (r' := ((r.go q (.seen e r.tail (r.seq (Ring.cell (2 ^ k) r.tail)))).go q (.behind e r.tail)).go q (.full e)) ?_
        (r_drop (e := e) (at_ _ _))
      simp only [Ring.State.produce, at_]
      rw [if_pos (by exact h2)]

theorem r_start {q : Nat} {e : E} {r : Ring.State E} (hr : Ready k policy r) (h : r.producers q = .start e) : R k policy q r := by
  refine .next (r' := r.go q (.loaded e r.tail)) (by simp [Ring.State.produce, h]) (r_fresh (e := e) hr ?_)
  simp [Ring.State.go, upd]

theorem r_full {q : Nat} {e : E} {r : Ring.State E} (hr : Ready k policy r) (h : r.producers q = .full e) : R k policy q r := by
  cases policy with
  | drop => exact r_drop h
  | wait =>
    refine .next (r' := r.go q (.start e)) (by simp [Ring.State.produce, h, Policy.overflow]) (r_start (e := e) hr ?_)
    simp [Ring.State.go, upd]

theorem r_behind {q pos : Nat} {e : E} {r : Ring.State E} (hr : Ready k policy r) (h : r.producers q = .behind e pos) :
    R k policy q r := by
  by_cases hp : pos = r.head + 2 ^ k
  · refine .next (r' := r.go q (.full e)) (by simp [Ring.State.produce, h, hp]) (r_full (e := e) hr ?_)
    simp [Ring.State.go, upd]
  · refine .next (r' := r.go q (.start e)) (by simp [Ring.State.produce, h, hp]) (r_start (e := e) hr ?_)
    simp [Ring.State.go, upd]

theorem r_seen {q pos n : Nat} {e : E} {r : Ring.State E} (hr : Ready k policy r) (h : r.producers q = .seen e pos n) :
    R k policy q r := by
  by_cases h1 : n = pos
  · by_cases h2 : r.tail = pos
    · refine .next (r' := ({ r with tail := pos + 1, claims := r.claims ++ [(q, e)] }.go q (.claimed e pos)).say (.claim q e))
        (by simp [Ring.State.produce, h, h1, h2]) (r_placed (e := e) (n := pos) ?_)
      simp [Ring.State.go, Ring.State.say, upd, PPc.place]
    · refine .next (r' := r.go q (.loaded e r.tail)) (by simp [Ring.State.produce, h, h1, h2]) (r_fresh (e := e) hr ?_)
      simp [Ring.State.go, upd]
  · by_cases h2 : n < pos
    · refine .next (r' := r.go q (.behind e pos)) (by simp [Ring.State.produce, h, h1, h2]) (r_behind (e := e) (pos := pos) hr ?_)
      simp [Ring.State.go, upd]
    · refine .next (r' := r.go q (.start e)) (by simp [Ring.State.produce, h, h1, h2]) (r_start (e := e) hr ?_)
      simp [Ring.State.go, upd]

theorem r_any {q : Nat} {r : Ring.State E} (hr : Ready k policy r) : R k policy q r := by
  cases h : r.producers q with
  | idle => exact .idle h
  | start e => exact r_start hr h
  | loaded e pos =>
    refine .next (r' := r.go q (.seen e pos (r.seq (Ring.cell (2 ^ k) pos)))) (by simp [Ring.State.produce, h])
      (r_seen (e := e) (pos := pos) (n := r.seq (Ring.cell (2 ^ k) pos)) hr ?_)
    simp [Ring.State.go, upd]
  | seen e pos n => exact r_seen hr h
  | behind e pos => exact r_behind hr h
  | full e => exact r_full hr h
  | claimed e n => exact r_placed (e := e) (n := n) (by rw [h]; rfl)
  | writing e n => exact r_placed (e := e) (n := n) (by rw [h]; rfl)
  | written e n => exact r_placed (e := e) (n := n) (by rw [h]; rfl)

/-- **C108, nested calls return.** A call that waits for no nested call can return, made by a function or not, by steps of its own and
of the worker: always with the policy that drops; with the one that waits if fewer records have a place and are not delivered than the
queue has places. It needs no step of the calls that it is nested in. -/
theorem C108_returns_partial (hk : 1 ≤ k) (h : (State.init : State E).run (2 ^ k) policy cs = some s) {q : Nat}
    (hq : s.inner q = none)
    (hroom : policy = .drop ∨ (claimed s.ring.trace).length < (delivered s.ring.trace).length + 2 ^ k) :
    Returns k policy q s := by
  have hi := inv hk h
  obtain ⟨ds, t, h1, h2, h3, h4, h5, h6, h7, -⟩ := to_between (policy := policy) hk hi
  have hit := inv_run hk hi h2
  obtain ⟨cs', hc'⟩ := C108_queue h
  have htold := Ring.told_run hk Ring.inv_init ⟨rfl, rfl⟩ hc'
  have hready : Ready k policy t.ring := by
    by_cases hlt : t.ring.tail < t.ring.head + 2 ^ k
    · refine .inl ?_
      rw [cell_eq]
      exact hit.free _ (Nat.le_refl _) (by rw [h3]; exact hlt)
    · have hhigh := hit.high
      rw [h3] at hhigh
      rcases hroom with rfl | hroom
      · refine .inr ⟨rfl, ?_, by omega⟩
        have h2k : 2 ≤ 2 ^ k := by
          have := Nat.pow_le_pow_right (n := 2) (by omega) hk
          omega
        have he : t.ring.tail = t.ring.base + 2 ^ k := by rw [h3]; omega
        rw [cell_eq, he, Nat.add_mod_right]
        rcases Ring.base_cell hit (by omega) with hb | hb <;> rw [hb] <;> omega
      · exfalso
        have hd := congrArg List.length htold.delivered
        rw [List.length_append, List.length_take] at hd
        rw [htold.claimed, hi.count] at hroom
        omega
  obtain ⟨es, u, b1, b2, b3⟩ := r_any (q := q) hready t rfl (by rw [h7]; exact hq)
  refine ⟨ds ++ es, u, ?_, by rw [run_append, h2]; exact b2, b3⟩
  intro c hc
  rcases List.mem_append.1 hc with hc | hc
  · rw [h1 c hc]; trivial
  · exact b1 c hc

/-! ## Examples -/

/-- The function of `a` logs `b`, whose function logs `c`; then all is delivered, in this order. -/
def two : List (Cmd String) :=
  .plain (.emit 0 "a") :: List.replicate 3 (.plain (.producer 0 false)) ++ [.nest 0 1 "b"]
    ++ List.replicate 3 (.plain (.producer 1 false)) ++ [.nest 1 2 "c"] ++ List.replicate 6 (.plain (.producer 2 false))
    ++ List.replicate 3 (.plain (.producer 1 false)) ++ List.replicate 3 (.plain (.producer 0 false))
    ++ List.replicate 24 (.plain (.consumer false))

example : ((State.init : State String).run (2 ^ 2) .wait two).map (fun s => s.ring.trace) =
    some [.call 0 "a", .claim 0 "a", .call 1 "b", .claim 1 "b", .call 2 "c", .claim 2 "c", .returned 2 "c", .returned 1 "b",
      .returned 0 "a", .deliver 0 "a", .deliver 1 "b", .deliver 2 "c"] := by rfl

/-- The call that a function was called by cannot go on before the nested one. -/
example : ((State.init : State String).run (2 ^ 2) .wait (begin "a" ++ [.nest 0 1 "b", .plain (.producer 0 false)])).isNone := by
  rfl

/-- The function throws: `b`, though its call returns, is not delivered, however often the worker looks. -/
example : ((State.init : State String).run (2 ^ 1) .wait (begin "a" ++ [.plain (.throws 0), .plain (.emit 1 "b")]
    ++ List.replicate 6 (.plain (.producer 1 false)) ++ List.replicate 40 (.plain (.consumer false)))).map
      (fun s => s.ring.trace) =
    some [.call 0 "a", .claim 0 "a", .threw 0 "a", .call 1 "b", .claim 1 "b", .returned 1 "b"] := by rfl

/-- The hypotheses of `C108_fails_exception` and `C108_room` are met. -/
example : ∃ s, (State.init : State String).run (2 ^ 1) .wait (begin "a") = some s ∧ s.inFunction 0 "a" 0
    ∧ (s.step (2 ^ 1) .wait (.plain (.throws 0))).isSome ∧ s.ring.consumer = .loop := ⟨_, rfl, rfl, rfl, rfl⟩

/-- A nested call with room: the hypotheses of `C108_returns_partial`. -/
example : ∃ s, (State.init : State String).run (2 ^ 1) .wait (begin "a" ++ [.nest 0 1 "b"]) = some s ∧ s.inner 1 = none
    ∧ s.inner 0 = some 1 ∧ (claimed s.ring.trace).length < (delivered s.ring.trace).length + 2 ^ 1 :=
  ⟨_, rfl, rfl, rfl, by decide⟩

end Blackhole.RingNest
