import Verif.RingWeak.Steps
import Verif.Ring.Props

/-! # C109: the queue of the asynchronous sink on weak memory -/

namespace Blackhole.RingWeak

open Ring (cell upd upd_same upd_ne cell_eq Ev claimed delivered)

variable {E : Type} {k : Nat} {policy : Async.Policy} {cs : List (Cmd E)} {s : State E}

/-- **C109.** There is no data race on the contents of the cells: of two accesses, one happens before the other. -/
theorem C109_race_free (hk : 1 ≤ k) (hs : (State.init : State E).run (2 ^ k) policy cs = some s) : ¬Races s.events := by
  have o := ord_run hk safe_init ord_init hs
  rintro ⟨i, j, t, u, c, hi, hj, hne, h1, h2⟩
  rcases Nat.lt_or_gt_of_ne hne with hlt | hlt
  · exact h1 (o.ord i j t u c hlt hi hj)
  · exact h2 (o.ord j i u t c hlt hj hi)

/-- The values that are stored to the sequence number of a cell grow, and none is stored twice. -/
theorem C109_once (hk : 1 ≤ k) (hs : (State.init : State E).run (2 ^ k) policy cs = some s) {i j c v w : Nat} {t u : Thread}
    (hij : i < j) (hi : s.events[i]? = some (⟨t, .store c v⟩ : Event)) (hj : s.events[j]? = some (⟨u, .store c w⟩ : Event)) :
    v < w :=
  (ord_run hk safe_init ord_init hs).once i j t u c v w hij hi hj

/-- **C109.** However old the values are that loads return: the wrapped sink receives the records that got a place, in that order,
each once, and the worker never reads a cell that holds no complete record. -/
theorem C109_delivered (hk : 1 ≤ k) (hs : (State.init : State E).run (2 ^ k) policy cs = some s) :
    delivered s.ring.trace <+: claimed s.ring.trace
      ∧ (claimed s.ring.trace).length ≤ (delivered s.ring.trace).length + 2 ^ k + 1 ∧ s.ring.consumer ≠ .corrupt :=
  have h := safe_run hk safe_init hs
  Ring.delivered_of h.inv h.told

/-- No two producers write to the same cell at the same time, and none writes to the cell that the worker reads. -/
theorem C109_exclusive (hk : 1 ≤ k) (hs : (State.init : State E).run (2 ^ k) policy cs = some s) :
    (∀ p q c, s.ring.writes (2 ^ k) p = some c → s.ring.writes (2 ^ k) q = some c → p = q) ∧
      ∀ p c, s.ring.writes (2 ^ k) p = some c → s.ring.reads (2 ^ k) ≠ some c :=
  Ring.exclusive_of (safe_run hk safe_init hs).inv

/-- Each call gets one place and returns, or is discarded, or throws. -/
theorem C109_calls (hk : 1 ≤ k) (hs : (State.init : State E).run (2 ^ k) policy cs = some s) (p : Nat) :
    Ring.Calls p (s.ring.trace.filter (Ev.by p)) := by
  obtain ⟨d, h1, h2⟩ := (safe_run hk safe_init hs).calls p
  rw [h2]
  exact h1.calls (Ring.begun_calls p _)

/-! ## Records that are discarded although there is room -/

/-- A call of the only producer that gets the place `pos` at once. -/
def emits (e pos : Nat) : List (Cmd Nat) :=
  [.other (.emit 0 e), .load (.producer 0) pos, .load (.producer 0) pos, .other (.producer 0 false), .other (.producer 0 false),
    .other (.producer 0 false), .other (.producer 0 false)]

/-- The worker takes the record at `pos` and hands it on. -/
def takes (pos : Nat) : List (Cmd Nat) :=
  [.load .worker pos, .load .worker (pos + 1), .other (.consumer false), .other (.consumer false), .other (.consumer false),
    .other (.consumer false), .other (.consumer false), .other (.consumer false)]

/-- Two records, each handed on before the next one comes; then a third, whose call does not know of that yet. -/
def unaware : List (Cmd Nat) :=
  emits 1 0 ++ takes 0 ++ emits 2 1 ++ takes 1
    ++ [.other (.emit 0 3), .load (.producer 0) 2, .load (.producer 0) 1, .other (.producer 0 false), .load (.producer 0) 0,
      .other (.producer 0 false)]

/-- What the queue of `unaware` tells. -/
def told : List (Ev Nat) :=
  [.call 0 1, .claim 0 1, .returned 0 1, .deliver 0 1, .call 0 2, .claim 0 2, .returned 0 2, .deliver 0 2, .call 0 3, .discard 0 3]

theorem never_two (n : Nat) : (claimed (told.take n)).length ≤ (delivered (told.take n)).length + 1 := by
  rcases Nat.lt_or_ge n 10 with h | h
  · have : ∀ m : Fin 10, (claimed (told.take m.1)).length ≤ (delivered (told.take m.1)).length + 1 := by decide
    exact this ⟨n, h⟩
  · rw [List.take_of_length_le (by exact h)]
    decide

/-- The schedule has accesses of both threads to a cell: two of the producer, then two of the worker, with a store and a load
between them. -/
example : ((State.init : State Nat).run 2 .drop unaware).map (fun s => s.events.take 8) =
    some [⟨.producer 0, .load 0 0⟩, ⟨.producer 0, .touch 0⟩, ⟨.producer 0, .touch 0⟩, ⟨.producer 0, .store 0 1⟩,
      ⟨.worker, .load 0 1⟩, ⟨.worker, .touch 0⟩, ⟨.worker, .touch 0⟩, ⟨.worker, .store 0 2⟩] := rfl

/-- **C109 fails for full queues.** A record is discarded although the queue has room for two and has never held more than one: the
call need not see that the worker took the records before. -/
theorem C109_fails_full : ∃ s, (State.init : State Nat).run 2 .drop unaware = some s
    ∧ s.ring.trace = [.call 0 1, .claim 0 1, .returned 0 1, .deliver 0 1, .call 0 2, .claim 0 2, .returned 0 2, .deliver 0 2,
      .call 0 3, .discard 0 3]
    ∧ (∀ n, (claimed (s.ring.trace.take n)).length ≤ (delivered (s.ring.trace.take n)).length + 1)
    ∧ ¬Ring.WasFull 2 s.ring.trace.dropLast 0 3 := by
  refine ⟨_, rfl, rfl, never_two, ?_⟩
  show ¬Ring.WasFull 2 told.dropLast 0 3
  rintro ⟨a, b, c, h1, -, h2⟩
  have h3 : (a ++ .call 0 3 :: b) <+: told :=
    List.IsPrefix.trans ⟨c, by rw [h1]; simp⟩ (List.dropLast_prefix told)
  have h4 := never_two (a ++ .call 0 3 :: b).length
  rw [← List.prefix_iff_eq_take.1 h3] at h4
  omega

end Blackhole.RingWeak
