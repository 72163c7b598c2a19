import Verif.AsyncMem.Lemmas
import Verif.Ring.Props

/-!
# C79: what the wrapped sink reads behind an asynchronous sink is what the calls were given

The statements are about every schedule of calls, producers, the worker, failures and changes of the callers' storage, for
every capacity that the constructor accepts and both overflow policies.
-/

namespace Blackhole.AsyncMem

open RecordBuf (FRec FSV readF Mem)
open Async (Policy)

variable {lib : RecordBuf.Lib} {k : Nat} {policy : Policy} {cs : List Cmd}

/-- No schedule leads to undefined behaviour: no string or record is read that no longer exists, no buffer is destroyed that
does not exist, and no assertion of a buffer fails. -/
theorem C79_defined (hk : 1 ≤ k) {r : Except UB State} (hs : (State.init lib (2 ^ k)).run (2 ^ k) policy cs = some r) :
    ∃ s, r = .ok s := by
  obtain ⟨σ, hg⟩ := good_init lib (2 ^ k)
  obtain ⟨s, _, h, -⟩ := good_run hk hg Ring.inv_init hs
  exact ⟨s, h⟩

/-- What the wrapped sink has read so far, record by record, is what the first calls that got a place were given, in the order
of the places: all fields and attributes as they were when the call was made, the lazy ones as printed in it, and the
message. Only the last one and as many as there are cells may be missing. -/
theorem C79_seen (hk : 1 ≤ k) {s : State} (hs : (State.init lib (2 ^ k)).run (2 ^ k) policy cs = some (.ok s)) :
    s.seen <+: (Ring.claimed s.ring.trace).map (fun x => x.2.value) ∧
      (Ring.claimed s.ring.trace).length ≤ s.seen.length + 2 ^ k + 1 := by
  obtain ⟨σ, hg⟩ := good_init lib (2 ^ k)
  obtain ⟨s', _, h, hg', ds, hr⟩ := good_run hk hg Ring.inv_init hs
  cases h
  obtain ⟨h1, h2, -⟩ := Ring.C78_delivered hk hr
  rw [hg'.seen]
  exact ⟨List.IsPrefix.map _ h1, by simpa using h2⟩

/-- The queue is the one of C78, so what is proved there about calls, deliveries and the destructor holds here. -/
theorem C79_queue (hk : 1 ≤ k) {s : State} (hs : (State.init lib (2 ^ k)).run (2 ^ k) policy cs = some (.ok s)) :
    ∃ ds, (Ring.State.init : Ring.State Call).run (2 ^ k) policy ds = some s.ring ∧
      s.seen = (Ring.delivered s.ring.trace).map (fun x => x.2.value) := by
  obtain ⟨σ, hg⟩ := good_init lib (2 ^ k)
  obtain ⟨s', _, h, hg', ds, hr⟩ := good_run hk hg Ring.inv_init hs
  cases h
  exact ⟨ds, hr, hg'.seen⟩

/-- Where `value` comes from: in the trace a call carries what its views showed when it was made. -/
theorem C79_call {cap p : Nat} {s s' : State} {record : FRec} {message : FSV} {eval : Nat → Str}
    (hs : s.step cap policy (.emit p record message eval) = some (.ok s')) :
    ∃ e : Call, s'.ring.trace = s.ring.trace ++ [.call p e] ∧
      record.contents s.mem.foreign = some e.contents ∧ readF s.mem.foreign message = some e.text ∧
      e.value = (RecordBuf.owned eval e.contents, e.text) := by
  simp only [State.step] at hs
  split at hs
  · rename_i contents text h1 h2
    simp only [State.with, Option.map_eq_some_iff] at hs
    obtain ⟨ring, h3, h4⟩ := hs
    simp only [Ring.State.step] at h3
    split at h3
    · cases h3
      cases h4
      exact ⟨_, rfl, h1, h2, rfl⟩
    · cases h3
  · cases hs

/-- Every call in the trace was made by such a step: after some beginning of the schedule, with storage that showed this. -/
theorem C79_calls_made {s : State} {cap : Nat} (hs : (State.init lib cap).run cap policy cs = some (.ok s)) {p : Nat} {e : Call}
    (he : .call p e ∈ s.ring.trace) :
    ∃ before after m, cs = before ++ .emit p e.record e.message e.eval :: after ∧
      (State.init lib cap).run cap policy before = some (.ok m) ∧
      e.record.contents m.mem.foreign = some e.contents ∧ readF m.mem.foreign e.message = some e.text := by
  exact call_run hs (by simp [State.init, Ring.State.init]) he

/-- Nothing is left behind: when the destructor has joined the worker and nobody is in a call, the end of the destructor is
defined, and then no buffer and no block of the heap is left, whatever the calls were given and however they ended. -/
theorem C79_nothing_left (hk : 1 ≤ k) {s : State} (hs : (State.init lib (2 ^ k)).run (2 ^ k) policy cs = some (.ok s))
    (hj : s.ring.joined = true) (hp : ∀ p, s.ring.producers p = .idle) :
    ∃ m, s.destroyed (2 ^ k) = .ok m ∧ (∀ o, m.objs o = none) ∧ ∀ a, m.heap a = none := by
  obtain ⟨σ, hg⟩ := good_init lib (2 ^ k)
  obtain ⟨s', _, h, hg', ds, hr⟩ := good_run hk hg Ring.inv_init hs
  cases h
  exact destroyed_good hg' hp (joined_exited (s := Ring.State.init) (fun h => nomatch h) hr hj)

/-! ## Example

The storage of the caller has a long text, a message and a lazy attribute. It is overwritten and freed when the call has
returned and before the worker has looked. -/

private def longText : Str := List.replicate 20 'x'
private def rec0 : FRec :=
  { message := ⟨0, 2⟩, formatted := ⟨1, 20⟩, severity := -3, timestamp := 9, tid := 4
    attributes := [[(⟨0, 1⟩, .string ⟨1, 18⟩)], [(⟨0, 2⟩, .function 7)]] }

private def freed : List Cmd :=
  [.foreign 0 (some ['h', 'i', '!']), .foreign 1 (some longText), .emit 5 rec0 ⟨1, 3⟩ (fun _ => ['l']),
   .producer 5 false, .producer 5 false, .producer 5 false, .producer 5 false, .producer 5 false, .producer 5 false,
   .foreign 0 none, .foreign 1 (some []),
   .consumer false, .consumer false, .consumer false, .consumer false, .consumer false, .consumer false, .consumer false,
   .consumer false, .consumer false]

set_option maxRecDepth 100000 in
example : ∃ s, (State.init {} 2).run (2 ^ 1) .wait freed = some (.ok s) ∧
    s.seen.map (fun x => (x.1.message, x.1.attributes, x.2)) =
      [(['h', 'i'], [[(['h'], .string (longText.take 18)), (['h', 'i'], .string ['l'])]], ['x', 'x', 'x'])] :=
  ⟨_, rfl, rfl⟩

set_option maxRecDepth 100000 in
/-- The hypotheses of `C79_nothing_left` are met after the destructor; 5 is the only thread that made a call. -/
example : ∃ s, (State.init {} 2).run (2 ^ 1) .wait (freed ++ [.stop] ++ List.replicate 4 (.consumer false) ++
      [.join]) = some (.ok s) ∧ s.ring.joined = true ∧ s.threads = [5] ∧ s.ring.producers 5 = .idle := ⟨_, rfl, rfl, rfl, rfl⟩

/-- While the call is in progress the storage may not be changed; this is what the caller has to keep. -/
example : (State.init {} 2).run (2 ^ 1) .wait (freed.take 5 ++ [.foreign 0 none]) = none := rfl

end Blackhole.AsyncMem
