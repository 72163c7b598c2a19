import Verif.LockRace.Lemmas
import Verif.Shared.Cases
import Verif.Shared.Replaced
import Verif.Socket.ThreadsProps
import Verif.Dev.Threads

/-! # No data races in the sinks: C99 -/

namespace Blackhole.LockRace

open Lock (State Op Task Inv Alike Guarded Occurs In)
open Shared (Place Mutex Emit Kind Shot program shots start CanFail Shown ShownAt)
open Pipeline (Process Call Handler Fails)

/-! ## Lemmas -/

section Plain

set_option linter.unusedSectionVars false

variable {K L W R : Type} [DecidableEq K] [DecidableEq L]

theorem events_alike {s s' : State K L W R} (h : Alike s s') (t : Nat) : events s t = events s' t := by
  have h1 := h.todo t
  have h2 := h.doing t
  unfold events
  rw [h2]
  cases e : (s.threads t).todo with
  | nil => rw [e] at h1; rw [show (s'.threads t).todo = [] from h1]
  | cons g gs =>
    rw [e] at h1
    cases g with
    | nil => rw [show (s'.threads t).todo = [] :: Lock.plain gs from h1]
    | cons x xs =>
      rw [show (s'.threads t).todo = (x.plain :: xs.map Lock.Task.plain) :: Lock.plain gs from h1]
      have hfree : s'.free x.plain.lock = s.free x.lock := by
        unfold State.free
        rw [h.holder]
        rfl
      simp only [hfree]
      rfl

theorem trace_alike {s s' : State K L W R} (h : Alike s s') (schedule : List Nat)
    (hok : ∀ d ∈ (s'.run schedule).done, d.2.2 = false) : trace s schedule = trace s' schedule := by
  induction schedule generalizing s s' with
  | nil => rfl
  | cons t ts ih =>
    have hstep : Alike (s.step t) (s'.step t) := by
      refine h.step t fun d hd => hok d ?_
      obtain ⟨more, e⟩ := Lock.done_grows (s'.step t) ts
      show d ∈ ((s'.step t).run ts).done
      rw [e]
      exact List.mem_append_left _ hd
    simp only [trace, events_alike h t, ih hstep hok]

end Plain

/-- What threads do whose emits never fail. -/
theorem streams_of {hs : List Handler} {programs : Nat → List (List Shared.Task)}
    (hp : ∀ t op, In (programs t) op → Kind hs op)
    (hfine : ∀ t, ∀ g ∈ programs t, ∀ x ∈ g, ¬ CanFail x.toOp ∧ x.lock ≠ none) (schedule : List Nat) (k : Place) :
    ¬Races (trace (State.init programs (start hs)) schedule) k := by
  have hkind : ∀ op : Emit, Occurs (fun t => Lock.plain (programs t)) op → Kind hs op ∧ ¬ CanFail op ∧ op.lock ≠ none := by
    intro op ho
    obtain ⟨t, g, hg, x, hx, rfl⟩ := Lock.plain_occurs ho
    exact ⟨hp t _ ⟨g, hg, x, hx, .inl rfl⟩, hfine t g hg x hx⟩
  have hguard : ∀ k, Guarded (fun t => Lock.plain (programs t)) k := by
    intro k
    refine ⟨match k with | .stream _ => .console | .sink i j => .sink i j, fun op ho he => ?_⟩
    obtain ⟨hk, -, hl⟩ := hkind op ho
    subst he
    cases hk with
    | file _ _ => rfl
    | console _ _ _ => rfl
    | other _ _ => rfl
    | report => exact absurd rfl hl
  have halike : Alike (State.init programs (start hs)) (State.init (fun t => Lock.plain (programs t)) (start hs)) :=
    ⟨fun _ => rfl, fun _ => rfl, rfl, rfl, rfl⟩
  rw [trace_alike halike schedule]
  · exact no_race _ _ _ (hguard k)
  · intro d hd
    have hinv := (Inv.start (fun t => Lock.plain (programs t)) (start hs)).run schedule
    obtain ⟨a, b, e⟩ := List.append_of_mem hd
    have := hinv.truthful d.2.1.res (hguard _) a d b e rfl
    cases hf : d.2.2 with
    | false => rfl
    | true => exact absurd ⟨_, by rw [← this, hf]⟩ (hkind _ (hinv.did hd)).2.1

theorem guarded_stderr {hs : List Handler} {programs : Nat → List (List Shared.Task)}
    (hp : ∀ t op, In (programs t) op → Kind hs op) : Guarded programs (.stream .stderr) := by
  refine ⟨.console, fun op ho he => ?_⟩
  cases Shared.occurs_kind hp ho with
  | file _ _ => cases he
  | console _ _ _ => rfl
  | other _ _ => cases he
  | report => cases he

theorem stdout_of {hs : List Handler} {programs : Nat → List (List Shared.Task)}
    (hp : ∀ t op, In (programs t) op → Kind hs op) (schedule : List Nat) {st : Console.Stream} {i j : Nat}
    (h : RaceAt (trace (State.init programs (start hs)) schedule) (.stream st) i j) :
    ∃ t op, (op = i ∨ op = j)
      ∧ (trace (State.init programs (start hs)) schedule)[op]? = some ⟨t, .touch (.stream st) none⟩ := by
  obtain ⟨hne, ⟨t, m, hi⟩, ⟨u, m', hj⟩, h1, h2⟩ := h
  have key : ∀ {k : Nat} {t m}, (trace (State.init programs (start hs)) schedule)[k]? = some ⟨t, .touch (.stream st) m⟩ →
      m = none ∨ m = some .console := by
    intro k t m hk
    obtain ⟨op, ho, hr, e⟩ := trace_occurs (Inv.start programs (start hs)) schedule (List.mem_of_getElem? hk)
    subst e
    cases Shared.occurs_kind hp ho with
    | file _ _ => cases hr
    | console _ _ _ => exact .inr rfl
    | other _ _ => cases hr
    | report => exact .inl rfl
  rcases key hi with rfl | rfl
  · exact ⟨t, i, .inl rfl, hi⟩
  · rcases key hj with rfl | rfl
    · exact ⟨u, j, .inr rfl, hj⟩
    · rcases Nat.lt_or_gt_of_ne hne with h | h
      · exact absurd (ordered _ _ _ hi hj h) h1
      · exact absurd (ordered _ _ _ hj hi h) h2

/-- Two accesses of different threads, one right after the other, race. -/
theorem race_next {K L : Type} {tr : List (Event K L)} {k : K} {m m' : Option L} {i t u : Nat} (hne : t ≠ u)
    (hi : tr[i]? = some ⟨t, .touch k m⟩) (hj : tr[i + 1]? = some ⟨u, .touch k m'⟩) : RaceAt tr k i (i + 1) := by
  refine ⟨by omega, ⟨t, m, hi⟩, ⟨u, m', hj⟩, fun h => ?_, fun h => ?_⟩
  · rcases h.through with ⟨v, e, e', h1, h2⟩ | ⟨r, v, l, h1, h2, h3⟩
    · rw [hi] at h1
      rw [hj] at h2
      injection h1 with h1
      injection h2 with h2
      injection h1 with h1 _
      injection h2 with h2 _
      exact hne (h1.trans h2.symm)
    · have : r = i ∨ r = i + 1 := by omega
      rcases this with rfl | rfl
      · rw [hi] at h3; injection h3 with h3; injection h3 with _ h3; cases h3
      · rw [hj] at h3; injection h3 with h3; injection h3 with _ h3; cases h3
  · have := h.lt
    omega

/-! ## C99 -/

/-- **C99, file sinks.** Whatever the log calls, the handlers, the failures and the schedule: of two accesses to the state of
a file sink (its open stream, its counters) one happens before the other. The same for sinks of other kinds that work
under a mutex of their own. -/
theorem C99_sinks (p : Process) (hs : List Handler) (calls : Nat → List Call) (programs : Nat → List (List Shared.Task))
    (hp : ∀ t, program p hs (calls t) = .ok (programs t)) (schedule : List Nat) (i j : Nat) :
    ¬Races (trace (State.init programs (start hs)) schedule) (.sink i j) :=
  no_race _ _ _ (Shared.guarded_sink (fun t _ => Shared.program_kind (hp t)) i j)

/-- **C99, file sinks, while handlers are replaced.** -/
theorem C99_sinks_replaced (p : Process) (hs : List Handler) (calls : Nat → List Shot)
    (programs : Nat → List (List Shared.Task)) (hp : ∀ t, shots p hs (calls t) = .ok (programs t)) (schedule : List Nat)
    (i j : Nat) : ¬Races (trace (State.init programs (start hs)) schedule) (.sink i j) :=
  no_race _ _ _ (Shared.guarded_sink (fun t _ => Shared.shots_kind (hp t)) i j)

/-- **C99, the standard error stream.** All console sinks of the process together never race on it, whatever fails. -/
theorem C99_stderr (p : Process) (hs : List Handler) (calls : Nat → List Call) (programs : Nat → List (List Shared.Task))
    (hp : ∀ t, program p hs (calls t) = .ok (programs t)) (schedule : List Nat) :
    ¬Races (trace (State.init programs (start hs)) schedule) (.stream .stderr) :=
  no_race _ _ _ (guarded_stderr (fun t _ => Shared.program_kind (hp t)))

/-- **C99, the standard error stream, while handlers are replaced.** -/
theorem C99_stderr_replaced (p : Process) (hs : List Handler) (calls : Nat → List Shot)
    (programs : Nat → List (List Shared.Task)) (hp : ∀ t, shots p hs (calls t) = .ok (programs t)) (schedule : List Nat) :
    ¬Races (trace (State.init programs (start hs)) schedule) (.stream .stderr) :=
  no_race _ _ _ (guarded_stderr (fun t _ => Shared.shots_kind (hp t)))

/-- **C99, the standard output, partial.** If nothing fails (no sink, and every accepted record is rendered), there is no race
on any stream or sink. Missing: calls in which something fails, after which the root logger prints to the standard output
without a mutex (`C99_fails_report`). -/
theorem C99_stdout_partial (p : Process) (hs : List Handler) (calls : Nat → List Call)
    (programs : Nat → List (List Shared.Task)) (hp : ∀ t, program p hs (calls t) = .ok (programs t)) (schedule : List Nat)
    (hok : ∀ t, ∀ c ∈ calls t, ∀ i h, hs[i]? = some h → ∀ k s, h.sinks[k]? = some s → ¬ Fails (c.replies i k) s)
    (outs : Nat → List (List Str)) (houts : ∀ t, Both (Shown p hs .stdout) (calls t) (outs t)) :
    ¬Races (trace (State.init programs (start hs)) schedule) (.stream .stdout) :=
  streams_of (fun t _ => Shared.program_kind (hp t))
    (fun t => (Shared.program_show (hp t) (houts t) fun c hc => hok t c hc).2) schedule _

/-- **C99, the standard output, while handlers are replaced, partial.** Missing: as in `C99_stdout_partial`. -/
theorem C99_stdout_replaced_partial (p : Process) (hs : List Handler) (calls : Nat → List Shot)
    (hfair : ∀ t, ∀ x ∈ calls t, x.Fair hs)
    (programs : Nat → List (List Shared.Task)) (hp : ∀ t, shots p hs (calls t) = .ok (programs t)) (schedule : List Nat)
    (hok : ∀ t, ∀ x ∈ calls t, ∀ i ∈ x.active, ∀ h, hs[i]? = some h → ∀ k s, h.sinks[k]? = some s →
      ¬ Fails (x.call.replies i k) s)
    (outs : Nat → List (List Str)) (houts : ∀ t, Both (ShownAt p hs .stdout) (calls t) (outs t)) :
    ¬Races (trace (State.init programs (start hs)) schedule) (.stream .stdout) :=
  streams_of (fun t _ => Shared.shots_kind (hp t))
    (fun t => (Shared.shots_show (hfair t) (hp t) (houts t) (hok t)).2) schedule _

/-- **C99, who is to blame.** If something fails: of any two racing accesses to the standard output at least one is made
without a mutex, which only the root logger's reports are. Console sinks never race with each other. -/
theorem C99_only_reports (p : Process) (hs : List Handler) (calls : Nat → List Call)
    (programs : Nat → List (List Shared.Task)) (hp : ∀ t, program p hs (calls t) = .ok (programs t)) (schedule : List Nat)
    (st : Console.Stream) (i j : Nat)
    (h : RaceAt (trace (State.init programs (start hs)) schedule) (.stream st) i j) :
    ∃ t k, (k = i ∨ k = j)
      ∧ (trace (State.init programs (start hs)) schedule)[k]? = some ⟨t, .touch (.stream st) none⟩ :=
  stdout_of (fun t _ => Shared.program_kind (hp t)) schedule h

/-- **C99, TCP sinks.** However threads use a TCP sink and whatever the network does: no race on its state. -/
theorem C99_tcp (net : Socket.Net) (programs : Nat → List Str) (schedule : List Nat) :
    ¬Races (trace (State.init (fun t => (programs t).map fun m => [(Socket.tcpOp net m).alone]) (fun _ => Socket.Link.init))
      schedule) () := by
  refine no_race _ _ _ ⟨(), fun op ho _ => ?_⟩
  obtain ⟨t, g, hg, x, hx, e⟩ := ho
  obtain ⟨m, -, rfl⟩ := List.mem_map.1 hg
  rw [List.mem_singleton] at hx
  subst hx
  rcases e with rfl | e
  · rfl
  · cases e

/-- **C99, handlers for development.** Among themselves they never race on the standard output. -/
theorem C99_dev (env : Rec.Env) (libc : Date.Libc) (dtoa : Nat → Str) (tty : Bool) (records : Nat → List Rec.Record)
    (schedule : List Nat) :
    ¬Races (trace (State.init
      (fun t => ((records t).map fun r => Dev.Job.printed env libc dtoa tty (.dev r)).map fun x => [Lock.printTask x.1 x.2])
      (fun _ => [])) schedule) () := by
  refine no_race _ _ _ ⟨.dev, fun op ho _ => ?_⟩
  obtain ⟨t, g, hg, x, hx, e⟩ := ho
  obtain ⟨y, hy, rfl⟩ := List.mem_map.1 hg
  obtain ⟨r, -, rfl⟩ := List.mem_map.1 hy
  rw [List.mem_singleton] at hx
  subst hx
  rcases e with rfl | e
  · rfl
  · cases e

/-! ## Where it fails -/

set_option maxRecDepth 100000 in
/-- **C99 fails for reports of errors.** Two threads log; the file of one of them cannot be opened. The report of this on the
standard output and the line of a console sink of the other thread race. (The standard promises that this is harmless as
long as the streams are synchronised with C's; after `std::ios::sync_with_stdio(false)` it is not.) -/
theorem C99_fails_report : ∃ (p : Process) (hs : List Handler) (calls : Nat → List Call)
    (programs : Nat → List (List Shared.Task)) (schedule : List Nat),
    (∀ t, program p hs (calls t) = .ok (programs t))
    ∧ Races (trace (State.init programs (start hs)) schedule) (.stream .stdout) := by
  refine ⟨Pipeline.Example.process, Shared.Example.handlers, Shared.Example.brokenCalls, _, Shared.Example.schedule,
    Shared.Example.broken_programs, 16, 17, ?_⟩
  exact race_next (t := 0) (u := 1) (by decide) rfl rfl

/-- **C99 fails between handlers for development and console sinks.** Both synchronise the standard output, each kind with its
own mutex: any record through the one that prints something and any text through the other race under some schedule. -/
theorem C99_fails_dev (env : Rec.Env) (libc : Date.Libc) (dtoa : Nat → Str) (tty : Bool) (r : Rec.Record) (k : Console.Sink)
    (severity : Int) (text : Str) (hdev : (Dev.handle env libc dtoa tty r).1 ≠ [])
    (hconsole : k.output tty severity text ≠ []) :
    ∃ schedule,
      let jobs : Nat → List Dev.Job := fun t => if t = 0 then [.dev r] else if t = 1 then [.console k severity text] else []
      Races (trace (State.init
        (fun t => ((jobs t).map (Dev.Job.printed env libc dtoa tty)).map fun x => [Lock.printTask x.1 x.2])
        (fun _ => [])) schedule) () := by
  refine ⟨[0, 1, 0, 1], 2, 3, ?_⟩
  cases h0 : (Dev.handle env libc dtoa tty r).1 with
  | nil => exact absurd h0 hdev
  | cons c cs =>
    cases h1 : k.output tty severity text with
    | nil => exact absurd h1 hconsole
    | cons d ds =>
      have e : (fun t => ((if t = 0 then [Dev.Job.dev r] else if t = 1 then [.console k severity text] else []).map
            (Dev.Job.printed env libc dtoa tty)).map fun x => [Lock.printTask x.1 x.2])
          = fun t => if t = 0 then [[Lock.printTask Dev.Mutex.dev (c :: cs)]]
              else if t = 1 then [[Lock.printTask Dev.Mutex.console (d :: ds)]] else [] := by
        funext t
        by_cases ht : t = 0
        · simp [ht, Dev.Job.printed, h0]
        · by_cases ht' : t = 1
          · simp [ht', Dev.Job.printed, h1]
          · simp [ht, ht']
      simp only [e]
      exact race_next (t := 0) (u := 1) (by decide) rfl rfl

/-! ## Concrete cases -/

set_option maxRecDepth 100000 in
/-- Two threads that log through a console and a file (`C99_sinks`, `C99_stderr`, `C99_stdout_partial`): both of them access
each of the three objects, under a schedule in which they alternate. -/
example : (∀ t, program Pipeline.Example.process Shared.Example.handlers (Shared.Example.calls t)
      = .ok (Shared.Example.programs Shared.Example.inputs t))
    ∧ (∀ t ∈ [0, 1], ∀ k ∈ [Place.stream .stdout, .stream .stderr, .sink 1 0],
        (trace (State.init (Shared.Example.programs Shared.Example.inputs) (start Shared.Example.handlers))
          ((List.replicate 40 [0, 1]).flatten)).any fun e => e.thread == t && match e.what with
            | .touch k' m => k' == k && m.isSome
            | _ => false)
    ∧ (∀ i j, ¬Races (trace (State.init (Shared.Example.programs Shared.Example.inputs) (start Shared.Example.handlers))
          ((List.replicate 40 [0, 1]).flatten)) (.sink i j))
    ∧ ¬Races (trace (State.init (Shared.Example.programs Shared.Example.inputs) (start Shared.Example.handlers))
          ((List.replicate 40 [0, 1]).flatten)) (.stream .stderr)
    ∧ ¬Races (trace (State.init (Shared.Example.programs Shared.Example.inputs) (start Shared.Example.handlers))
          ((List.replicate 40 [0, 1]).flatten)) (.stream .stdout) :=
  ⟨Shared.Example.programs_eq, by decide,
    fun i j => C99_sinks _ _ _ _ Shared.Example.programs_eq _ i j, C99_stderr _ _ _ _ Shared.Example.programs_eq _,
    C99_stdout_partial _ _ _ _ Shared.Example.programs_eq _
      (fun t c hc => Shared.Example.not_fails c (Shared.Example.all_fine t c hc)) _ (Shared.Example.shows .stdout)⟩

set_option maxRecDepth 100000 in
/-- The race of `C99_fails_report` is one that `C99_only_reports` speaks of. -/
example := C99_only_reports _ _ _ _ Shared.Example.broken_programs Shared.Example.schedule .stdout 16 17
  (race_next (t := 0) (u := 1) (by decide) rfl rfl)

/-- While handlers are replaced (`C99_sinks_replaced`, `C99_stderr_replaced`, `C99_stdout_replaced_partial`). -/
example (schedule : List Nat) (i j : Nat) :=
  And.intro (C99_sinks_replaced _ _ _ _ Shared.Example.shots_eq schedule i j)
    (C99_stderr_replaced _ _ _ _ Shared.Example.shots_eq schedule)

example (schedule : List Nat) := C99_stdout_replaced_partial _ _ _ Shared.Example.fair _ Shared.Example.shots_eq schedule
  (fun t x hx i _ _ _ k s _ => by rw [Shared.Example.shots_fine t x hx i k]; exact Shared.Example.no_failure s)
  _ Shared.Example.shows_at

/-- A record that prints something through a handler for development, and a line through a console sink (`C99_fails_dev`). -/
example : ∃ (libc : Date.Libc) (schedule : List Nat),
    let jobs : Nat → List Dev.Job := fun t => if t = 0 then [.dev Dev.Example.record]
      else if t = 1 then [.console ⟨.stdout, Console.zen, fun _ => Console.Color.default⟩ 3 (ch! "x")] else []
    Races (trace (State.init
      (fun t => ((jobs t).map (Dev.Job.printed Dev.Example.env libc (fun _ => []) false)).map fun x => [Lock.printTask x.1 x.2])
      (fun _ => [])) schedule) () := by
  obtain ⟨libc, -, -, -, -, h, -⟩ := Dev.Example.case_exists
  exact ⟨libc, C99_fails_dev Dev.Example.env libc (fun _ => []) false Dev.Example.record
    ⟨.stdout, Console.zen, fun _ => Console.Color.default⟩ 3 (ch! "x") (by rw [h]; decide) (by decide)⟩

/-- Two threads that use a TCP sink (`C99_tcp`): both access its state. -/
example (net : Socket.Net) :
    let programs := fun t : Nat => ((if t = 0 then [ch! "a"] else if t = 1 then [ch! "b"] else []).map fun m =>
      [(Socket.tcpOp net m).alone])
    (trace (State.init programs (fun _ => Socket.Link.init)) [0, 0, 0, 0, 0, 1, 1]).map (fun e => (e.thread, e.what))
      = [(0, .acquire ()), (0, .touch () (some ())), (0, .touch () (some ())), (0, .touch () (some ())), (0, .release ()),
         (1, .acquire ()), (1, .touch () (some ()))] := rfl

end Blackhole.LockRace
