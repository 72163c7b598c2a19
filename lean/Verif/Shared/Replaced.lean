import Verif.Shared.Snapshots
import Verif.Shared.Cases
import Verif.Shared.Others

/-! # Log calls on several threads while handlers are replaced: C67 -/

namespace Blackhole.Shared

open Pipeline (Process Call Handler Reply Given Fails Says Accepted Renders)
open Pipeline.Example (process fine)
open Lock (byThread)

/-- **C67, while handlers are replaced.** Each call finds its own handlers. At any moment the files of a file sink hold whole
lines, one for each emit that returned, followed by the beginning of at most one more; what each thread contributed is a
beginning of what those of its calls that found the sink's handler have to give to the sink, in their order; when all threads
are done, all of it. -/
theorem C67_files_replaced (p : Process) (hs : List Handler) (n : Nat) (calls : Nat → List Shot)
    (hn : ∀ t, n ≤ t → calls t = []) (hfair : ∀ t, ∀ x ∈ calls t, x.Fair hs)
    (programs : Nat → List (List Task)) (hp : ∀ t, shots p hs (calls t) = .ok (programs t)) (schedule : List Nat)
    (i j : Nat) (h : Handler) (hi : hs[i]? = some h) (path : Str) (r : File.RotateFactory) (f : File.FlusherFactory)
    (hj : h.sinks[j]? = some (.file path (File.Sink.init r f))) :
    ∃ (sink : File.Sink) (out : File.Outcome) (emitted : List (Nat × Reply × Int × Str)) (current : Str)
      (gs : Nat → List (Option (Reply × Int × Str))),
      (run programs hs schedule).res (.sink i j) = .file sink out
      ∧ File.contents sink.streams = File.deliveredLines (emitted.map fun e => (e.2.1.file, e.2.2.2))
          ((File.Sink.init r f).run (emitted.map fun e => (e.2.1.file, e.2.2.2))).2 ++ current
      ∧ (∀ t, Both (GivenAt p h i j) (calls t) (gs t))
      ∧ (∀ t, byThread t emitted <+: (gs t).flatMap Option.toList)
      ∧ (current = [] ∨ ∃ t e, byThread t emitted ++ [e] <+: (gs t).flatMap Option.toList ∧ current <+: e.2.2 ++ ['\n'])
      ∧ ((run programs hs schedule).finished → current = []
          ∧ sink = ((File.Sink.init r f).run (emitted.map fun e => (e.2.1.file, e.2.2.2))).1
          ∧ ∀ t, byThread t emitted = (gs t).flatMap Option.toList) :=
  files_of hs n programs (shots_nil hn hp) (fun t _ => shots_kind (hp t)) schedule i j h hi path r f hj
    (fun t => Both (GivenAt p h i j) (calls t)) fun t _ hc hh =>
      shots_given (s0 := .file path (File.Sink.init r f)) (hfair t) (hp t) hc hh hi trivial hj

/-- **C67, while handlers are replaced: console sinks**, also of different loggers. Outputs are never mixed; what comes from
each thread is what its calls have to print with the handlers that they found, in the order of its calls. -/
theorem C67_streams_replaced (p : Process) (hs : List Handler) (n : Nat) (calls : Nat → List Shot)
    (hn : ∀ t, n ≤ t → calls t = []) (hfair : ∀ t, ∀ x ∈ calls t, x.Fair hs)
    (programs : Nat → List (List Task)) (hp : ∀ t, shots p hs (calls t) = .ok (programs t)) (schedule : List Nat)
    (st : Console.Stream)
    (hok : ∀ t, ∀ x ∈ calls t, ∀ i ∈ x.active, ∀ h, hs[i]? = some h → ∀ k s, h.sinks[k]? = some s →
      ¬ Fails (x.call.replies i k) s)
    (outs : Nat → List (List Str)) (houts : ∀ t, Both (ShownAt p hs st) (calls t) (outs t)) :
    ∃ (printed : List (Nat × Str)) (current : Str),
      (run programs hs schedule).res (.stream st) = .stream (printed.flatMap (·.2) ++ current)
      ∧ (∀ t, byThread t printed <+: (outs t).flatten)
      ∧ (current = [] ∨ ∃ t output, byThread t printed ++ [output] <+: (outs t).flatten ∧ current <+: output)
      ∧ ((run programs hs schedule).finished → current = [] ∧ ∀ t, byThread t printed = (outs t).flatten) :=
  streams_of hs n programs (shots_nil hn hp) (fun t _ => shots_kind (hp t)) schedule st outs
    fun t => shots_show (hfair t) (hp t) (houts t) (hok t)

/-- **C67, while handlers are replaced: nothing is lost, doubled or broken.** If no sink of the handler fails and its
formatter gives a text for every accepted record: the files hold whole lines and the beginning of at most one more, and when
all threads are done exactly one line for every accepted call that found the handler. -/
theorem C67_every_line_replaced (p : Process) (hs : List Handler) (n : Nat) (calls : Nat → List Shot)
    (hn : ∀ t, n ≤ t → calls t = []) (hfair : ∀ t, ∀ x ∈ calls t, x.Fair hs)
    (programs : Nat → List (List Task)) (hp : ∀ t, shots p hs (calls t) = .ok (programs t)) (schedule : List Nat)
    (i j : Nat) (h : Handler) (hi : hs[i]? = some h) (path : Str) (r : File.RotateFactory) (f : File.FlusherFactory)
    (hj : h.sinks[j]? = some (.file path (File.Sink.init r f)))
    (hok : ∀ t, ∀ x ∈ calls t, i ∈ x.active → ∀ k s, h.sinks[k]? = some s → ¬ Fails (x.call.replies i k) s)
    (texts : Nat → List (Option Str)) (hsays : ∀ t, Both (SaysAt p h i) (calls t) (texts t)) :
    ∃ (sink : File.Sink) (out : File.Outcome) (lines : List (Nat × Str)) (current : Str),
      (run programs hs schedule).res (.sink i j) = .file sink out
      ∧ File.contents sink.streams = (lines.flatMap fun l => l.2 ++ ['\n']) ++ current
      ∧ (∀ t, byThread t lines <+: (texts t).filterMap id)
      ∧ (current = [] ∨ ∃ t line, byThread t lines ++ [line] <+: (texts t).filterMap id ∧ current <+: line ++ ['\n'])
      ∧ ((run programs hs schedule).finished → current = [] ∧ ∀ t, byThread t lines = (texts t).filterMap id) := by
  obtain ⟨sink, out, emitted, current, gs, h1, h2, h3, h4, h5, h6⟩ :=
    C67_files_replaced p hs n calls hn hfair programs hp schedule i j h hi path r f hj
  exact lines_of r f h1 h2 h4 h5 h6 fun t => given_texts_at hj (h3 t) (hsays t) (hok t)

/-- **C67, while handlers are replaced: other sinks.** Such a sink gets, one after the other, the texts of those calls
that found its handler; from each thread in the order of its calls. -/
theorem C67_others_replaced (p : Process) (hs : List Handler) (n : Nat) (calls : Nat → List Shot)
    (hn : ∀ t, n ≤ t → calls t = []) (hfair : ∀ t, ∀ x ∈ calls t, x.Fair hs)
    (programs : Nat → List (List Task)) (hp : ∀ t, shots p hs (calls t) = .ok (programs t)) (schedule : List Nat)
    (i j : Nat) (h : Handler) (hi : hs[i]? = some h) (kind : Essentials.Sink) (earlier : List Str)
    (hj : h.sinks[j]? = some (.other kind earlier)) :
    ∃ (emitted : List (Nat × Reply × Int × Str)) (gs : Nat → List (Option (Reply × Int × Str))),
      (run programs hs schedule).res (.sink i j) = .other (emitted.map (·.2.2.2))
      ∧ (∀ t, Both (GivenAt p h i j) (calls t) (gs t))
      ∧ (∀ t, byThread t emitted <+: (gs t).flatMap Option.toList)
      ∧ ((run programs hs schedule).finished → ∀ t, byThread t emitted = (gs t).flatMap Option.toList) :=
  others_of hs n programs (shots_nil hn hp) (fun t _ => shots_kind (hp t)) schedule i j h hi kind earlier hj
    (fun t => Both (GivenAt p h i j) (calls t)) fun t _ hc hh =>
      shots_given (s0 := .other kind earlier) (hfair t) (hp t) hc hh hi trivial hj

/-- **C67, while handlers are replaced: all is done.** After enough rounds in each of which every thread takes a step all
calls have returned. -/
theorem C67_finishes_replaced (p : Process) (hs : List Handler) (n : Nat) (calls : Nat → List Shot)
    (hn : ∀ t, n ≤ t → calls t = []) (programs : Nat → List (List Task))
    (hp : ∀ t, shots p hs (calls t) = .ok (programs t)) (rounds : List (List Nat))
    (hr : ∀ round ∈ rounds, (∀ t ∈ round, t < n) ∧ ∀ t < n, t ∈ round)
    (hlen : ((List.range n).map fun t => Lock.workOf (programs t)).sum ≤ rounds.length) :
    (run programs hs rounds.flatten).finished := by
  refine Lock.Inv.rounds (shots_nil hn hp) rounds _ (Lock.Inv.start programs (start hs)) hr ?_
  refine Nat.le_trans (Nat.le_of_eq ?_) hlen
  unfold Lock.total
  congr 1
  exact List.map_congr_left fun t _ => Lock.work_none _

/-! ## A concrete case -/

namespace Example

/-- A console; a file and the system log. -/
def all : List Handler :=
  [⟨formatter, [console .stdout]⟩,
   ⟨formatter, [.file (ch! "/log") (File.Sink.init .stat (.repeat 1)), .other (.syslog []) []]⟩]

/-- Between its two calls thread 0 takes the file away; thread 1 still found both, in another order. -/
def shotsOf : Nat → List Shot
  | 0 => [⟨call (ch! "a") fine, [0, 1]⟩, ⟨call (ch! "c") fine, [0]⟩]
  | 1 => [⟨call (ch! "b") fine, [1, 0]⟩]
  | _ => []

def toConsole (message : Str) : List Task :=
  [consoleEmit ⟨.stdout, Console.zen, fun _ => Console.Color.default⟩ fine 1 message]

def toFile (message : Str) : List Task := [fileEmit 1 0 fine 1 message, otherEmit 1 1 fine 1 message]

def shotTasks : Nat → List (List Task)
  | 0 => [toConsole (ch! "a"), toFile (ch! "a"), toConsole (ch! "c")]
  | 1 => [toFile (ch! "b"), toConsole (ch! "b")]
  | _ => []

theorem shots_eq : ∀ t, shots process all (shotsOf t) = .ok (shotTasks t)
  | 0 => rfl
  | 1 => rfl
  | _ + 2 => rfl

theorem fair : ∀ t, ∀ x ∈ shotsOf t, x.Fair all
  | 0, x, hx => by
    simp only [shotsOf, List.mem_cons, List.not_mem_nil, or_false] at hx
    rcases hx with rfl | rfl <;> exact ⟨by decide, by decide⟩
  | 1, x, hx => by
    simp only [shotsOf, List.mem_cons, List.not_mem_nil, or_false] at hx
    rcases hx with rfl
    exact ⟨by decide, by decide⟩
  | _ + 2, x, hx => by cases hx

theorem shots_fine : ∀ t, ∀ x ∈ shotsOf t, ∀ i k, x.call.replies i k = fine
  | 0, x, hx => by
    simp only [shotsOf, List.mem_cons, List.not_mem_nil, or_false] at hx
    rcases hx with rfl | rfl <;> exact fun _ _ => rfl
  | 1, x, hx => by
    simp only [shotsOf, List.mem_cons, List.not_mem_nil, or_false] at hx
    rcases hx with rfl
    exact fun _ _ => rfl
  | _ + 2, x, hx => by cases hx

theorem no_failure (s : Pipeline.Sink) : ¬ Fails fine s := by
  cases s <;> simp [Fails, fine]

def saidAt : Nat → List (Option Str)
  | 0 => [some (ch! "a"), none]
  | 1 => [some (ch! "b")]
  | _ => []

theorem says_at : ∀ t, Both (SaysAt process ⟨formatter, all[1].sinks⟩ 1) (shotsOf t) (saidAt t)
  | 0 => .cons ⟨fun _ => ⟨_, accepted _ _, Pipeline.renders_iff.2 rfl⟩, fun h => absurd (by decide) h⟩
      (.cons ⟨fun h => absurd h (by decide), fun _ => rfl⟩ .nil)
  | 1 => .cons ⟨fun _ => ⟨_, accepted _ _, Pipeline.renders_iff.2 rfl⟩, fun h => absurd (by decide) h⟩ .nil
  | _ + 2 => .nil

theorem none_else : ∀ t, 2 ≤ t → shotsOf t = []
  | _ + 2, _ => rfl

/-- The hypotheses of `C67_every_line_replaced` and `C67_finishes_replaced`: under any fair schedule the file gets the lines
`a` and `b`, and not `c`. -/
example (rounds : List (List Nat)) (hr : ∀ round ∈ rounds, (∀ t ∈ round, t < 2) ∧ ∀ t < 2, t ∈ round)
    (hlen : 200 ≤ rounds.length) :
    ∃ sink out lines, (run shotTasks all rounds.flatten).res (.sink 1 0) = .file sink out
      ∧ File.contents sink.streams = (lines.flatMap fun l => l.2 ++ ['\n'])
      ∧ byThread 0 lines = [ch! "a"] ∧ byThread 1 lines = [ch! "b"] := by
  have hfin := C67_finishes_replaced process all 2 shotsOf none_else _ shots_eq rounds hr (Nat.le_trans (by decide) hlen)
  obtain ⟨sink, out, lines, current, h1, h2, -, -, h3⟩ := C67_every_line_replaced process all 2 shotsOf none_else fair _
    shots_eq rounds.flatten 1 0 _ rfl (ch! "/log") .stat (.repeat 1) rfl
    (fun t x hx _ k s _ => by rw [shots_fine t x hx]; exact no_failure s) _ says_at
  obtain ⟨rfl, h4⟩ := h3 hfin
  exact ⟨sink, out, lines, h1, by rw [h2, List.append_nil], h4 0, h4 1⟩

def shownAt : Nat → List (List Str)
  | 0 => [[ch! "a\n"], [ch! "c\n"]]
  | 1 => [[ch! "b\n"]]
  | _ => []

theorem shows_at : ∀ t, Both (ShownAt process all .stdout) (shotsOf t) (shownAt t)
  | 0 => .cons (.accepted (texts := [ch! "a", ch! "a"]) (accepted _ _)
        (.cons ⟨_, rfl, Pipeline.renders_iff.2 rfl⟩ (.cons ⟨_, rfl, Pipeline.renders_iff.2 rfl⟩ .nil)))
      (.cons (.accepted (texts := [ch! "c"]) (accepted _ _) (.cons ⟨_, rfl, Pipeline.renders_iff.2 rfl⟩ .nil)) .nil)
  | 1 => .cons (.accepted (texts := [ch! "b", ch! "b"]) (accepted _ _)
        (.cons ⟨_, rfl, Pipeline.renders_iff.2 rfl⟩ (.cons ⟨_, rfl, Pipeline.renders_iff.2 rfl⟩ .nil))) .nil
  | _ + 2 => .nil

/-- The hypotheses of `C67_streams_replaced`. -/
example (schedule : List Nat) :
    ∃ printed current, (run shotTasks all schedule).res (.stream .stdout) = .stream (printed.flatMap (·.2) ++ current)
      ∧ byThread 0 printed <+: [ch! "a\n", ch! "c\n"] ∧ byThread 1 printed <+: [ch! "b\n"] := by
  obtain ⟨printed, current, h1, h2, -, -⟩ := C67_streams_replaced process all 2 shotsOf none_else fair _ shots_eq schedule
    .stdout (fun t x hx i _ h _ k s _ => by rw [shots_fine t x hx]; exact no_failure s) _ shows_at
  exact ⟨printed, current, h1, h2 0, h2 1⟩

/-- The hypotheses of `C67_others_replaced`, and that threads do meet: here thread 1 is the first to write to the system
log. -/
example : ∃ (emitted : List (Nat × Reply × Int × Str)) (gs : Nat → List (Option (Reply × Int × Str))),
    (run shotTasks all (List.replicate 100 1 ++ List.replicate 100 0)).res (.sink 1 1) = .other (emitted.map (·.2.2.2))
    ∧ (∀ t, Both (GivenAt process all[1] 1 1) (shotsOf t) (gs t))
    ∧ (∀ t, byThread t emitted <+: (gs t).flatMap Option.toList) := by
  obtain ⟨emitted, gs, h1, h2, h3, -⟩ := C67_others_replaced process all 2 shotsOf none_else fair _ shots_eq
    (List.replicate 100 1 ++ List.replicate 100 0) 1 1 _ rfl (.syslog []) [] rfl
  exact ⟨emitted, gs, h1, h2, h3⟩

set_option maxRecDepth 100000 in
example : (run shotTasks all (List.replicate 100 1 ++ List.replicate 100 0)).res (.sink 1 1) = .other [ch! "b", ch! "a"] := rfl

end Example

end Blackhole.Shared
