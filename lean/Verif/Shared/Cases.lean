import Verif.Shared.Streams

/-! # Reports of errors and lines on the standard output: C67. Concrete cases -/

namespace Blackhole.Shared

open Pipeline (Process Call Handler Reply Given Fails Says Accepted Renders)
open Pipeline.Example (process fine)
open Lock (byThread)

namespace Example

/-- `{message}`. -/
def formatter : Essentials.Formatter := .string ⟨StringFmt.plainSeverity process.env, [.message (ch! "{}")]⟩

example : StringFmt.Formatter.make (fun _ => none) (ch! "{message}") (StringFmt.plainSeverity process.env)
    = .ok ⟨StringFmt.plainSeverity process.env, [.message (ch! "{}")]⟩ := rfl

def console (st : Console.Stream) : Pipeline.Sink := .console ⟨st, Console.zen, fun _ => Console.Color.default⟩ []

/-- A console and a file, each with its handler; a console on the standard errors. -/
def handlers : List Handler :=
  [⟨formatter, [console .stdout, console .stderr]⟩, ⟨formatter, [.file (ch! "/log") (File.Sink.init .stat (.repeat 1))]⟩]

def call (message : Str) (reply : Reply) : Call :=
  { Pipeline.Example.call 1 message [] with replies := fun _ _ => reply }

/-- The file cannot be opened. -/
def broken : Reply := { fine with file := ⟨some 1, none, some 1⟩, what := ch! "no" }

theorem accepted (message : Str) (reply : Reply) :
    Accepted process (call message reply) ⟨message, message, 1, 1000, 5, []⟩ :=
  .mk (values := []) (trailing := none) (scopes := []) rfl rfl (.inl ⟨rfl, rfl⟩) rfl

def calls : Nat → List Call
  | 0 => [call (ch! "a") fine, call (ch! "c") fine]
  | 1 => [call (ch! "b") fine]
  | _ => []

def texts : Nat → List Str
  | 0 => [ch! "a", ch! "c"]
  | 1 => [ch! "b"]
  | _ => []

/-- What the threads do, and that nothing fails. -/
def tasks (message : Str) (reply : Reply) : List (List Task) :=
  [[consoleEmit ⟨.stdout, Console.zen, fun _ => Console.Color.default⟩ reply 1 message,
    consoleEmit ⟨.stderr, Console.zen, fun _ => Console.Color.default⟩ reply 1 message],
   [fileEmit 1 0 reply 1 message]]

def programs (calls : Nat → List (Str × Reply)) (t : Nat) : List (List Task) := (calls t).flatMap fun c => tasks c.1 c.2

def inputs : Nat → List (Str × Reply)
  | 0 => [(ch! "a", fine), (ch! "c", fine)]
  | 1 => [(ch! "b", fine)]
  | _ => []

theorem programs_eq : ∀ t, program process handlers (calls t) = .ok (programs inputs t)
  | 0 => rfl
  | 1 => rfl
  | _ + 2 => rfl

theorem not_fails (c : Call) (hc : ∃ m, c = call m fine) (i : Nat) (h : Handler) (hi : handlers[i]? = some h) (k : Nat)
    (s : Pipeline.Sink) (hk : h.sinks[k]? = some s) : ¬ Fails (c.replies i k) s := by
  obtain ⟨m, rfl⟩ := hc
  match i, k, hi, hk with
  | 0, 0, hi, hk => cases hi; cases hk; exact fun h => h
  | 0, 1, hi, hk => cases hi; cases hk; exact fun h => h
  | 0, k + 2, hi, hk => cases hi; cases hk
  | 1, 0, hi, hk => cases hi; cases hk; simp [Fails, call, fine]
  | 1, k + 1, hi, hk => cases hi; cases hk
  | i + 2, _, hi, _ => cases hi

theorem all_fine : ∀ t, ∀ c ∈ calls t, ∃ m, c = call m fine
  | 0, c, hc => by
    simp only [calls, List.mem_cons, List.not_mem_nil, or_false] at hc
    rcases hc with rfl | rfl <;> exact ⟨_, rfl⟩
  | 1, c, hc => by
    simp only [calls, List.mem_cons, List.not_mem_nil, or_false] at hc
    exact ⟨_, hc⟩
  | _ + 2, c, hc => by cases hc

theorem says : ∀ t, Both (Says process formatter) (calls t) ((texts t).map some)
  | 0 => .cons ⟨_, accepted _ _, Pipeline.renders_iff.2 rfl⟩ (.cons ⟨_, accepted _ _, Pipeline.renders_iff.2 rfl⟩ .nil)
  | 1 => .cons ⟨_, accepted _ _, Pipeline.renders_iff.2 rfl⟩ .nil
  | _ + 2 => .nil

theorem shows (st : Console.Stream) : ∀ t, Both (Shown process handlers st) (calls t) ((texts t).map fun m => [m ++ ch! "\n"])
  | 0 => by
    refine .cons ?_ (.cons ?_ .nil)
    · have := Shown.accepted (st := st) (accepted (ch! "a") fine) (hs := handlers) (texts := [ch! "a", ch! "a"])
        (.cons (Pipeline.renders_iff.2 rfl) (.cons (Pipeline.renders_iff.2 rfl) .nil))
      cases st <;> exact this
    · have := Shown.accepted (st := st) (accepted (ch! "c") fine) (hs := handlers) (texts := [ch! "c", ch! "c"])
        (.cons (Pipeline.renders_iff.2 rfl) (.cons (Pipeline.renders_iff.2 rfl) .nil))
      cases st <;> exact this
  | 1 => by
    refine .cons ?_ .nil
    have := Shown.accepted (st := st) (accepted (ch! "b") fine) (hs := handlers) (texts := [ch! "b", ch! "b"])
      (.cons (Pipeline.renders_iff.2 rfl) (.cons (Pipeline.renders_iff.2 rfl) .nil))
    cases st <;> exact this
  | _ + 2 => .nil

/-- The hypotheses of `C67_every_line` and `C67_finishes`: two threads, three calls; under any fair schedule the file gets
three whole lines, `a` before `c`. -/
example (rounds : List (List Nat)) (hr : ∀ round ∈ rounds, (∀ t ∈ round, t < 2) ∧ ∀ t < 2, t ∈ round)
    (hlen : 200 ≤ rounds.length) :
    ∃ sink out lines, (run (programs inputs) handlers rounds.flatten).res (.sink 1 0) = .file sink out
      ∧ File.contents sink.streams = (lines.flatMap fun l => l.2 ++ ['\n'])
      ∧ byThread 0 lines = [ch! "a", ch! "c"] ∧ byThread 1 lines = [ch! "b"] := by
  have hn : ∀ t, 2 ≤ t → calls t = [] := fun t ht => by
    match t, ht with
    | t + 2, _ => rfl
  have hfin := C67_finishes process handlers 2 calls hn _ programs_eq rounds hr (Nat.le_trans (by decide) hlen)
  obtain ⟨sink, out, lines, current, h1, h2, -, -, h3⟩ := C67_every_line process handlers 2 calls hn _ programs_eq
    rounds.flatten 1 0 _ rfl (ch! "/log") .stat (.repeat 1) rfl
    (fun t c hc k s hk => not_fails c (all_fine t c hc) 1 _ rfl k s hk) _ says
  obtain ⟨rfl, h4⟩ := h3 hfin
  exact ⟨sink, out, lines, h1, by rw [h2, List.append_nil], h4 0, h4 1⟩

/-- The hypotheses of `C67_streams`, for both streams. -/
example (st : Console.Stream) (schedule : List Nat) :
    ∃ printed current,
      (run (programs inputs) handlers schedule).res (.stream st) = .stream (printed.flatMap (·.2) ++ current)
      ∧ byThread 0 printed <+: [ch! "a\n", ch! "c\n"] ∧ byThread 1 printed <+: [ch! "b\n"] := by
  have hn : ∀ t, 2 ≤ t → calls t = [] := fun t ht => by
    match t, ht with
    | t + 2, _ => rfl
  obtain ⟨printed, current, h1, h2, -, -⟩ := C67_streams process handlers 2 calls hn _ programs_eq schedule st
    (fun t c hc => not_fails c (all_fine t c hc)) _ (shows st)
  exact ⟨printed, current, h1, h2 0, h2 1⟩

/-- Thread 1 finds its file broken. -/
def brokenCalls : Nat → List Call
  | 0 => [call (ch! "a") fine]
  | 1 => [call (ch! "b") broken]
  | _ => []

def brokenInputs : Nat → List (Str × Reply)
  | 0 => [(ch! "a", fine)]
  | 1 => [(ch! "b", broken)]
  | _ => []

theorem broken_programs : ∀ t, program process handlers (brokenCalls t) = .ok (programs brokenInputs t)
  | 0 => rfl
  | 1 => rfl
  | _ + 2 => rfl

/-- The hypotheses of `C67_reports`. -/
example : ∃ op, Lock.In (programs brokenInputs 1) op ∧ op.what = none :=
  ⟨report (.throwStd (ch! "no")), ⟨_, List.mem_cons_of_mem _ List.mem_cons_self, _, List.mem_cons_self, .inr List.mem_cons_self⟩, rfl⟩

/-- Thread 1 prints its line and tries to write to the file; thread 0 prints half of its line; thread 1 reports the error;
thread 0 goes on. -/
def schedule : List Nat :=
  List.replicate 17 1 ++ [0, 0] ++ List.replicate 40 1 ++ List.replicate 40 0

end Example

set_option maxRecDepth 100000 in
/-- **C67 fails for reports of errors.** They are printed to the standard output without the mutex of the console sinks: a
report can come into the middle of a line of another thread. Here the line `a` is nowhere on the standard output, although
the sink printed it. -/
theorem C67_fails_report : ∃ (p : Process) (hs : List Handler) (calls : Nat → List Call) (programs : Nat → List (List Task))
    (schedule : List Nat) (printed : Str),
    (∀ t, program p hs (calls t) = .ok (programs t))
    ∧ Both (Shown p hs .stdout) (calls 0) [[ch! "a\n"]]
    ∧ (run programs hs schedule).finished
    ∧ (run programs hs schedule).res (.stream .stdout) = .stream printed
    ∧ printed = ch! "b\nalogging core error occurred: no\n\n"
    ∧ ∀ before after, printed ≠ before ++ ch! "a\n" ++ after := by
  refine ⟨Pipeline.Example.process, Example.handlers, Example.brokenCalls, _, Example.schedule,
    ch! "b\nalogging core error occurred: no\n\n", Example.broken_programs,
    .cons ?_ .nil, ?_, rfl, rfl, ?_⟩
  · exact Shown.accepted (st := .stdout) (Example.accepted (ch! "a") fine) (hs := Example.handlers)
      (texts := [ch! "a", ch! "a"]) (.cons (Pipeline.renders_iff.2 rfl) (.cons (Pipeline.renders_iff.2 rfl) .nil))
  · intro t
    match t with
    | 0 => rfl
    | 1 => rfl
    | t + 2 => rfl
  · intro before after h
    have : ch! "a\n" <:+: ch! "b\nalogging core error occurred: no\n\n" := ⟨before, after, h.symm⟩
    revert this
    decide

end Blackhole.Shared
