import Verif.Dev.Props
import Verif.Lock.Text

/-! # The handler for development on several threads: C68 -/

namespace Blackhole.Dev

open Rec Console
open Lock (byThread)

/-- The two static mutexes: of the handlers for development (src/handler/dev.cpp:31, 187) and of the console sinks
(src/sink/console.cpp:34, 100). -/
inductive Mutex where
  | dev
  | console
  deriving DecidableEq, Repr

/-- What a thread prints to the standard output (src/handler/dev.cpp:184-193, src/sink/console.cpp:90-109): a record through a handler for development (it may end by an exception;
then it is what was printed before), or a text through a console sink. -/
inductive Job where
  | dev (r : Record)
  | console (s : Console.Sink) (severity : Int) (text : Str)

/-- The mutex that is held and what is printed meanwhile (src/handler/dev.cpp:184-193, src/sink/console.cpp:90-109). -/
def Job.printed (env : Env) (libc : Date.Libc) (dtoa : Nat → Str) (tty : Bool) : Job → Mutex × Str
  | .dev r => (.dev, (handle env libc dtoa tty r).1)
  | .console s severity text => (.console, s.output tty severity text)

/-- Threads with their jobs (src/handler/dev.cpp:184-193, src/sink/console.cpp:90-109), under a schedule
(`Lock/Model.lean`). -/
def run (env : Env) (libc : Date.Libc) (dtoa : Nat → Str) (tty : Bool) (jobs : Nat → List Job) (schedule : List Nat) :
    Lock.State Unit Mutex Str Str :=
  Lock.printRun (fun t => (jobs t).map (Job.printed env libc dtoa tty)) schedule

/-- **C68, several threads.** What the handlers for development of a process print is never mixed, whatever the schedule:
at any moment the standard output has whole outputs of records and the beginning of at most one more; each thread's
records come in its order, and in the end all of them are there. -/
theorem C68_whole (env : Env) (libc : Date.Libc) (dtoa : Nat → Str) (tty : Bool) (n : Nat) (records : Nat → List Record)
    (hn : ∀ t, n ≤ t → records t = []) (schedule : List Nat) :
    let s := run env libc dtoa tty (fun t => (records t).map .dev) schedule
    let outputs := fun t => (records t).map fun r => (handle env libc dtoa tty r).1
    ∃ (printed : List (Nat × Str)) (current : Str),
      s.res () = printed.flatMap (·.2) ++ current
      ∧ (∀ t, byThread t printed <+: outputs t)
      ∧ (current = [] ∨ ∃ t output, byThread t printed ++ [output] <+: outputs t ∧ current <+: output)
      ∧ (s.finished → current = [] ∧ ∀ t, byThread t printed = outputs t) := by
  have := Lock.whole_texts Mutex.dev n (fun t => (records t).map fun r => (handle env libc dtoa tty r).1)
    (fun t ht => by simp [hn t ht]) schedule
  have e : (fun t => ((records t).map fun r => (handle env libc dtoa tty r).1).map (Mutex.dev, ·))
      = fun t => ((records t).map Job.dev).map (Job.printed env libc dtoa tty) := by
    funext t; simp [Job.printed]
  rw [e] at this
  exact this

/-- **C68 fails with console sinks.** Console sinks have another mutex than handlers for development, although both claim
to synchronise the standard output: wherever the output of a record is cut, the line of a console sink can come in there. -/
theorem C68_fails_console (env : Env) (libc : Date.Libc) (dtoa : Nat → Str) (tty : Bool) (r : Record) (s : Console.Sink)
    (severity : Int) (text : Str) (a b : Str) (h : (handle env libc dtoa tty r).1 = a ++ b) :
    ∃ schedule,
      let jobs : Nat → List Job := fun t => if t = 0 then [.dev r] else if t = 1 then [.console s severity text] else []
      (run env libc dtoa tty jobs schedule).finished
      ∧ (run env libc dtoa tty jobs schedule).res () = a ++ s.output tty severity text ++ b := by
  refine Lock.mixed_texts Mutex.dev Mutex.console (by decide) a b _ _ ?_ rfl ?_
  · simp [Job.printed, h]
  · intro t ht
    have h0 : t ≠ 0 := by omega
    have h1 : t ≠ 1 := by omega
    simp [h0, h1]

/-! ## A concrete case -/

namespace Example

def env : Env := { fd := fun _ _ => .ok [], pid := 42, lwp := 1, procname := ch! "app", threadName := fun _ => none }

def record : Record :=
  { message := .at (ch! "hello") [], severity := 3, timestamp := 1000001500, tid := 7,
    pack := [[(.at (ch! "a name that is too long") [], .sint (-5))], [(.at (ch! "ok") [], .bool true)]] }

/-- The hypotheses of `C68_text`, `C68_visible` and `C68_reset`. -/
theorem case_exists : ∃ libc : Date.Libc, Date.GmtimeOk libc.toLibc ∧ ∃ conv, Date.Itemwise libc.strftime conv ∧ Date.Conversions conv
    ∧ handle env libc (fun _ => []) false record = (ch! "1970-01-01 00:00:01.000001 E 7/42 - hello\n\
        \x20   a name that is t: -5\n    ok              : 1\n", none)
    ∧ visible false (handle env libc (fun _ => []) true record).1 = (handle env libc (fun _ => []) false record).1
    ∧ inForce [] none (handle env libc (fun _ => []) true record).1 = ch! "\x1b[0m" := by
  obtain ⟨libc, conv, -, h1, -, h2, h3, -⟩ := Date.libc_exists 0
  have hplain := C68_text env libc h1 conv h2 h3 (fun _ => []) record 1000001500 rfl (by decide)
    [(ch! "a name that is too long", ch! "-5"), (ch! "ok", ch! "1")]
    (.cons ⟨rfl, .negative (n := 5) (by decide)⟩ (.cons ⟨rfl, .yes⟩ .nil))
  have htext : plain 1000001500 record.severity record.tid env.pid record.message.text
      [(ch! "a name that is too long", ch! "-5"), (ch! "ok", ch! "1")] = ch! "1970-01-01 00:00:01.000001 E 7/42 - hello\n\
        \x20   a name that is t: -5\n    ok              : 1\n" := by decide
  rw [htext] at hplain
  have hesc : '\x1b' ∉ (handle env libc (fun _ => []) false record).1 := by rw [hplain]; decide
  exact ⟨libc, h1, conv, h2, h3, hplain, (C68_visible env libc _ record hesc).1,
    C68_reset env libc h1 conv h2 h3 _ record 1000001500 rfl (by decide) hesc []⟩

end Example

end Blackhole.Dev
