import Verif.Ostream.DevLemmas
import Verif.Dev.Props

/-!
# C80 and C81: standard streams that fail or have formatting flags

C80: a failing standard stream does not disturb the program. This holds as long as the program has not enabled exceptions on
the stream; otherwise an exception can leave the log call, and can end the process.

C81: what is printed does not depend on the formatting flags that the program has set on the stream. This holds for text
without colours only.
-/

namespace Blackhole.Ostream

open Console (Color)
open Rec

/-! ## C80: streams that fail -/

/-- With the default mask every sequence of emits returns, whatever the device does. The device gets a beginning of the lines,
all of them if the stream is still good, nothing if it was not good before; and a device that works gets everything. -/
theorem C80_lines_partial (s : Stream) (hm : s.mask = Mask.none) (hf : s.format.Plain) (jobs : List Job) :
    ∃ s' p, runJobs s jobs = some s' ∧ s'.mask = Mask.none ∧ s'.out = s.out ++ p ∧ p <+: jobs.flatMap Job.line ∧
      (s'.good = true → p = jobs.flatMap Job.line) ∧ (s.good = false → p = []) ∧
      (s.good = true → s.faults = [] → s'.good = true) := by
  have key : ∃ s', runJobs s jobs = some s' ∧ Did s (jobs.flatMap Job.line) s.format s' := by
    induction jobs generalizing s with
    | nil => exact ⟨s, rfl, Did.refl s⟩
    | cons j jobs ih =>
      obtain ⟨s1, h1, h2⟩ := emit_did hm hf j
      have hm1 : s1.mask = Mask.none := by rw [h2.mask]; exact hm
      cases hg : s1.good with
      | true =>
        have hf1 : s1.format = s.format := (h2.good hg).2
        obtain ⟨s2, h3, h4⟩ := ih s1 hm1 (by rw [hf1]; exact hf)
        refine ⟨s2, by simp only [runJobs, h1, h3], ?_⟩
        rw [hf1] at h4
        exact h2.trans h4
      | false =>
        -- nothing more is printed, whatever the format is
        have silent : ∀ (js : List Job) (t : Stream), t.mask = Mask.none → t.good = false →
            ∃ t', runJobs t js = some t' ∧ t'.mask = Mask.none ∧ t'.good = false ∧ t'.out = t.out := by
          intro js
          induction js with
          | nil => intro t h h'; exact ⟨t, rfl, h, h', rfl⟩
          | cons j js ih' =>
            intro t h h'
            obtain ⟨a, b⟩ := runOps_none h (emitOps j.sink j.tty j.severity j.text)
            have e := emit_none h j.sink j.tty j.severity j.text
            obtain ⟨p, p1, -, -, p4⟩ := b.out
            have hg' : (runOps t (emitOps j.sink j.tty j.severity j.text)).1.good = false := by
              cases hx : (runOps t (emitOps j.sink j.tty j.severity j.text)).1.good with
              | false => rfl
              | true => rw [(b.good hx).1] at h'; cases h'
            obtain ⟨t', q1, q2, q3, q4⟩ := ih' _ (by rw [b.mask]; exact h) hg'
            exact ⟨t', by simp only [runJobs, e, q1], q2, q3, by rw [q4, p1, p4 h', List.append_nil]⟩
        obtain ⟨s2, q1, q2, q3, q4⟩ := silent jobs s1 hm1 hg
        obtain ⟨p, p1, p2, p3, p4⟩ := h2.out
        refine ⟨s2, by simp only [runJobs, h1, q1], ?_⟩
        rw [List.flatMap_cons]
        refine ⟨by rw [q2, hm], ⟨p, by rw [q4, p1], p2.trans (List.prefix_append _ _), ?_, p4⟩, ?_, ?_⟩
        · intro h; rw [q3] at h; cases h
        · intro h; rw [q3] at h; cases h
        · intro h h'
          rw [(h2.clear h h').1] at hg; cases hg
  obtain ⟨s', h1, h2⟩ := key
  obtain ⟨p, p1, p2, p3, p4⟩ := h2.out
  exact ⟨s', p, h1, by rw [h2.mask, hm], p1, p2, p3, p4, fun a b => (h2.clear a b).1⟩

/-- The handler for development, with the default mask: it ends as `Verif.Dev` says and never with a failure of the stream,
and the device gets a beginning of the text that `Verif.Dev` says. -/
theorem C80_dev_partial (s : Stream) (hm : s.mask = Mask.none) (hf : s.format.Plain) (hb : s.format.boolalpha = false)
    (env : Env) (libc : Date.Libc) (dtoa : Format → Nat → Str) (tty : Bool) (r : Record) :
    ∃ s' p, devHandle env libc dtoa tty r s = (s', devEnd (Dev.handle env libc (dtoa s.format) tty r).2) ∧
      s'.mask = Mask.none ∧ s'.out = s.out ++ p ∧ p <+: (Dev.handle env libc (dtoa s.format) tty r).1 ∧
      (s'.good = true → p = (Dev.handle env libc (dtoa s.format) tty r).1) ∧ (s.good = false → p = []) := by
  obtain ⟨h1, h2⟩ := same_dev hf hb env libc dtoa tty r
  obtain ⟨h3, h4⟩ := runOps_none hm (okPrefix (devOps env libc dtoa tty r)).1
  rw [h1] at h4
  obtain ⟨p, p1, p2, p3, p4⟩ := h4.out
  refine ⟨_, p, ?_, by rw [h4.mask, hm], p1, p2, p3, p4⟩
  unfold devHandle
  rw [runTokens_eq, h3, h2]
  rfl

/-- A log call with the default mask: it returns and every handler is called, however the handlers end and whatever state the
stream is in, as long as the handlers do not enable exceptions on the stream or end the process. -/
theorem C80_call_partial (handlers : List Handler) (n : Nat) (s : Stream) (hm : s.mask = Mask.none)
    (hh : ∀ h ∈ handlers, ∀ t : Stream, t.mask = Mask.none → (h t).1.mask = Mask.none ∧ (h t).2 ≠ .terminated) :
    ∃ s', handleAll s n handlers = (s', n + handlers.length, .returned) := by
  induction handlers generalizing s n with
  | nil => exact ⟨s, rfl⟩
  | cons h hs ih =>
    have ih := fun n s hm => ih n s hm (fun h hx => hh h (List.mem_cons_of_mem _ hx))
    obtain ⟨h1, h2⟩ := hh h (List.mem_cons_self ..) s hm
    rw [handleAll]
    rcases hr : h s with ⟨s1, e⟩
    rw [hr] at h1 h2
    have len : n + (h :: hs).length = n + 1 + hs.length := by simp only [List.length_cons]; omega
    cases e with
    | returned =>
      simp only
      rw [len]
      exact ih (n + 1) s1 h1
    | terminated => exact absurd rfl h2
    | threw what =>
      simp only
      obtain ⟨h3, h4⟩ := runOps_none h1 (report what)
      rcases hq : runOps s1 (report what) with ⟨s2, b⟩
      rw [hq] at h3 h4
      simp only at h3 h4
      subst h3
      simp only
      rw [len]
      exact ih (n + 1) s2 (by rw [h4.mask, h1])

/-- Handlers that print to console sinks are such handlers; each of their sinks emits the text, in order. -/
theorem C80_blocking_partial (failure : Str) (tty : Bool) (severity : Int) (text : Str) (sinks : List Console.Sink) (t : Stream)
    (hm : t.mask = Mask.none) :
    ∃ t', blocking failure tty severity text sinks t = (t', .returned) ∧ t'.mask = Mask.none ∧
      runJobs t (sinks.map fun sink => ⟨sink, tty, severity, text⟩) = some t' := by
  induction sinks generalizing t with
  | nil => exact ⟨t, rfl, hm, rfl⟩
  | cons sink sinks ih =>
    obtain ⟨t', h1, h2, h3⟩ := ih (runOps t (emitOps sink tty severity text)).1 (by rw [(runOps_none hm _).2.mask, hm])
    refine ⟨t', ?_, h2, ?_⟩
    · rw [blocking, emit_none hm]
      exact h1
    · simp only [List.map_cons, runJobs, emit_none hm]
      exact h3

/-- What is printed about a handler that throws, on a good stream without a pending width whose device works; with any mask. -/
theorem C80_report_partial (h : Handler) (hs : List Handler) (n : Nat) (s s1 : Stream) (what : Option Str)
    (hh : h s = (s1, .threw what)) (hg : s1.good = true) (hd : s1.faults = []) (hw : s1.format.width = 0) :
    handleAll s n (h :: hs) =
      handleAll { s1 with out := s1.out ++ ch! "logging core error occurred: " ++ what.getD (ch! "unknown") ++ ch! "\n" }
        (n + 1) hs := by
  have hz : { s1.format with width := 0 } = s1.format := by
    generalize s1.format = f at hw
    cases f
    simp only at hw
    rw [hw]
  rw [handleAll, hh]
  simp only
  rw [runOps_clear hg hd]
  cases what with
  | none => simp [report, plan, planFormat, endl, hz, text_plain hw, List.append_assoc]
  | some w => simp [report, plan, planFormat, endl, hz, text_plain hw, List.append_assoc]

/-- **The process ends** on a stream that is not flushed after every operation (such as `std::cout`) exactly if a record is
printed in a colour on a terminal, and either exceptions are enabled for
`badbit` and the device takes the colour but not the text, or they are enabled for `failbit` alone and the device takes the
colour but for its last character. -/
theorem C80_terminates_iff (s : Stream) (hu : s.unit = false) (sink : Console.Sink) (tty : Bool) (severity : Int) (m : Str) :
    (emit sink tty severity m s).2 = .terminated ↔
      sink.filter severity ≠ .deny ∧ tty = true ∧ sink.mapping severity ≠ ⟨0, 39⟩ ∧ s.good = true ∧
      ((s.mask.bad = true ∧ m ≠ [] ∧ ∃ k rest, s.faults = [none, none, none, some k] ++ rest) ∨
       (s.mask.bad = false ∧ s.mask.fail = true ∧ ∃ k rest, s.faults = [none, none, some k] ++ rest)) := by
  rw [emit_terminated, core_write_terminated _ _ hu]
  have : m.isEmpty = false ↔ m ≠ [] := by cases m <;> simp
  rw [this, good_iff]
  simp only [Stream.core, List.cons_append, List.nil_append, and_assoc]

/-- The same for a stream that is flushed after every operation, such as `std::cerr`. Each of the three parts of the colour
is a transfer and a flush; here a flush of the last part that fails is enough, since the sentry tells nobody of it. -/
theorem C80_terminates_iff_unit (s : Stream) (hu : s.unit = true) (sink : Console.Sink) (tty : Bool) (severity : Int)
    (m : Str) :
    (emit sink tty severity m s).2 = .terminated ↔
      sink.filter severity ≠ .deny ∧ tty = true ∧ sink.mapping severity ≠ ⟨0, 39⟩ ∧ s.good = true ∧
      ((s.mask.bad = true ∧ m ≠ [] ∧ ∃ k rest, s.faults = List.replicate 6 none ++ some k :: rest) ∨
       ((s.mask.bad = true ∨ s.mask.fail = true) ∧ ∃ k rest, s.faults = List.replicate 5 none ++ some k :: rest) ∨
       (s.mask.bad = false ∧ s.mask.fail = true ∧ ∃ k rest, s.faults = List.replicate 4 none ++ some k :: rest)) := by
  rw [emit_terminated, core_write_terminated_unit _ _ hu]
  have : m.isEmpty = false ↔ m ≠ [] := by cases m <;> simp
  rw [this, good_iff]
  simp only [Stream.core, List.replicate, List.cons_append, List.nil_append, and_assoc]

/-- Standard error with exceptions enabled for `badbit`: its device takes the colour red but cannot flush it. -/
example : (emit ⟨.stderr, Console.zen, fun _ => Color.red⟩ true 3 (ch! "text")
    ⟨[], List.replicate 5 none ++ [some 0], false, false, ⟨true, false⟩, Format.default, true⟩).2 = .terminated := by decide

/-- Standard error as it is at the start of a program: the line comes out although the flushes take their turns, and up to
the character at which the device fails. -/
example :
    (runJobs ⟨[], List.replicate 20 none, false, false, Mask.none, Format.default, true⟩
      [⟨⟨.stderr, Console.zen, fun _ => Color.red⟩, true, 3, ch! "one"⟩]).map (·.out) = some (ch! "\x1b[31mone\x1b[0m\n")
    ∧ (runJobs ⟨[], List.replicate 6 none ++ [some 2], false, false, Mask.none, Format.default, true⟩
      [⟨⟨.stderr, Console.zen, fun _ => Color.red⟩, true, 3, ch! "one"⟩]).map (·.out) = some (ch! "\x1b[31mon") := by
  decide

/-- So it does. -/
theorem C80_fails_terminated : ∃ (s : Stream) (sink : Console.Sink) (m : Str), s.good = true ∧ s.format = Format.default ∧
    (emit sink true 3 m s).2 = .terminated :=
  ⟨⟨[], [none, none, none, some 1], false, false, ⟨true, false⟩, Format.default, false⟩,
   ⟨.stdout, Console.zen, fun _ => Color.red⟩, ch! "disk full", rfl, rfl, by decide⟩

/-- **An exception leaves the log call**, and the handlers behind are not called: always if exceptions are enabled for `badbit`
on the standard output, the first handler prints a text without colours there and the device fails. -/
theorem C80_fails_caller (s : Stream) (hm : s.mask.bad = true) (hg : s.good = true) (k : Nat) (rest : List (Option Nat))
    (hd : s.faults = some k :: rest) (failure : Str) (sink : Console.Sink) (sinks : List Console.Sink) (severity : Int)
    (c : Char) (text : Str) (ha : sink.filter severity ≠ .deny) (handlers : List Handler) :
    (handleAll s 0 (blocking failure false severity (c :: text) (sink :: sinks) :: handlers)).2 = (1, .threw) := by
  obtain ⟨hb, hf⟩ := good_iff.1 hg
  have h1 : (Op.raw (c :: text)).run s = ({ s with out := s.out ++ (c :: text).take k, faults := rest, bad := true }, true) := by
    simp [Op.run, Stream.settle, Op.act, hg, Stream.put, hd, Stream.after, Stream.throws, hm]
  have h2 : emit sink false severity (c :: text) s =
      ({ s with out := s.out ++ (c :: text).take k, faults := rest, bad := true }, .threw) := by
    unfold emit
    split
    · rename_i h; exact absurd h ha
    · rw [if_neg (by simp), runOps, h1]
      rfl
  rw [handleAll, blocking, h2]
  simp only [report, List.cons_append, runOps, Op.run, Stream.settle, Op.act, Stream.good, Stream.throws, hm, Bool.not_true, Bool.false_and,
    Bool.and_false, Bool.false_eq_true, if_false, Bool.and_self, Bool.true_or]

/-- An instance of the last theorem: standard output is full, and the second handler never gets the record. -/
example :
    (handleAll ⟨[], [some 2], false, false, ⟨true, false⟩, Format.default, false⟩ 0
      [blocking (ch! "basic_ios::clear") false 3 (ch! "disk full") [⟨.stdout, Console.zen, fun _ => Color.default⟩],
       fun s => (s, .returned)]).2 = (1, .threw) := by decide

/-- The same with the default mask: both handlers are called, and two characters are printed. -/
example :
    let r := handleAll ⟨[], [some 2], false, false, Mask.none, Format.default, false⟩ 0
      [blocking (ch! "basic_ios::clear") false 3 (ch! "disk full") [⟨.stdout, Console.zen, fun _ => Color.default⟩],
       fun s => (s, .returned)]
    r.2 = (2, .returned) ∧ r.1.out = ch! "di" := by decide

/-- The device works again, but the stream stays bad: the second line is lost. -/
example : (runJobs ⟨[], [some 1], false, false, Mask.none, Format.default, false⟩
    [⟨⟨.stdout, Console.zen, fun _ => Color.red⟩, false, 3, ch! "one"⟩,
     ⟨⟨.stdout, Console.zen, fun _ => Color.red⟩, true, 3, ch! "two"⟩]).map (·.out) = some (ch! "o") := by decide

/-! ## C81: formatting flags -/

/-- The operations of one emit on a good stream with a device that works. -/
theorem emit_clear {s : Stream} (hg : s.good = true) (hd : s.faults = []) (sink : Console.Sink) (tty : Bool) (severity : Int)
    (m : Str) : emit sink tty severity m s =
      ({ s with out := s.out ++ plan s.format (emitOps sink tty severity m),
                format := planFormat s.format (emitOps sink tty severity m) }, .returned) := by
  have key : ∀ (o : Str) (f : Format) (ops : List Op), runOps { s with out := o, format := f } ops =
      ({ s with out := o ++ plan f ops, format := planFormat f ops }, false) :=
    fun o f ops => runOps_clear (s := { s with out := o, format := f }) hg hd ops
  unfold emit emitOps
  cases sink.filter severity with
  | deny => simp [plan, planFormat]
  | _ =>
    simp only
    cases tty with
    | false =>
      simp only [Bool.false_eq_true, false_and, if_false]
      rw [runOps_clear hg hd]
      rfl
    | true =>
      simp only [if_true, true_and]
      unfold write
      cases (sink.mapping severity).colored with
      | true =>
        simp only [if_true]
        rw [runOps_clear hg hd]
        simp only [key, Bool.false_and, Bool.false_eq_true, if_false, Bool.or_false, plan_append, planFormat_append, ending,
          List.append_assoc]
      | false =>
        simp only [Bool.false_eq_true, if_false]
        rw [runOps_clear hg hd]
        simp only [key, ending, Bool.false_eq_true, if_false, plan_append, planFormat_append, List.append_assoc]

/-- Text without colours is printed as it is, whatever the formatting state is, and the state stays. -/
theorem C81_text_partial (s : Stream) (hg : s.good = true) (hd : s.faults = []) (sink : Console.Sink) (tty : Bool) (severity : Int)
    (m : Str) (ha : sink.filter severity ≠ .deny) (hc : tty = false ∨ sink.mapping severity = ⟨0, 39⟩) :
    emit sink tty severity m s = ({ s with out := s.out ++ m ++ ['\n'] }, .returned) := by
  rw [emit_clear hg hd]
  have : emitOps sink tty severity m = [.raw m] ++ endl := by
    unfold emitOps
    split
    · rename_i h; exact absurd h ha
    · rw [if_neg]
      rintro ⟨h1, h2⟩
      rcases hc with hc | hc
      · rw [hc] at h1; cases h1
      · exact (colored_iff _).1 h2 hc
  rw [this]
  simp [plan, planFormat, endl]

/-- Coloured text on a terminal, for every formatting state: the width is used up by the first two characters, and the numbers of
the colour and of the reset are printed in the base of the stream. -/
theorem C81_coloured_partial (s : Stream) (hg : s.good = true) (hd : s.faults = []) (sink : Console.Sink) (severity : Int)
    (m : Str) (ha : sink.filter severity ≠ .deny) (hc : sink.mapping severity ≠ ⟨0, 39⟩) :
    emit sink true severity m s =
      ({ s with out := s.out ++ Format.text (ch! "\x1b[") s.format ++
                  Format.int 32 (sink.mapping severity).code { s.format with width := 0 } ++ ch! "m" ++ m ++
                  ch! "\x1b[" ++ Format.int 32 0 { s.format with width := 0 } ++ ch! "m\n",
                format := { s.format with width := 0 } }, .returned) := by
  rw [emit_clear hg hd]
  have : emitOps sink true severity m =
      colour (sink.mapping severity) ++ ([.raw m] ++ (colour Color.reset ++ endl)) := by
    unfold emitOps
    split
    · rename_i h; exact absurd h ha
    · rw [if_pos ⟨rfl, (colored_iff _).2 hc⟩]
  rw [this]
  have ht : ∀ t : Str, Format.text t { s.format with width := 0 } = t := fun t => text_plain rfl t
  simp [plan, planFormat, endl, colour, ht, Color.reset, List.append_assoc]

/-- So with decimal numbers, no plus signs and no width it is the line of C36. -/
theorem C81_plain_partial (s : Stream) (hg : s.good = true) (hd : s.faults = []) (hf : s.format.Plain) (sink : Console.Sink)
    (tty : Bool) (severity : Int) (m : Str) (ha : sink.filter severity ≠ .deny) :
    emit sink tty severity m s = ({ s with out := s.out ++ line tty (sink.mapping severity) m }, .returned) := by
  rw [emit_clear hg hd, planFormat_plain hf]
  have := emitOps_line hf ⟨sink, tty, severity, m⟩
  simp only [Job.line] at this
  rw [if_neg (show ¬ Job.denied ⟨sink, tty, severity, m⟩ from ha)] at this
  rw [this]

/-- After `std::cout << std::hex` red is sequence 1f, and a pending width fills the escape sequence. -/
theorem C81_fails_coloured : ∃ sink : Console.Sink,
    (emit sink true 3 (ch! "text") ⟨[], [], false, false, Mask.none, { Format.default with base := .hex }, false⟩).1.out
      = ch! "\x1b[1fmtext\x1b[0m\n" ∧
    (emit sink true 3 (ch! "text") ⟨[], [], false, false, Mask.none, { Format.default with width := 4 }, false⟩).1.out
      = ch! "  \x1b[31mtext\x1b[0m\n" ∧
    line true (sink.mapping 3) (ch! "text") = ch! "\x1b[31mtext\x1b[0m\n" :=
  ⟨⟨.stdout, Console.zen, fun _ => Color.red⟩, by decide, by decide, by decide⟩

/-- The handler for development prints what C68 says if numbers are decimal without plus signs, there is no width and values of
type `bool` are numbers. -/
theorem C81_dev_partial (s : Stream) (hg : s.good = true) (hd : s.faults = []) (hf : s.format.Plain)
    (hb : s.format.boolalpha = false) (env : Env) (libc : Date.Libc) (dtoa : Format → Nat → Str) (tty : Bool) (r : Record) :
    devHandle env libc dtoa tty r s =
      ({ s with out := s.out ++ (Dev.handle env libc (dtoa s.format) tty r).1 },
        devEnd (Dev.handle env libc (dtoa s.format) tty r).2) := by
  obtain ⟨h1, h2⟩ := same_dev hf hb env libc dtoa tty r
  unfold devHandle
  rw [runTokens_eq, runOps_clear hg hd, h2, planFormat_plain hf, h1]
  rfl

/-- The numbers that it prints are in the base of the stream: after `std::cout << std::hex` thread 255 of process 42 is ff/2a and
the attribute -1 is shown as 16 digits. -/
theorem C81_fails_dev (env : Env) (hpid : env.pid = 42) (libc : Date.Libc) (dtoa : Format → Nat → Str) (time : Str)
    (ht : Dev.timestamp env libc 0 = .ok time) :
    (devHandle env libc dtoa false
      { message := .at (ch! "hello") [], severity := 3, timestamp := 0, tid := 255,
        pack := [[(.at (ch! "n") [], .sint (-1))]] }
      ⟨[], [], false, false, Mask.none, { Format.default with base := .hex }, false⟩).1.out =
        time ++ ch! " E ff/2a - hello\n    n               : ffffffffffffffff\n" := by
  unfold devHandle
  rw [runTokens_eq, runOps_clear rfl rfl]
  have hn : Dev.name env (.at (ch! "n") []) = .ok (ch! "    n               : ") := Dev.name_text ..
  simp only [devOps, colorize, Bool.false_eq_true, if_false, List.nil_append, List.append_nil, List.cons_append, ht, Except.map,
    List.flatten_cons, List.flatten_nil, List.flatMap_cons, List.flatMap_nil, attrOps, hn, endl, List.map_cons, List.map_nil,
    okPrefix, plan, value, hpid, List.append_assoc]
  refine congrArg (time ++ ·) ?_
  decide

end Blackhole.Ostream
