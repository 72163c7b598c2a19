import Verif.Ostream.Lemmas
import Verif.FmtPrint.Spec
import Verif.Config.Lemmas

/-! # What printing does -/

namespace Blackhole.FmtPrint

open Fmt (Err Spec)
open FmtArgs (Passed)

theorem write_spec (f : File) (s : Str) :
    ∃ n, n ≤ s.length ∧ (f.write s).1.out = f.out ++ s.take n ∧ (f.write s).2 = n ∧ (f.takes = [] → n = s.length) := by
  unfold File.write
  cases h : f.takes with
  | nil => exact ⟨s.length, Nat.le_refl _, by simp, rfl, fun _ => rfl⟩
  | cons n ns =>
    refine ⟨(s.take n).length, by simp [List.length_take]; omega, ?_, rfl, by simp⟩
    simp [List.length_take]

theorem write_all (out s : Str) : (File.write ⟨out, []⟩ s).1 = ⟨out ++ s, []⟩ := rfl

/-- `print` gives the text that `format` returns to the stream, and returns: the stream ends with that text if it takes
everything, with the beginning of it otherwise. If `format` throws, `print` throws the same and the stream is as it was. -/
theorem C97_print (fd : Spec → Nat → Except Err Str) (p : Str) (args : List Passed) (f : File) :
    (∀ t, FmtArgs.format fd p args = .ok t →
      ((Call.print p args).run fd f).2 = .returned
        ∧ ∃ n ≤ t.length, ((Call.print p args).run fd f).1.out = f.out ++ t.take n ∧ (f.takes = [] → n = t.length))
      ∧ ∀ e, FmtArgs.format fd p args = .error e → (Call.print p args).run fd f = (f, .threw e) := by
  refine ⟨fun t h => ?_, fun e h => ?_⟩
  · obtain ⟨n, h1, h2, _, h4⟩ := write_spec f t
    simp only [Call.run, h]
    exact ⟨trivial, n, h1, h2, h4⟩
  · simp only [Call.run, h]

/-- A width, a name and a number, and an argument that is missing. -/
example (fd : Spec → Nat → Except Err Str) :
    FmtArgs.format fd (ch! "{0:>4}|{n}") [.val (.arg (.int 7)), .named (ch! "n") (.arg (.int 8))] = .ok (ch! "   7|8")
      ∧ FmtArgs.format fd (ch! "{}") [] = .error (.format (ch! "argument index out of range")) := ⟨rfl, rfl⟩

/-- `fprintf` gives the text that `sprintf` returns to the stream. If the text has fewer than 2^31 characters, it returns
their number if the stream took all of them and -1 exactly if it did not. If `sprintf` throws, `fprintf` throws the same and
the stream is as it was. -/
theorem C97_printf_partial (fd : Spec → Nat → Except Err Str) (p : Str) (args : List FmtArgs.Val) (f : File) :
    (∀ t, Printf.sprintf fd p args = .ok t → t.length < 2 ^ 31 →
      ∃ n ≤ t.length, ((Call.fprintf p args).run fd f).1.out = f.out ++ t.take n ∧ (f.takes = [] → n = t.length)
        ∧ ((Call.fprintf p args).run fd f).2 = .count (if n = t.length then t.length else -1))
      ∧ ∀ e, Printf.sprintf fd p args = .error e → (Call.fprintf p args).run fd f = (f, .threw e) := by
  refine ⟨fun t h ht => ?_, fun e h => ?_⟩
  · obtain ⟨n, h1, h2, h3, h4⟩ := write_spec f t
    simp only [Call.run, h]
    refine ⟨n, h1, h2, h4, ?_⟩
    rw [h3]
    by_cases hn : n = t.length
    · rw [if_neg (by omega), if_pos hn, toInt, if_pos (by omega)]
      congr 1; omega
    · rw [if_pos (by omega), if_neg hn]
  · simp only [Call.run, h]

/-- A number is written to a stream that takes everything, and to one that takes two characters. -/
example (fd : Spec → Nat → Except Err Str) :
    ((Call.fprintf (ch! "%05d") [.arg (.int (-42))]).run fd ⟨ch! "> ", []⟩) = (⟨ch! "> -0042", []⟩, .count 5)
      ∧ ((Call.fprintf (ch! "%05d") [.arg (.int (-42))]).run fd ⟨ch! "> ", [2]⟩) = (⟨ch! "> -0", []⟩, .count (-1)) :=
  ⟨rfl, rfl⟩

/-- A text without `%` is printed as it is. -/
theorem plain_text (fd : Spec → Nat → Except Err Str) (args : List FmtArgs.Val) (s : Str) (h : ∀ c ∈ s, c ≠ '%')
    (n : Nat) (hn : s.length ≤ n) (next : Fmt.Next) : Printf.formatLoop fd args n next s = .ok s := by
  induction s generalizing n with
  | nil => cases n <;> rfl
  | cons c s ih =>
    cases n with
    | zero => simp at hn
    | succ n =>
      rw [Printf.formatLoop, if_pos (h c List.mem_cons_self),
        ih (fun d hd => h d (List.mem_cons_of_mem _ hd)) n (by simpa using hn)]
      rfl

/-- The number that `fprintf` returns is an `int`: after a text of 2^32 - 1 characters that was written completely, it
returns -1 as if the stream had failed. -/
theorem C97_fails_count (fd : Spec → Nat → Except Err Str) :
    ∃ p, Printf.sprintf fd p [] = .ok p ∧ p.length = 2 ^ 32 - 1
      ∧ (Call.fprintf p []).run fd ⟨[], []⟩ = (⟨p, []⟩, .count (-1)) := by
  suffices key : ∀ n, toInt n = -1 → ∃ p, Printf.sprintf fd p [] = .ok p ∧ p.length = n
      ∧ (Call.fprintf p []).run fd ⟨[], []⟩ = (⟨p, []⟩, .count (-1)) from key _ (by decide)
  intro n hn
  have h : Printf.sprintf fd (List.replicate n 'a') [] = .ok (List.replicate n 'a') := by
    unfold Printf.sprintf
    simp only
    rw [Config.cstr_plain (by intro hm; exact absurd (List.eq_of_mem_replicate hm) (by decide))]
    exact plain_text fd [] _ (by intro c hc; rw [List.eq_of_mem_replicate hc]; decide) _ (Nat.le_refl _) _
  refine ⟨List.replicate n 'a', h, List.length_replicate, ?_⟩
  simp only [Call.run, h, File.write, List.length_replicate, List.nil_append]
  rw [if_neg (Nat.lt_irrefl _), hn]

/-- `print` returns in the same way whether the stream took the text or not: for every text there is a stream that takes
nothing of it. -/
theorem C97_fails_silent (fd : Spec → Nat → Except Err Str) (p : Str) (args : List Passed) (t out : Str)
    (h : FmtArgs.format fd p args = .ok t) :
    ((Call.print p args).run fd ⟨out, [0]⟩) = (⟨out, []⟩, .returned) := by
  simp only [Call.run, h, File.write, List.take_zero, List.append_nil]

example (fd : Spec → Nat → Except Err Str) : FmtArgs.format fd (ch! "{}!") [.val (.arg (.int 1))] = .ok (ch! "1!") := rfl

/-- `print` to a standard stream that is in good state and takes everything writes the text and leaves the formatting state
alone; if `format` throws, the stream is as it was; a stream that has failed before stays without the text; and
`std::ios_base::failure` is thrown only if the program has asked the stream for it. -/
theorem C97_stream (fd : Spec → Nat → Except Err Str) (p : Str) (args : List Passed) (s : Ostream.Stream) :
    (∀ t, FmtArgs.format fd p args = .ok t → s.bad = false → s.fail = false → s.faults = [] →
      printStream fd p args s = ({ s with out := s.out ++ t }, .ok ()))
      ∧ (∀ e, FmtArgs.format fd p args = .error e → printStream fd p args s = (s, .error (some e)))
      ∧ (∀ t, FmtArgs.format fd p args = .ok t → (s.bad = true ∨ s.fail = true) →
        (printStream fd p args s).1 = { s with fail := true })
      ∧ ((printStream fd p args s).2 = .error none → s.mask.bad = true ∨ s.mask.fail = true) := by
  refine ⟨fun t h hb hf ht => ?_, fun e h => ?_, fun t h hs => ?_, fun h => ?_⟩
  · have hr := Ostream.run_clear (s := s) (by simp [Ostream.Stream.good, hb, hf]) ht (.raw t)
    simp only [printStream, h, hr]
    simp [Ostream.plan, Ostream.planFormat]
  · simp only [printStream, h]
  · have hg : s.good = false := by rcases hs with hs | hs <;> simp [Ostream.Stream.good, hs]
    have ha : (Ostream.Op.raw t).run s = ({ s with fail := true }, Ostream.Stream.throws { s with fail := true }) := by
      rw [Ostream.Op.run, Ostream.Op.act, if_neg (by rw [hg]; simp)]
      simp [Ostream.Stream.settle, Ostream.Stream.good]
    simp only [printStream, h, ha]
    cases Ostream.Stream.throws { s with fail := true } <;> rfl
  · unfold printStream at h
    split at h
    · rename_i t _
      cases hr : (Ostream.Op.raw t).run s with
      | mk s' b =>
        rw [hr] at h
        cases b with
        | false => simp at h
        | true =>
          have hb : ((Ostream.Op.raw t).run s).2 = true := by rw [hr]
          rw [Ostream.Op.run, Ostream.settle_thrown] at hb
          unfold Ostream.Op.act at hb
          by_cases hg : s.good = true
          · rw [if_pos hg] at hb
            have hm : (s.put t).1.mask = s.mask := by
              cases t with
              | nil => rfl
              | cons c t =>
                unfold Ostream.Stream.put
                cases s.faults with
                | nil => rfl
                | cons k fs => cases k <;> rfl
            simp only [Ostream.Stream.after] at hb
            split at hb
            · cases hb
            · simp only [Ostream.Stream.throws, hm, Bool.or_eq_true, Bool.and_eq_true] at hb
              exact hb.imp And.left And.left
          · rw [if_neg hg] at hb
            simp only [Ostream.Stream.throws, Bool.or_eq_true, Bool.and_eq_true] at hb
            exact hb.imp And.left And.left
    · cases h

/-- A stream that throws when it fails, and one that has failed. -/
example (fd : Spec → Nat → Except Err Str) :
    printStream fd (ch! "{}") [.val (.arg (.int 42))] ⟨[], [some 1], false, false, ⟨true, false⟩, .default, false⟩
        = (⟨['4'], [], true, false, ⟨true, false⟩, .default, false⟩, .error none)
      ∧ printStream fd (ch! "{}") [.val (.arg (.int 42))] ⟨[], [], true, false, ⟨false, false⟩, .default, false⟩
        = (⟨[], [], true, true, ⟨false, false⟩, .default, false⟩, .ok ()) := ⟨rfl, rfl⟩

/-! ## Colours -/

theorem shown_text (colour : Option Nat) (t s : Str) (h : '\x1b' ∉ t) :
    shown colour (t ++ s) = (painted colour t ++ (shown colour s).1, (shown colour s).2) := by
  induction t with
  | nil => rfl
  | cons c t ih =>
    have hc : c ≠ '\x1b' := fun e => h (e ▸ List.mem_cons_self)
    have ht := ih (fun hm => h (List.mem_cons_of_mem _ hm))
    rw [List.cons_append, shown, ht]
    · rfl
    · intro d s' e; exact absurd e hc
    · intro s' e; exact absurd e hc

theorem shown_escape (colour : Option Nat) (c : Fin 8) (s : Str) : shown colour (escape c ++ s) = shown (some c.val) s := by
  show shown colour ('\x1b' :: '[' :: '3' :: _ :: 'm' :: s) = _
  rw [shown]
  congr 2
  revert c
  decide

theorem shown_reset (colour : Option Nat) (s : Str) : shown colour (reset ++ s) = shown none s := by
  show shown colour ('\x1b' :: '[' :: '0' :: 'm' :: s) = _
  rw [shown]

/-- On a stream that takes everything, `print_colored` shows the text that `format` returns in its colour, all that stood
there before as it was, and what comes after it in the colour of the terminal, if the text has no escape sequences of its
own and `format` does not throw. -/
theorem C97_colored_partial (fd : Spec → Nat → Except Err Str) (c : Fin 8) (p : Str) (args : List Passed) (before after t : Str)
    (h : FmtArgs.format fd p args = .ok t) (ht : '\x1b' ∉ t) (hb : '\x1b' ∉ before) :
    ∃ out, (Call.colored c p args).run fd ⟨before, []⟩ = (⟨out, []⟩, .returned)
      ∧ shown none (out ++ after)
        = (painted none before ++ painted (some c.val) t ++ (shown none after).1, (shown none after).2) := by
  refine ⟨before ++ escape c ++ t ++ reset, ?_, ?_⟩
  · simp only [Call.run, h, write_all]
  · rw [List.append_assoc, List.append_assoc, List.append_assoc, shown_text none before _ hb, shown_escape,
      shown_text _ t _ ht, shown_reset, List.append_assoc]

example (fd : Spec → Nat → Except Err Str) :
    FmtArgs.format fd (ch! "{}!") [.val (.arg (.int 1))] = .ok (ch! "1!") ∧ '\x1b' ∉ ch! "1!" ∧ '\x1b' ∉ ch! "> " :=
  ⟨rfl, by decide, by decide⟩

/-- If `format` throws, the colour stays: for every format string that is wrong for its arguments, what the program prints
next is shown in the colour of the text that was not printed. -/
theorem C97_fails_colour_left (fd : Spec → Nat → Except Err Str) (c : Fin 8) (p : Str) (args : List Passed) (e : Err)
    (h : FmtArgs.format fd p args = .error e) (after : Str) (ha : '\x1b' ∉ after) :
    ∃ out, (Call.colored c p args).run fd ⟨[], []⟩ = (⟨out, []⟩, .threw e)
      ∧ shown none (out ++ after) = (painted (some c.val) after, some c.val) := by
  refine ⟨escape c, ?_, ?_⟩
  · simp only [Call.run, h, write_all, List.nil_append]
  · rw [shown_escape]
    have := shown_text (some c.val) after [] ha
    simpa [shown] using this

example (fd : Spec → Nat → Except Err Str) :
    FmtArgs.format fd (ch! "{:d}") [.val (.arg (.cstr (ch! "x")))] = .error (.format (ch! "unknown format code 'd' for string")) :=
  rfl

/-! ## Threads -/

/-- The steps of a call add up to the call: giving its texts to the C library one after the other leaves the stream as the
call does. -/
theorem C97_steps (fd : Spec → Nat → Except Err Str) (c : Call) (f : File) : (c.run fd f).1 = f.writeAll (c.texts fd) := by
  cases c with
  | print p args => simp only [Call.run, Call.texts]; cases FmtArgs.format fd p args <;> rfl
  | colored col p args => simp only [Call.run, Call.texts]; cases FmtArgs.format fd p args <;> rfl
  | fprintf p args => simp only [Call.run, Call.texts]; cases Printf.sprintf fd p args <;> rfl

/-- Red text on a stream that takes seven characters in the second call. -/
example (fd : Spec → Nat → Except Err Str) :
    ((Call.colored 1 (ch! "{}") [.val (.arg (.int 12345678))]).run fd ⟨[], [9, 7]⟩).1.out
      = ch! "\x1b[31m1234567\x1b[0m" := rfl

theorem texts_plain (fd : Spec → Nat → Except Err Str) (c : Call) (h : c.Plain) : c.texts fd = (c.text? fd).toList := by
  cases c with
  | print p args => simp only [Call.texts, Call.text?]; cases FmtArgs.format fd p args <;> rfl
  | fprintf p args => simp only [Call.texts, Call.text?]; cases Printf.sprintf fd p args <;> rfl
  | colored => exact h.elim

theorem flat_plain (fd : Spec → Nat → Except Err Str) (cs : List Call) (h : ∀ c ∈ cs, c.Plain) :
    cs.flatMap (·.texts fd) = cs.filterMap (·.text? fd) := by
  induction cs with
  | nil => rfl
  | cons c cs ih =>
    rw [List.flatMap_cons, texts_plain fd c (h c List.mem_cons_self), ih (fun d hd => h d (List.mem_cons_of_mem _ hd)),
      List.filterMap_cons]
    cases c.text? fd <;> rfl

/-- What the threads have written so far, in which order. -/
theorem run_order (sched : List Nat) : ∀ s : State, s.file.takes = [] →
    ∃ order : List (Nat × Str), (s.run sched).file = ⟨s.file.out ++ (order.map (·.2)).flatten, []⟩
      ∧ ∀ t, s.left t = ofThread t order ++ (s.run sched).left t := by
  induction sched with
  | nil =>
    intro s hs
    refine ⟨[], ?_, fun t => rfl⟩
    cases s with
    | mk f l => cases f; simp only at hs; subst hs; simp [State.run]
  | cons u sched ih =>
    intro s hs
    cases hl : s.left u with
    | nil =>
      have : s.step u = s := by unfold State.step; rw [hl]
      rw [State.run, this]
      exact ih s hs
    | cons x xs =>
      have hw : s.file.write x = (⟨s.file.out ++ x, []⟩, x.length) := by
        unfold File.write; rw [hs]
      have hst : s.step u = { file := ⟨s.file.out ++ x, []⟩, left := fun v => if v = u then xs else s.left v } := by
        unfold State.step; rw [hl]; simp only [hw]
      rw [State.run, hst]
      obtain ⟨order, h1, h2⟩ := ih { file := ⟨s.file.out ++ x, []⟩, left := fun v => if v = u then xs else s.left v } rfl
      refine ⟨(u, x) :: order, ?_, fun t => ?_⟩
      · rw [h1]; simp
      · have := h2 t
        simp only at this
        by_cases ht : t = u
        · subst ht
          rw [if_pos rfl] at this
          rw [hl]
          have ho : ofThread t ((t, x) :: order) = x :: ofThread t order := by simp [ofThread]
          rw [ho, List.cons_append, ← this]
        · rw [if_neg ht] at this
          have hne : ¬ u = t := fun e => ht e.symm
          have ho : ofThread t ((u, x) :: order) = ofThread t order := by simp [ofThread, hne]
          rw [ho, ← this]

/-- Threads that print without colours to one stream that takes everything do not mix their texts: the stream ends with the
texts of all calls, each of them whole and once, in an order in which every thread's texts are in the order of its calls. -/
theorem C97_threads (fd : Spec → Nat → Except Err Str) (calls : Nat → List Call) (hp : ∀ t, ∀ c ∈ calls t, c.Plain)
    (out : Str) (sched : List Nat) (hd : ((State.start fd ⟨out, []⟩ calls).run sched).Done) :
    ∃ order : List (Nat × Str),
      ((State.start fd ⟨out, []⟩ calls).run sched).file.out = out ++ (order.map (·.2)).flatten
        ∧ ∀ t, ofThread t order = (calls t).filterMap (·.text? fd) := by
  obtain ⟨order, h1, h2⟩ := run_order sched (State.start fd ⟨out, []⟩ calls) rfl
  refine ⟨order, ?_, fun t => ?_⟩
  · rw [h1]; rfl
  · have := h2 t
    rw [hd t, List.append_nil] at this
    rw [← this]
    exact flat_plain fd (calls t) (hp t)

/-- Two threads with two calls each, one of which throws. -/
def twoThreads (t : Nat) : List Call :=
  if t = 0 then [.print (ch! "a{}\n") [.val (.arg (.int 1))], .print (ch! "}") []]
  else if t = 1 then [.fprintf (ch! "b%d\n") [.arg (.int 2)], .print (ch! "c\n") []]
  else []

example (fd : Spec → Nat → Except Err Str) : ∃ sched,
    ((State.start fd ⟨[], []⟩ twoThreads).run sched).Done
      ∧ ((State.start fd ⟨[], []⟩ twoThreads).run sched).file.out = ch! "b2\na1\nc\n" := by
  refine ⟨[1, 0, 1], ?_, rfl⟩
  intro t
  match t with
  | 0 => rfl
  | 1 => rfl
  | t + 2 => rfl

/-- With colours they do: if two threads print one text each, in two colours, both texts can be shown in the colour of the
second. -/
theorem C97_fails_colour_mixed (fd : Spec → Nat → Except Err Str) (a b : Fin 8) (s t : Str) (p q : Str)
    (args brgs : List Passed) (hs : FmtArgs.format fd p args = .ok s) (ht : FmtArgs.format fd q brgs = .ok t)
    (es : '\x1b' ∉ s) (et : '\x1b' ∉ t) :
    ∃ sched, let s' := (State.start fd ⟨[], []⟩ fun u =>
        if u = 0 then [.colored a p args] else if u = 1 then [.colored b q brgs] else []).run sched
      s'.Done ∧ shown none s'.file.out = (painted (some b.val) (s ++ t), none) := by
  refine ⟨[0, 1, 0, 1, 0, 1], ?_, ?_⟩
  · intro u
    match u with
    | 0 => simp [State.run, State.start, State.step, Call.texts, hs, ht]
    | 1 => simp [State.run, State.start, State.step, Call.texts, hs, ht]
    | u + 2 => simp [State.run, State.start, State.step, Call.texts, hs, ht]
  · have : ((State.start fd ⟨[], []⟩ fun u =>
        if u = 0 then [.colored a p args] else if u = 1 then [.colored b q brgs] else []).run [0, 1, 0, 1, 0, 1]).file.out
        = escape a ++ (escape b ++ (s ++ (t ++ (reset ++ (reset ++ []))))) := by
      simp [State.run, State.start, State.step, Call.texts, hs, ht, File.write]
    show shown none _ = _
    rw [this, shown_escape, shown_escape, shown_text _ s _ es, shown_text _ t _ et, shown_reset, shown_reset]
    simp [shown, painted]

example (fd : Spec → Nat → Except Err Str) :
    FmtArgs.format fd (ch! "red") [] = .ok (ch! "red") ∧ '\x1b' ∉ ch! "red" := ⟨rfl, by decide⟩

end Blackhole.FmtPrint
