import Verif.Chain.Lemmas
import Verif.Pipeline.Props

/-! # Asynchronous sinks over a sink at the end (C72) -/

namespace Blackhole.Chain

open Pipeline (Reply)
open Async (State accepted delivered calledBy)
open Root (HOut)

/-- **C72, order.** Whatever the threads and the workers do, the sink at the end is in the state that a sequence of
ordinary calls leads to, and these calls are some of the accepted records, in the order of acceptance and none twice. If
the sinks below the outermost wait when they are full, they are the first ones: none is left out. -/
theorem C72_order (conf : Async.Sink) (s : Essentials.Sink) (cs : List Cmd) (n : Net)
    (h : run (start (.asynchronous conf s)) cs = some n) :
    n.last = (Pipeline.start (bottom s)).after n.given
    ∧ (n.given.map (·.2)).Sublist ((accepted n.trace).map (·.2))
    ∧ (AllWait s → n.given.map (·.2) <+: (accepted n.trace).map (·.2)) := by
  have g := good_run cs h
  refine ⟨(good_last g :), ?_⟩
  obtain ⟨q, calling, below, rfl⟩ := g.asynchronous
  exact (good_given g :)

theorem exists_sublist_map {α β : Type} {f : α → β} {l : List α} {m : List β} (h : m.Sublist (l.map f)) :
    ∃ l' : List α, l'.Sublist l ∧ m = l'.map f := by
  obtain ⟨l', h1, h2⟩ := List.sublist_map_iff.1 h
  exact ⟨l', h1, h2⟩

/-- **C72, threads.** What the sink at the end is given can be told apart by threads so that the records of each thread are
some of those that it logged, in the order it logged them; all of the first ones, if all sinks wait. -/
theorem C72_threads (conf : Async.Sink) (s : Essentials.Sink) (cs : List Cmd) (n : Net)
    (h : run (start (.asynchronous conf s)) cs = some n) :
    ∃ es : List (Nat × Event), n.given.map (·.2) = es.map (·.2) ∧ es.Sublist (accepted n.trace)
      ∧ (∀ p, ((es.filter fun x => x.1 = p).map (·.2)).Sublist (calledBy p n.trace))
      ∧ (AllWait (.asynchronous conf s) → es <+: accepted n.trace
          ∧ ∀ p, (es.filter fun x => x.1 = p).map (·.2) <+: calledBy p n.trace) := by
  obtain ⟨-, h1, h2⟩ := C72_order conf s cs n h
  have g := good_run cs h
  obtain ⟨q, calling, below, rfl⟩ := g.asynchronous
  cases g with
  | stage r l g =>
    obtain ⟨ac, hr⟩ := r
    have hcalled : ∀ p, (((accepted q.trace).filter fun x => x.1 = p).map (·.2)).Sublist (calledBy p q.trace) := by
      intro p
      rw [(Async.run_inv ac q hr).calls p]
      show (((accepted q.trace).filter fun x => x.1 = p).map Prod.snd).Sublist _
      rw [Async.accepted_of_producer]
      exact ((List.filter_sublist).map _).trans (List.sublist_append_left _ _)
    have hwait : conf.policy = .wait → ∀ p,
        ((accepted q.trace).filter fun x => x.1 = p).map (·.2) <+: calledBy p q.trace := by
      intro hp p
      rw [hp] at hr
      rw [(Async.run_inv ac q hr).calls p]
      show ((accepted q.trace).filter fun x => x.1 = p).map Prod.snd <+: _
      rw [Async.accepted_of_producer, List.filter_eq_self.2]
      · exact List.prefix_append _ _
      · simpa using (Async.C10_wait_never_discards _ ac q hr).2 p
    by_cases hall : AllWait (.asynchronous conf s)
    · have hp := h2 hall.2
      obtain ⟨t, ht⟩ := hp
      rw [List.append_eq_map_iff] at ht
      obtain ⟨es, es', hes, e1, -⟩ := ht
      have hpre : es <+: accepted q.trace := ⟨es', hes.symm⟩
      refine ⟨es, e1.symm, hpre.sublist, fun p => ?_, fun _ => ⟨hpre, fun p => ?_⟩⟩
      · exact ((hpre.sublist.filter _).map _).trans (hcalled p)
      · exact ((hpre.filter _).map _).trans (hwait hall.1 p)
    · obtain ⟨es, e1, e2⟩ := exists_sublist_map h1
      exact ⟨es, e2, e1, fun p => ((e1.filter _).map _).trans (hcalled p), fun h => absurd h hall⟩

/-- No worker meets an error of the file system. -/
def Healthy (cs : List Cmd) : Prop :=
  ∀ d rep, Cmd.worker d rep ∈ cs → rep.file.opened ≠ none ∧ rep.file.recorded ≠ none

/-- **C72, file.** If no error of the file system is met, a file at the end consists of a line for each record it was
given. -/
theorem C72_file (conf : Async.Sink) (s : Essentials.Sink) (cs : List Cmd) (n : Net)
    (h : run (start (.asynchronous conf s)) cs = some n) (path : Str) (r : File.RotateFactory) (f : File.FlusherFactory)
    (hs : bottom s = .file path (File.Sink.init r f)) (hok : Healthy cs) :
    ∃ file, n.last = .file path file
      ∧ File.contents file.streams = (n.given.map (·.2)).flatMap fun e => e.2 ++ ['\n'] := by
  have hl := (C72_order conf s cs n h).1
  rw [hs] at hl
  simp only [Pipeline.start] at hl
  rw [Pipeline.after_file] at hl
  refine ⟨_, hl, ?_⟩
  rw [File.C14_nothing_dropped]
  · simp [List.flatMap_map]
  · intro x hx
    obtain ⟨y, hy, rfl⟩ := List.mem_map.1 hx
    rcases given_run cs _ _ h y hy with hy | ⟨d, hd⟩
    · rw [given_start] at hy
      cases hy
    · exact hok d y.1 hd

/-- **C72, console.** The same for the terminal: the coloured lines of the records it was given. -/
theorem C72_console (conf : Async.Sink) (s : Essentials.Sink) (cs : List Cmd) (n : Net)
    (h : run (start (.asynchronous conf s)) cs = some n) (k : Console.Sink) (hs : bottom s = .console k) :
    n.last = .console k (n.given.flatMap fun e => k.output e.1.tty e.2.1 e.2.2) := by
  have hl := (C72_order conf s cs n h).1
  rw [hs] at hl
  simp only [Pipeline.start] at hl
  rw [Pipeline.after_console] at hl
  exact hl

/-- Whenever a destructor sets its flag, the worker is not about to conclude from an earlier look that nothing is left,
although something is. -/
def CleanStops (s : Essentials.Sink) (cs : List Cmd) : Prop :=
  ∀ d pre post m q, cs = pre ++ .stop d :: post → run (start s) pre = some m → m.stageAt d = some q →
    q.consumer = .got none → q.queue = []

/-- **C72, destruction.** When the destructors have returned, everything that had been accepted when the outermost one
began has reached the sink at the end, in order, if the sinks below the outermost wait when they are full. Missing: the
hypothesis `CleanStops`, without which it is false (`C72_fails_loss`). -/
theorem C72_drains_partial (conf : Async.Sink) (s : Essentials.Sink) (pre post : List Cmd) (m n : Net)
    (hm : run (start (.asynchronous conf s)) pre = some m)
    (hn : run (start (.asynchronous conf s)) (pre ++ .stop 0 :: post) = some n)
    (hd : n.destroyed) (hw : AllWait s) (hok : CleanStops (.asynchronous conf s) (pre ++ .stop 0 :: post)) :
    (accepted m.trace).map (·.2) <+: n.given.map (·.2) := by
  have g := good_run _ hn
  have gm := good_run _ hm
  have hn' := hn
  rw [run_append, hm] at hn'
  obtain ⟨q0, k0, b0, rfl, -, -⟩ := run_stage pre (k := false) (q := State.init) (b := start s) hm
  have hstop : q0.stopped = false ∧ Cmd.stop 0 ∉ post := by
    simp only [Option.bind_some, run, Option.bind_eq_some_iff] at hn'
    obtain ⟨m', h1, h2⟩ := hn'
    unfold step at h1
    split at h1
    · simp at h1
    · simp only [destroy, Option.map_eq_some_iff] at h1
      obtain ⟨q1, hq, rfl⟩ := h1
      obtain ⟨-, -, -, -, -, h3⟩ := run_stage post h2
      simp only [State.step] at hq
      split at hq <;> simp only [Option.some.injEq, reduceCtorEq] at hq
      rename_i hns
      subst hq
      exact ⟨by simpa using hns, h3 rfl⟩
  have hpre : Cmd.stop 0 ∉ pre := by
    intro hmem
    obtain ⟨a, b, rfl⟩ := List.append_of_mem hmem
    rw [run_append] at hm
    simp only [Option.bind_eq_some_iff, run] at hm
    obtain ⟨m1, h1, m2, h2, h3⟩ := hm
    obtain ⟨q1, k1, b1, rfl, -, -⟩ := run_stage a (k := false) (q := State.init) (b := start s) h1
    unfold step at h2
    split at h2
    · simp at h2
    · simp only [destroy, Option.map_eq_some_iff] at h2
      obtain ⟨q2, hq, rfl⟩ := h2
      have hs2 : q2.stopped = true := by
        simp only [State.step] at hq
        split at hq <;> simp only [Option.some.injEq, reduceCtorEq] at hq
        rw [← hq]
      clear hn hn' g hok
      have : ∀ (cs : List Cmd) {cap policy} {q : State Event} {k b n'}, q.stopped = true →
          run (.stage cap policy q k b) cs = some n' → ∀ q', n'.stageAt 0 = some q' → q'.stopped = true := by
        intro cs
        induction cs with
        | nil => intro _ _ q _ _ _ hs h q' hq'; cases h; cases hq'; exact hs
        | cons c cs ih =>
          intro _ _ q _ _ _ hs h q' hq'
          simp only [run, Option.bind_eq_some_iff] at h
          obtain ⟨x, hx, h⟩ := h
          obtain ⟨_, _, _, rfl, -, hk⟩ := step_stage hx
          exact ih (hk hs).2 h q' hq'
      have := this b hs2 h3 q0 rfl
      rw [hstop.1] at this
      cases this
  have dr : Drains (accepted q0.trace).length n := by
    refine drains_run _ (good_start _) (drains_start _ _) ?_ ?_ hn
    · intro pre' post' heq m' hm'
      have : pre' = pre := by
        rcases List.append_eq_append_iff.1 heq with ⟨a, ha, hb⟩ | ⟨a, ha, hb⟩
        · cases a with
          | nil => simpa using ha
          | cons x a =>
            simp only [List.cons_append, List.cons.injEq] at hb
            exact absurd (by rw [hb.2]; simp) hstop.2
        · cases a with
          | nil => simpa using ha.symm
          | cons x a =>
            simp only [List.cons_append, List.cons.injEq] at hb
            obtain ⟨rfl, -⟩ := hb
            exact absurd (by rw [ha]; simp) hpre
      subst this
      rw [hm] at hm'
      cases hm'
      rfl
    · intro d pre' post' heq m' hm' q hq
      exact hok d pre' post' m' q heq hm' hq
  obtain ⟨q, k, b, rfl, ht, -⟩ := run_stage _ (by simpa using hn')
  cases g with
  | stage r l g =>
    obtain ⟨hex, hst⟩ := r.joined hd.1
    have hgiven := drained (.stage r l g) dr.2 hex hd.2 hw
    show _ <+: b.given.map (·.2)
    rw [hgiven]
    refine List.IsPrefix.map _ ?_
    have hlen := (dr.1 hst).exited hex
    obtain ⟨ac, hr⟩ := r
    obtain ⟨t, ht⟩ := ht
    have h1 : accepted q0.trace <+: accepted q.trace := ⟨accepted t, by rw [← ht]; simp⟩
    exact List.prefix_of_prefix_length_le h1 (Async.C09_prefix _ _ ac q hr).1 hlen

/-- **C72, an error at the end.** If the sink at the end throws, nobody handles the exception: no thread of the program
takes another step, and what was accepted but not yet given is lost. -/
theorem C72_fails_error (cap : Nat) (policy : Async.Policy) (q : State Event) (calling : Bool) (s s' : Pipeline.Sink)
    (given : List (Reply × Event)) (e : Nat × Event) (rep : Reply) (o : HOut) (hq : q.consumer = .deliver e)
    (he : s.emit rep e.2.1 e.2.2 = (s', o)) (ho : o ≠ .ok) :
    ∃ n, step (.stage cap policy q calling (.sink s given)) (.worker 0 rep) = some n
      ∧ n.last = s' ∧ n.failed ∧ ∀ c, step n c = none := by
  refine ⟨.stage cap policy { q with consumer := .terminated, trace := q.trace ++ [.deliver e.1 e.2] } false
    (.sink s' (given ++ [(rep, e.2)])), ?_, rfl, .inl rfl, fun c => rfl⟩
  simp only [step, dead, hq, work, he]
  cases o <;> simp_all [State.step]

/-! ### Concrete cases -/

/-- The condition of `CleanStops`, step by step. -/
def clean (n : Net) : List Cmd → Bool
  | [] => true
  | c :: cs =>
    (match c with
      | .stop d =>
        match n.stageAt d with
        | some q =>
          match q.consumer, q.queue with
          | .got none, _ :: _ => false
          | _, _ => true
        | none => true
      | _ => true)
    && match step n c with
      | some m => clean m cs
      | none => true

theorem clean_stops (cs : List Cmd) : ∀ n, clean n cs = true → ∀ d pre post m q, cs = pre ++ .stop d :: post →
    run n pre = some m → m.stageAt d = some q → q.consumer = .got none → q.queue = [] := by
  induction cs with
  | nil => intro n _ d pre post m q h; simp at h
  | cons c cs ih =>
    intro n h d pre post m q hcs hm hq hc
    simp only [clean, Bool.and_eq_true] at h
    cases pre with
    | nil =>
      simp only [List.nil_append, List.cons.injEq] at hcs
      obtain ⟨rfl, -⟩ := hcs
      cases hm
      have h1 := h.1
      simp only [hq] at h1
      cases hqq : q.queue with
      | nil => rfl
      | cons x l => rw [hc, hqq] at h1; cases h1
    | cons c' pre =>
      simp only [List.cons_append, List.cons.injEq] at hcs
      obtain ⟨rfl, rfl⟩ := hcs
      simp only [run, Option.bind_eq_some_iff] at hm
      obtain ⟨m', h1, h2⟩ := hm
      rw [h1] at h
      exact ih m' h.2 d pre post m q rfl h2 hq hc

namespace Example

def fine : Reply := { file := ⟨some 1, some 1, some 1⟩, what := [], tty := false, other := .ok }

def broken : Reply := { fine with file := ⟨none, none, none⟩, what := ch! "no space" }

def file : Essentials.Sink := .file (ch! "/log") (File.Sink.init .null (.repeat 1))

def one : Essentials.Sink := .asynchronous ⟨4, .wait⟩ file

def two (inner : Async.Policy) : Essentials.Sink := .asynchronous ⟨4, .wait⟩ (.asynchronous ⟨4, inner⟩ file)

def w (d k : Nat) : List Cmd := List.replicate k (.worker d fine)

/-- Two threads, `a` and `c` from the first and `b` from the second; the second worker is a little behind. -/
def before : List Cmd :=
  [.emit 1 (0, ch! "a"), .emit 2 (0, ch! "b"), .thread 2, .thread 1, .emit 1 (0, ch! "c"), .thread 1] ++ w 0 7 ++ w 1 2

def schedule : List Cmd := before ++ .stop 0 :: (w 0 10 ++ [.join 0, .stop 1] ++ w 1 9 ++ [.join 1])

/-- The hypotheses of the theorems above, and what they say: the destructors return, and the three lines are in the file
in the order of acceptance. -/
example : ∃ n f, run (start (two .wait)) schedule = some n ∧ n.destroyed ∧ AllWait (two .wait) ∧ Healthy schedule
    ∧ CleanStops (two .wait) schedule ∧ bottom (two .wait) = file
    ∧ n.last = .file (ch! "/log") f ∧ File.contents f.streams = ch! "b\na\nc\n" := by
  have h : ∃ n, run (start (two .wait)) schedule = some n ∧ n.destroyed
      ∧ (n.given.map (·.2)).flatMap (fun e => e.2 ++ ['\n']) = ch! "b\na\nc\n" := ⟨_, rfl, ⟨rfl, rfl, trivial⟩, rfl⟩
  obtain ⟨n, h1, h2, h3⟩ := h
  have hok : Healthy schedule := by
    intro d rep h
    have : rep = fine := by
      simp only [schedule, before, w, List.mem_append, List.mem_cons, List.mem_replicate, List.not_mem_nil, or_false,
        reduceCtorEq, false_or, Cmd.worker.injEq] at h
      rcases h with (⟨-, -, h⟩ | ⟨-, -, h⟩) | (⟨-, -, h⟩ | ⟨-, -, h⟩) <;> exact h
    rw [this]
    exact ⟨by simp [fine], by simp [fine]⟩
  obtain ⟨f, hf, hc⟩ := C72_file ⟨4, .wait⟩ _ schedule n h1 (ch! "/log") .null (.repeat 1) rfl hok
  exact ⟨n, f, h1, h2, ⟨rfl, rfl, trivial⟩, hok, fun d pre post m q => clean_stops schedule _ rfl d pre post m q, rfl, hf,
    hc.trans h3⟩

/-- The example of `C72_drains_partial`. -/
example : ∃ m n, run (start (two .wait)) before = some m ∧ run (start (two .wait)) schedule = some n
    ∧ (accepted m.trace).map (·.2.2) = [ch! "b", ch! "a", ch! "c"] ∧ m.given = [] ∧ n.given.length = 3 :=
  ⟨_, _, rfl, rfl, rfl, rfl, rfl⟩

/-- The hypotheses of `C72_fails_error` in a reachable state. -/
example : ∃ q s, run (start one) ([.emit 1 (0, ch! "a"), .thread 1, .emit 1 (0, ch! "b"), .thread 1] ++ w 0 2)
      = some (.stage 4 .wait q false (.sink s [])) ∧ q.consumer = .deliver (1, 0, ch! "a")
    ∧ (s.emit broken 0 (ch! "a")).2 = .throwStd (ch! "no space") := ⟨_, _, rfl, rfl, rfl⟩

end Example

/-- **C72, negation: an error at the end.** Two records were accepted; the file cannot be opened, and the process is gone
with both. -/
theorem C72_fails_error_concrete : ∃ n, run (start Example.one) ([.emit 1 (0, ch! "a"), .thread 1, .emit 1 (0, ch! "b"),
      .thread 1] ++ Example.w 0 2 ++ [.worker 0 Example.broken]) = some n
    ∧ (accepted n.trace).map (·.2.2) = [ch! "a", ch! "b"] ∧ n.failed ∧ (∀ c, step n c = none)
    ∧ ∃ f, n.last = .file (ch! "/log") f ∧ File.contents f.streams = [] :=
  ⟨_, rfl, rfl, .inl rfl, fun _ => rfl, _, rfl, rfl⟩

/-- **C72, negation: destruction.** The worker has found nothing, then a record is accepted, then the sink is destroyed:
the destructor returns and the record is lost, though every sink waits. -/
theorem C72_fails_loss : ∃ n, run (start Example.one) (Example.w 0 1 ++ [.emit 1 (0, ch! "a"), .thread 1, .stop 0]
      ++ Example.w 0 1 ++ [.join 0]) = some n
    ∧ AllWait Example.one ∧ n.destroyed ∧ (accepted n.trace).map (·.2.2) = [ch! "a"] ∧ n.given = [] :=
  ⟨_, rfl, ⟨rfl, trivial⟩, ⟨rfl, trivial⟩, rfl, rfl⟩

/-- **C72, negation: a sink inside that discards.** The outermost sink waits, so that the program's call returns only when
its record is accepted; the fifth record is lost all the same, and the later one is not. -/
theorem C72_fails_inner_drop : ∃ n, run (start (Example.two .drop))
      ([ch! "a", ch! "b", ch! "c", ch! "d"].flatMap (fun t => [.emit 1 (0, t), .thread 1] ++ Example.w 0 5)
        ++ [.emit 1 (0, ch! "e"), .thread 1] ++ Example.w 0 6 ++ Example.w 1 12
        ++ [.emit 1 (0, ch! "f"), .thread 1] ++ Example.w 0 5 ++ [.stop 0] ++ Example.w 0 2 ++ [.join 0, .stop 1]
        ++ Example.w 1 5 ++ [.join 1]) = some n
    ∧ n.destroyed ∧ (accepted n.trace).map (·.2.2) = [ch! "a", ch! "b", ch! "c", ch! "d", ch! "e", ch! "f"]
    ∧ n.given.map (·.2.2) = [ch! "a", ch! "b", ch! "c", ch! "d", ch! "f"] :=
  ⟨_, rfl, ⟨rfl, rfl, trivial⟩, rfl, rfl⟩

end Blackhole.Chain
