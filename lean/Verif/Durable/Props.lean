import Verif.Durable.Lemmas

/-!
# C86: what a crash can take from a file behind an asynchronous sink

`cap` is the capacity of the queue, 2^factor (C12). Every theorem is about every state that a schedule can reach, that is,
about every moment at which the process can die, including those in which it has just died inside an emit of the worker,
or because of an error of the file sink.
-/

namespace Blackhole.Durable

open Async (State accepted delivered)
open File (RotateFactory FlusherFactory)
open File.Disk (Oracle Reply)

/-- **C86 (order).** The files hold a beginning of the accepted lines, in the order in which they were accepted. -/
theorem C86_prefix (cap : Nat) (policy : Async.Policy) (r : RotateFactory) (f : FlusherFactory) (cs : List Cmd) (s : Sys)
    (h : (Sys.init r f).run cap policy cs = some s) (hc : ClosesWell cs) : s.onDisk <+: s.lines.flatten := by
  obtain ⟨_, _, _, _, _, h1⟩ :=
    (sound_run (File.Disk.anyPolicy f) cs (sound_init (File.Disk.anyPolicy f) cap r) (by simp) hc h).kept
  exact h1

/-- **C86 (flushing by events).** With a flush every `n` events, all but the last `n + 2^factor` accepted lines are in the
files: `n - 1` of them may be in the buffer of the stream, one is in the hands of the worker and `2^factor` are in the
queue. -/
theorem C86_events (factor : Nat) (policy : Async.Policy) (conf : Async.Sink) (hconf : Async.Sink.make' factor policy = .ok conf)
    (r : RotateFactory) (n : Nat) (hpos : 0 < n) (hn : n < 2 ^ 64) (cs : List Cmd) (s : Sys)
    (h : (Sys.init r (.repeat n)).run conf.capacity conf.policy cs = some s) (hc : ClosesWell cs) :
    ∃ lost, lost ≤ n + 2 ^ factor ∧ lost ≤ s.lines.length
      ∧ (s.lines.take (s.lines.length - lost)).flatten <+: s.onDisk := by
  have hcap : conf.capacity = 2 ^ factor := by
    simp only [Async.Sink.make', Async.exp2] at hconf
    split at hconf
    · cases hconf
    · cases hconf; rfl
  obtain ⟨acked, rest, e1, e2, ⟨k, k1, k2, k3⟩, -⟩ :=
    (sound_run (File.Disk.eventsPolicy n hpos hn) cs (sound_init (File.Disk.eventsPolicy n hpos hn) conf.capacity r) (by simp)
      hc h).kept
  have hlen : s.lines.length = acked.length + rest.length := by rw [e1]; simp
  refine ⟨s.lines.length - k, by omega, Nat.sub_le _ _, ?_⟩
  rw [Nat.sub_sub_self (by omega), e1, List.take_append_of_le_length k2]
  exact k3

/-- **C86 (flushing by bytes).** With a flush every `n` bytes, all but the last `2^factor + 1` accepted lines, and fewer
than `n` bytes before them, are in the files. -/
theorem C86_bytes (factor : Nat) (policy : Async.Policy) (conf : Async.Sink) (hconf : Async.Sink.make' factor policy = .ok conf)
    (r : RotateFactory) (n : Nat) (hpos : 0 < n) (cs : List Cmd) (s : Sys)
    (h : (Sys.init r (.bytecount n)).run conf.capacity conf.policy cs = some s) (hc : ClosesWell cs)
    (hshort : ∀ l ∈ s.lines, l.length + n ≤ 2 ^ 64) :
    ∃ k lost, k ≤ 2 ^ factor + 1 ∧ lost < n ∧ k ≤ s.lines.length
      ∧ ((s.lines.take (s.lines.length - k)).flatten.take ((s.lines.take (s.lines.length - k)).flatten.length - lost))
        <+: s.onDisk := by
  have hcap : conf.capacity = 2 ^ factor := by
    simp only [Async.Sink.make', Async.exp2] at hconf
    split at hconf
    · cases hconf
    · cases hconf; rfl
  have hfit : ∀ x ∈ accepted s.q.trace, x.2.length + 1 + n ≤ 2 ^ 64 := by
    intro x hx
    have := hshort (x.2 ++ ['\n']) (List.mem_map.2 ⟨x, hx, rfl⟩)
    simpa using this
  obtain ⟨acked, rest, e1, e2, ⟨tail, t1, kept, t2, t3⟩, -⟩ :=
    (sound_run (File.Disk.bytesPolicy n hpos) cs (sound_init (File.Disk.bytesPolicy n hpos) conf.capacity r) hfit hc h).kept
  have hlen : s.lines.length = acked.length + rest.length := by rw [e1]; simp
  have htake : s.lines.take (s.lines.length - rest.length) = acked := by
    rw [hlen, Nat.add_sub_cancel, e1, List.take_left]
  refine ⟨rest.length, tail.length, by omega, t1, by omega, ?_⟩
  rw [htake, t2]
  simpa using t3

/-- **C86 (destruction).** When the destructor has returned, the files hold exactly the lines of the messages that the
worker has taken from the queue, whatever the flushing policy. (Which of the accepted ones these are is C11.) -/
theorem C86_closed (cap : Nat) (policy : Async.Policy) (r : RotateFactory) (f : FlusherFactory) (cs : List Cmd) (s : Sys)
    (h : (Sys.init r f).run cap policy cs = some s) (hc : ClosesWell cs) (hcl : s.closed = true) (hup : s.down = false) :
    s.onDisk = ((delivered s.q.trace).map fun x => x.2 ++ ['\n']).flatten :=
  (sound_run (File.Disk.anyPolicy f) cs (sound_init (File.Disk.anyPolicy f) cap r) (by simp) hc h).after hup hcl

/-- The queue of the system runs like one of its own. -/
theorem queue_run {cap : Nat} {policy : Async.Policy} (cs : List Cmd) {s s' : Sys} (h : s.run cap policy cs = some s') :
    ∃ acs, s.q.run cap policy acs = some s'.q ∧ (Cmd.stop ∉ cs → Async.Cmd.stop ∉ acs) := by
  induction cs generalizing s with
  | nil => cases h; exact ⟨[], rfl, by simp⟩
  | cons c cs ih =>
    simp only [Sys.run, Option.bind_eq_some_iff] at h
    obtain ⟨m, h1, h2⟩ := h
    obtain ⟨acs, a1, a2⟩ := ih h2
    have key : m.q = s.q ∨ ∃ ac, s.q.step cap policy ac = some m.q ∧ (c ≠ .stop → ac ≠ .stop) := by
      unfold Sys.step at h1
      split at h1
      · cases h1
      · cases c with
        | close r =>
          simp only at h1
          split at h1
          · injection h1 with h1
            subst h1
            exact .inl rfl
          · cases h1
        | worker o =>
          simp only [Sys.work] at h1
          split at h1
          · split at h1
            · simp only [Option.map_eq_some_iff] at h1
              obtain ⟨q', hq, rfl⟩ := h1
              exact .inr ⟨_, hq, by simp⟩
            · injection h1 with h1
              subst h1
              exact .inl rfl
            · simp only [Option.map_eq_some_iff] at h1
              obtain ⟨q', hq, rfl⟩ := h1
              exact .inr ⟨_, hq, by simp⟩
          · simp only [Option.map_eq_some_iff] at h1
            obtain ⟨q', hq, rfl⟩ := h1
            exact .inr ⟨_, hq, by simp⟩
        | _ =>
          simp only [Option.map_eq_some_iff] at h1
          obtain ⟨q', hq, rfl⟩ := h1
          exact .inr ⟨_, hq, by simp⟩
    rcases key with hq | ⟨ac, hq, hs⟩
    · exact ⟨acs, by rw [← hq]; exact a1, fun hn => a2 fun hm => hn (List.mem_cons_of_mem _ hm)⟩
    · refine ⟨ac :: acs, by simp only [State.run, hq, Option.bind_some]; exact a1, ?_⟩
      intro hn hm
      rcases List.mem_cons.1 hm with hm | hm
      · exact hs (fun e => hn (e ▸ List.mem_cons_self)) hm.symm
      · exact a2 (fun hm => hn (List.mem_cons_of_mem _ hm)) hm

/-- **C86 (a call that returned).** With the policy that waits, a call that has returned has had its message accepted: the
accepted messages of a thread are the ones its calls were made with, except the one of a call that has not returned yet.
(So what `C86_events` says about accepted messages it says about the calls that returned.) -/
theorem C86_returned (cap : Nat) (r : RotateFactory) (f : FlusherFactory) (cs : List Cmd) (s : Sys)
    (h : (Sys.init r f).run cap .wait cs = some s) (p : Nat) :
    Async.calledBy p s.q.trace
      = ((accepted s.q.trace).filter fun x => x.1 = p).map Prod.snd ++ (s.q.producers p).pending := by
  obtain ⟨acs, ha, -⟩ := queue_run cs h
  rw [(Async.run_inv acs s.q ha).calls p]
  have hw := (Async.C10_wait_never_discards cap acs s.q ha).2 p
  rw [Async.accepted_of_producer p s.q.trace, List.filter_eq_self.2 (by simpa using hw)]

/-- A run of two lists of commands. -/
theorem run_append {cap : Nat} {policy : Async.Policy} (cs cs' : List Cmd) {s s' : Sys}
    (h : s.run cap policy (cs ++ cs') = some s') : ∃ m, s.run cap policy cs = some m ∧ m.run cap policy cs' = some s' := by
  induction cs generalizing s with
  | nil => exact ⟨s, rfl, h⟩
  | cons c cs ih =>
    simp only [List.cons_append, Sys.run, Option.bind_eq_some_iff] at h
    obtain ⟨m, h1, h2⟩ := h
    obtain ⟨m', h3, h4⟩ := ih h2
    exact ⟨m', by simp only [Sys.run, h1, Option.bind_some, h3], h4⟩

/-- **C86 (a clean stop).** If, when the destructor begins, the worker is not between a failed dequeue and its look at the
flag while something is queued, then once the destructor has returned the lines accepted before it began are in the files,
complete and in order, whatever the flushing policy. (In the excluded case the queued ones are lost: C11.) -/
theorem C86_stopped (cap : Nat) (policy : Async.Policy) (r : RotateFactory) (f : FlusherFactory) (cs₁ cs₂ : List Cmd)
    (s₁ s₂ : Sys) (h₁ : (Sys.init r f).run cap policy cs₁ = some s₁)
    (h₂ : (Sys.init r f).run cap policy (cs₁ ++ .stop :: cs₂) = some s₂) (hc : ClosesWell (cs₁ ++ .stop :: cs₂))
    (hok : s₁.q.consumer = .got none → s₁.q.queue = []) (hcl : s₂.closed = true) (hup : s₂.down = false) :
    s₁.lines.flatten <+: s₂.onDisk := by
  rw [C86_closed cap policy r f _ s₂ h₂ hc hcl hup]
  obtain ⟨m, hm, h3⟩ := run_append cs₁ (.stop :: cs₂) h₂
  cases h₁.symm.trans hm
  simp only [Sys.run, Option.bind_eq_some_iff] at h3
  obtain ⟨m, hs, h3⟩ := h3
  obtain ⟨a₁, ha₁, -⟩ := queue_run cs₁ h₁
  obtain ⟨a₂, ha₂, -⟩ := queue_run cs₂ h3
  have hq : s₁.q.step cap policy .stop = some m.q := by
    unfold Sys.step at hs
    split at hs
    · cases hs
    · simp only [Option.map_eq_some_iff] at hs
      obtain ⟨q, hq, rfl⟩ := hs
      exact hq
  have hj : s₂.q.consumer = .exited := by
    have i := sound_run (File.Disk.anyPolicy f) _ (sound_init (File.Disk.anyPolicy f) cap r) (by simp) hc h₂
    exact i.joined (i.shut hcl)
  obtain ⟨t, ht⟩ := Async.C11_drains_partial cap policy a₁ a₂ s₁.q s₂.q ha₁
    (by simp only [State.run, hq, Option.bind_some]; exact ha₂) hok hj
  simp only [Sys.lines, ← ht, List.map_append, List.flatten_append]
  exact List.prefix_append _ _

/-! ### Cases -/

/-- A call of thread `p` that finds room. -/
private def call (p : Nat) (m : String) : List Cmd := [.emit p m.toList, .thread p]

/-- The worker takes a message and gives it to the file sink, which is answered by `o`. -/
private def turn (o : Oracle) : List Cmd := [.worker {}, .worker {}, .worker o]

private def opens : Oracle := { opened := .ok 5 }

/-- Two threads; the second message is written in part when the process is killed. -/
private def killed : List Cmd :=
  call 0 "ab" ++ call 1 "cd" ++ turn opens ++ call 0 "ef" ++ turn { write := .crash 1 1 }

example : ClosesWell killed := by
  constructor
  · intro o ho k left
    simp [killed, call, turn, opens] at ho
    rcases ho with rfl | rfl | rfl | rfl <;> nofun
  · intro k left
    simp [killed, call, turn]

example : ∃ s, (Sys.init .null (.repeat 1)).run 4 .wait killed = some s ∧ s.down = true
    ∧ s.lines = [ch! "ab\n", ch! "cd\n", ch! "ef\n"] ∧ s.onDisk = ch! "ab\nc" := ⟨_, rfl, rfl, rfl, rfl⟩

/-- The disk is full: the worker's exception ends the process. -/
private def full : List Cmd := call 0 "ab" ++ call 1 "cd" ++ turn opens ++ turn { flush := .fail 1 [] }

example : ∃ s, (Sys.init .null (.repeat 1)).run 4 .wait full = some s ∧ s.down = true ∧ s.q.consumer = .terminated
    ∧ s.lines = [ch! "ab\n", ch! "cd\n"] ∧ s.onDisk = ch! "ab\nc" := ⟨_, rfl, rfl, rfl, rfl, rfl⟩

/-- **The bound is reached.** Factor 1 and a flush every 2 events: of four accepted lines, all four can be lost, which are
`2 + 2^1`: one in the buffer, one in the hands of the worker, two in the queue. -/
example : ∃ s, (Sys.init .null (.repeat 2)).run 2 .wait
      (call 0 "a" ++ turn opens ++ call 0 "b" ++ [.worker {}, .worker {}] ++ call 0 "c" ++ call 1 "d") = some s
    ∧ s.lines = [ch! "a\n", ch! "b\n", ch! "c\n", ch! "d\n"] ∧ s.onDisk = [] := ⟨_, rfl, rfl, rfl⟩

/-- A clean stop, without a flushing policy. -/
private def clean : List Cmd :=
  [.stop] ++ turn opens ++ turn {} ++ [.worker {}, .worker {}, .join, .close (.ok 0)]

example : ∃ s₁ s₂, (Sys.init .null (.repeat 0)).run 4 .wait (call 0 "ab" ++ call 1 "cd") = some s₁
    ∧ (s₁.q.consumer = .got none → s₁.q.queue = [])
    ∧ (Sys.init .null (.repeat 0)).run 4 .wait (call 0 "ab" ++ call 1 "cd" ++ clean) = some s₂
    ∧ s₂.closed = true ∧ s₂.down = false ∧ s₁.lines = [ch! "ab\n", ch! "cd\n"] ∧ s₂.onDisk = ch! "ab\ncd\n" :=
  ⟨_, _, rfl, nofun, rfl, rfl, rfl, rfl, rfl⟩

/-- Bytes: a flush every 5 bytes. -/
example : ∃ s, (Sys.init .null (.bytecount 5)).run 4 .wait
      (call 0 "ab" ++ turn opens ++ call 0 "cd" ++ turn {} ++ call 1 "e" ++ turn {}) = some s
    ∧ s.lines = [ch! "ab\n", ch! "cd\n", ch! "e\n"] ∧ s.onDisk = ch! "ab\ncd\n" := ⟨_, rfl, rfl, rfl⟩

/-- The messages `ms` are written one after the other, and nothing leaves the stream. -/
def quiet : List Str → List Cmd
  | [] => []
  | m :: ms => [.emit 0 m, .thread 0, .worker {}, .worker {}, .worker { opened := .ok 5 }] ++ quiet ms

/-- The sink has flushed nothing yet, after `c` writes. -/
private def Still (c : Nat) (k : File.Disk.Sink) : Prop :=
  k.rotateFactory = .null ∧ k.flusherFactory = .repeat 0 ∧ k.closed = [] ∧
    (k.current = none ∧ c = 0 ∨ ∃ st, k.current = some (st, { rotate := .null, flusher := .repeat c (File.u64 - 1) })
      ∧ st.disk = [] ∧ st.bad = false)

private theorem still_emit {c : Nat} {k : File.Disk.Sink} (h : Still c k) (hc : c + 1 < File.u64 - 1) (m : Str) :
    ∃ k', k.emit { opened := .ok 5 } m = (k', .ok) ∧ Still (c + 1) k' := by
  have hmod : ((c + 1) % File.u64) % (File.u64 - 1) = c + 1 := by
    rw [Nat.mod_eq_of_lt (a := c + 1) (b := File.u64) (by omega), Nat.mod_eq_of_lt hc]
  obtain ⟨h1, h2, h3, ⟨h4, rfl⟩ | ⟨st, h4, h5, h6⟩⟩ := h
  · refine ⟨{ k with current := some (⟨5, [], m ++ ['\n'], false⟩, { rotate := .null, flusher := .repeat 1 (File.u64 - 1) }) },
      ?_, h1, h2, h3, .inr ⟨_, rfl, rfl, rfl⟩⟩
    have hmod : (1 % File.u64) % (File.u64 - 1) = 1 := by simpa using hmod
    simp [File.Disk.Sink.emit, File.Disk.Sink.select, h4, File.Disk.Sink.create, h1, h2, File.Disk.Sink.write,
      File.Disk.OStream.write, File.FlusherFactory.create, File.Flusher.update, hmod]
  · obtain ⟨inode, disk, buffer, bad⟩ := st
    simp only at h5 h6
    subst h5 h6
    refine ⟨{ k with current := some (⟨inode, [], buffer ++ m ++ ['\n'], false⟩,
      { rotate := .null, flusher := .repeat (c + 1) (File.u64 - 1) }) }, ?_, h1, h2, h3, .inr ⟨_, rfl, rfl, rfl⟩⟩
    simp [File.Disk.Sink.emit, File.Disk.Sink.select, h4, File.Rotate.shouldRotate, File.Disk.Sink.write,
      File.Disk.OStream.write, File.Flusher.update, hmod]

private theorem still_disk {c : Nat} {k : File.Disk.Sink} (h : Still c k) : k.onDisk = [] := by
  obtain ⟨-, -, h3, ⟨h4, -⟩ | ⟨st, h4, h5, -⟩⟩ := h <;> simp [File.Disk.Sink.onDisk, h3, h4]
  exact h5

private theorem quiet_run (cap : Nat) (policy : Async.Policy) (hcap : 0 < cap) (ms : List Str) (s : Sys) (c : Nat)
    (hq : s.q.queue = []) (hc : s.q.consumer = .loop) (hp : s.q.producers 0 = .idle) (hd : s.down = false)
    (hf : Still c s.file) (hlen : c + ms.length < File.u64 - 1) :
    ∃ s', s.run cap policy (quiet ms) = some s' ∧ s'.onDisk = [] ∧ s'.lines = s.lines ++ ms.map (· ++ ['\n'])
      ∧ delivered s'.q.trace = delivered s.q.trace ++ ms.map (fun m => (0, m)) ∧ s'.down = false := by
  induction ms generalizing s c with
  | nil => exact ⟨s, rfl, still_disk hf, by simp, by simp, hd⟩
  | cons m ms ih =>
    obtain ⟨⟨queue, producers, consumer, stopped, joined, trace⟩, file, closed, down⟩ := s
    simp only at hq hc hp hd hf
    subst hq hc hd
    obtain ⟨k', hk, hs⟩ := still_emit hf (by simp only [List.length_cons] at hlen; omega) m
    obtain ⟨s', e1, e2, e3, e4, e5⟩ := ih
      ⟨⟨[], fun i => if i = 0 then .idle else if i = 0 then .trying m else producers i, .loop, stopped, joined,
        trace ++ [.call 0 m] ++ [.accept 0 m] ++ [.deliver 0 m]⟩, k', closed, false⟩ (c + 1) rfl rfl rfl rfl hs
      (by simp only [List.length_cons] at hlen; omega)
    refine ⟨s', ?_, e2, ?_, ?_, e5⟩
    · rw [← e1]
      simp [quiet, Sys.run, Sys.step, Sys.work, State.step, State.produce, State.consume, State.setProducer, hp, hcap, hk]
    · rw [e3]; simp [Sys.lines, accepted]
    · rw [e4]; simp [delivered]

/-- **C86, without a flushing policy.** By default nothing bounds the loss: whatever has been logged (fewer than 2^64 - 1
messages), it can be that all calls have returned and the worker has written every message, and the files are empty. -/
theorem C86_default_unbounded (cap : Nat) (policy : Async.Policy) (hcap : 0 < cap) (ms : List Str)
    (hlen : ms.length < 2 ^ 64 - 1) :
    ∃ cs s, ClosesWell cs ∧ (Sys.init .null (.repeat 0)).run cap policy cs = some s
      ∧ s.lines = ms.map (· ++ ['\n']) ∧ delivered s.q.trace = ms.map (fun m => (0, m)) ∧ s.onDisk = [] := by
  obtain ⟨s, h1, h2, h3, h4, -⟩ := quiet_run cap policy hcap ms (Sys.init .null (.repeat 0)) 0 rfl rfl rfl rfl
    ⟨rfl, rfl, rfl, .inl ⟨rfl, rfl⟩⟩ (by simpa [File.u64] using hlen)
  refine ⟨quiet ms, s, ?_, h1, by simpa [Sys.lines, Sys.init, State.init, accepted] using h3,
    by simpa [Sys.init, State.init, delivered] using h4, h2⟩
  clear h1 h2 h3 h4 hlen
  constructor
  · intro o ho
    induction ms with
    | nil => simp [quiet] at ho
    | cons m ms ih =>
      simp only [quiet, List.cons_append, List.nil_append, List.mem_cons, reduceCtorEq, false_or, Cmd.worker.injEq] at ho
      rcases ho with rfl | rfl | rfl | ho
      · nofun
      · nofun
      · nofun
      · exact ih ho
  · intro k left
    induction ms with
    | nil => simp [quiet]
    | cons m ms ih => simp [quiet, ih]

end Blackhole.Durable
