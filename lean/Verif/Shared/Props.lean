import Verif.Shared.Lemmas

/-! # Properties of log calls on several threads: C67 -/

namespace Blackhole.Shared

open Pipeline (Process Call Handler Reply Given Fails Says)
open Lock (Complete In Inv doneBy after Guarded Occurs byThread)

/-! ## Lemmas -/

theorem occurs_kind {hs : List Handler} {programs : Nat → List (List Task)}
    (hp : ∀ t op, In (programs t) op → Kind hs op) {op : Emit} (ho : Occurs programs op) : Kind hs op := by
  obtain ⟨t, g, hg, hx⟩ := ho
  exact hp t op ⟨g, hg, hx⟩

theorem guarded_sink {hs : List Handler} {programs : Nat → List (List Task)}
    (hp : ∀ t op, In (programs t) op → Kind hs op) (i j : Nat) : Guarded programs (.sink i j) := by
  refine ⟨.sink i j, fun op ho he => ?_⟩
  cases occurs_kind hp ho with
  | file _ _ => injection he with h1 h2; rw [← h1, ← h2]; rfl
  | console _ _ _ => cases he
  | other _ _ => injection he with h1 h2; rw [← h1, ← h2]
  | report => cases he

theorem honest_done {hs : List Handler} {programs : Nat → List (List Task)}
    (hp : ∀ t op, In (programs t) op → Kind hs op) {init : Place → Obj} {s : State} (h : Inv programs init s)
    {d : Nat × Emit × Bool} (hd : d ∈ s.done) (hf : d.2.2 = true) : CanFail d.2.1 := by
  have hres : ∀ i j, d.2.1.res = .sink i j → CanFail d.2.1 := by
    intro i j he
    obtain ⟨a, b, e⟩ := List.append_of_mem hd
    have := h.truthful (.sink i j) (guarded_sink hp i j) a d b e he
    rw [hf] at this
    exact ⟨_, this.symm⟩
  obtain ⟨r, hr⟩ := h.result d hd
  rw [hf] at hr
  have hk := occurs_kind hp (h.did hd)
  generalize d.2.1 = op at hk hr hres
  cases hk with
  | file _ _ => exact hres _ _ rfl
  | console _ _ _ => cases hr
  | other _ _ => exact hres _ _ rfl
  | report => cases hr

/-- What a sink was given, and by which threads. -/
def emittedAt (k : Place) (done : List (Nat × Emit × Bool)) : List (Nat × Reply × Int × Str) :=
  done.filterMap fun d => if d.2.1.res = k then d.2.1.what.map (d.1, ·) else none

theorem emitted_by (k : Place) (t : Nat) (done : List (Nat × Emit × Bool)) :
    byThread t (emittedAt k done) = emitsAt k (doneBy t done) := by
  induction done with
  | nil => rfl
  | cons d done ih =>
    have h1 : emittedAt k (d :: done) = (if d.2.1.res = k then d.2.1.what.map (d.1, ·) else none).toList ++ emittedAt k done := by
      unfold emittedAt
      rw [List.filterMap_cons]
      split
      · rename_i h; rw [h]; rfl
      · rename_i h; rw [h]; rfl
    have h2 : doneBy t (d :: done) = (if d.1 = t then [d.2] else []) ++ doneBy t done := by
      unfold doneBy
      by_cases h : d.1 = t <;> simp [h]
    rw [h1, h2, emitsAt_append, ← ih]
    unfold byThread
    rw [List.filter_append, List.map_append]
    congr 1
    by_cases hk : d.2.1.res = k <;> by_cases ht : d.1 = t <;> cases hw : d.2.1.what <;> simp [emitsAt, hk, ht, hw]

/-- The requests of a file sink. -/
def requests (emitted : List (Nat × Reply × Int × Str)) : List (File.Oracle × Str) :=
  emitted.map fun e => (e.2.1.file, e.2.2.2)

theorem after_files {i j : Nat} (done : List (Nat × Emit × Bool))
    (h : ∀ d ∈ done, d.2.1.res = .sink i j → ∃ rep sev text, d.2.1 = (fileEmit i j rep sev text).toOp) (s0 : File.Sink)
    (out : File.Outcome) :
    ∃ out', after (.sink i j) done (.file s0 out) = .file (s0.run (requests (emittedAt (.sink i j) done))).1 out' := by
  induction done using snoc_induction with
  | nil => exact ⟨out, rfl⟩
  | snoc done d ih =>
    obtain ⟨out', ih⟩ := ih fun x hx => h x (by simp [hx])
    rw [Lock.after_snoc, ih]
    have he : emittedAt (.sink i j) (done ++ [d]) = emittedAt (.sink i j) done ++ emittedAt (.sink i j) [d] := by
      simp [emittedAt]
    by_cases hd : d.2.1.res = .sink i j
    · obtain ⟨rep, sev, text, e⟩ := h d (by simp) hd
      rw [if_pos hd, e, file_apply, he]
      have : emittedAt (.sink i j) [d] = [(d.1, rep, sev, text)] := by
        simp [emittedAt, e, fileEmit]
      rw [this]
      simp only [requests, List.map_append, List.map_cons, List.map_nil, File.run_append, File.Sink.run]
      exact ⟨_, rfl⟩
    · rw [if_neg hd, he]
      have : emittedAt (.sink i j) [d] = [] := by simp [emittedAt, hd]
      rw [this, List.append_nil]
      exact ⟨out', rfl⟩

/-- The files of a file sink of threads whose programs are made of emits and reports; `G t` says what thread `t` has to give
to this sink. -/
theorem files_of (hs : List Handler) (n : Nat) (programs : Nat → List (List Task)) (hnp : ∀ t, n ≤ t → programs t = [])
    (hp : ∀ t op, In (programs t) op → Kind hs op) (schedule : List Nat)
    (i j : Nat) (h : Handler) (hi : hs[i]? = some h) (path : Str) (r : File.RotateFactory) (f : File.FlusherFactory)
    (hj : h.sinks[j]? = some (.file path (File.Sink.init r f))) (G : Nat → List (Option (Reply × Int × Str)) → Prop)
    (hG : ∀ t d, Complete (programs t) d → Honest d → ∃ gl, G t gl ∧ emitsAt (.sink i j) d = gl.flatMap Option.toList) :
    ∃ (sink : File.Sink) (out : File.Outcome) (emitted : List (Nat × Reply × Int × Str)) (current : Str)
      (gs : Nat → List (Option (Reply × Int × Str))),
      (run programs hs schedule).res (.sink i j) = .file sink out
      ∧ File.contents sink.streams = File.deliveredLines (emitted.map fun e => (e.2.1.file, e.2.2.2))
          ((File.Sink.init r f).run (emitted.map fun e => (e.2.1.file, e.2.2.2))).2 ++ current
      ∧ (∀ t, G t (gs t))
      ∧ (∀ t, byThread t emitted <+: (gs t).flatMap Option.toList)
      ∧ (current = [] ∨ ∃ t e, byThread t emitted ++ [e] <+: (gs t).flatMap Option.toList ∧ current <+: e.2.2 ++ ['\n'])
      ∧ ((run programs hs schedule).finished → current = []
          ∧ sink = ((File.Sink.init r f).run (emitted.map fun e => (e.2.1.file, e.2.2.2))).1
          ∧ ∀ t, byThread t emitted = (gs t).flatMap Option.toList) := by
  have hinv : Inv programs (start hs) (run programs hs schedule) := (Inv.start programs (start hs)).run schedule
  generalize run programs hs schedule = s at hinv ⊢
  have hstart : start hs (.sink i j) = .file (File.Sink.init r f) .ok := by
    simp only [start, hi, hj]
  obtain ⟨more, hfin⟩ := hinv.can_finish hnp
  have hinv' := hinv.run more
  obtain ⟨extra, hextra⟩ := Lock.done_grows s more
  have hcomplete : ∀ t, Complete (programs t) (doneBy t (s.run more).done) := by
    intro t
    have := hinv'.ran t
    rw [hfin t] at this
    have := this.complete .nil
    rwa [List.append_nil] at this
  have hhonest : ∀ t, Honest (doneBy t (s.run more).done) := by
    intro t x hx hf
    obtain ⟨d, hd, rfl⟩ := List.mem_map.1 hx
    exact honest_done hp hinv' (List.mem_filter.1 hd).1 hf
  have hgiven := fun t => hG t _ (hcomplete t) (hhonest t)
  have hfile : ∀ op : Emit, Occurs programs op → op.res = .sink i j →
      ∃ rep sev text, op = (fileEmit i j rep sev text).toOp := by
    intro op ho he
    cases occurs_kind hp ho with
    | file _ _ => injection he with h1 h2; subst h1; subst h2; exact ⟨_, _, _, rfl⟩
    | console _ _ _ => cases he
    | other a b =>
      injection he with h1 h2
      subst h1; subst h2
      rw [hi] at a
      cases a
      rw [hj] at b
      cases b
    | report => cases he
  obtain ⟨out', hafter⟩ := after_files (i := i) (j := j) s.done (fun d hd he => hfile d.2.1 (hinv.did hd) he)
    (File.Sink.init r f) .ok
  obtain ⟨hsi, hsc⟩ := File.run_inv (File.Inv.init r f) (requests (emittedAt (.sink i j) s.done))
  have hpre : ∀ t, byThread t (emittedAt (.sink i j) s.done) <+: (hgiven t).choose.flatMap Option.toList := by
    intro t
    rw [← (hgiven t).choose_spec.2, hextra, Lock.doneBy_append, emitsAt_append, emitted_by]
    exact List.prefix_append _ _
  have hcont : File.contents ((File.Sink.init r f).run (requests (emittedAt (.sink i j) s.done))).1.streams
      = File.deliveredLines (requests (emittedAt (.sink i j) s.done))
        ((File.Sink.init r f).run (requests (emittedAt (.sink i j) s.done))).2 := File.C14_lines r f _
  by_cases hbusy : ∃ t op past rest, Lock.Inside s t op past rest ∧ op.res = .sink i j
  · obtain ⟨t, op, past, rest, hin, he⟩ := hbusy
    have hb := hinv.busy t op past rest hin (by rw [he]; exact guarded_sink hp i j)
    obtain ⟨x, ops, groups, etodo, hx⟩ := hin.todo
    obtain ⟨rep, sev, text, eop⟩ := hfile op (hx ▸ hinv.occurs etodo) he
    rw [he, hstart, hafter] at hb
    have hsteps := hin.steps
    rw [eop] at hsteps
    obtain ⟨s', o', current, e1, e2, e3⟩ := file_partial i j rep sev text _ out' hsi past rest hsteps
    rw [e1] at hb
    refine ⟨s', o', emittedAt (.sink i j) s.done, current, fun t => (hgiven t).choose, hb, ?_,
      fun t => (hgiven t).choose_spec.1, hpre, .inr ⟨t, (rep, sev, text), ?_, e3⟩, ?_⟩
    · rw [e2, hcont]; rfl
    · rw [← (hgiven t).choose_spec.2, emitted_by, hextra, Lock.doneBy_append, emitsAt_append]
      have hran := hinv.ran t
      rw [etodo] at hran
      have hc := hcomplete t
      rw [hextra, Lock.doneBy_append] at hc
      have hrest := hran.rest hc
      have : ∃ b l, doneBy t extra = (op, b) :: l := by
        rw [← hx]
        generalize doneBy t extra = e at hrest
        cases hrest with
        | ok _ => exact ⟨_, _, rfl⟩
        | failed _ => exact ⟨_, _, rfl⟩
      obtain ⟨b, l, e⟩ := this
      rw [e, emitsAt_cons, if_pos he, eop]
      exact ⟨emitsAt (.sink i j) l, by simp [fileEmit]⟩
    · intro hf
      rw [hf t] at etodo
      cases etodo
  · have hidle := hinv.idle (.sink i j) (guarded_sink hp i j) fun t op past rest hin he => hbusy ⟨t, op, past, rest, hin, he⟩
    rw [hstart, hafter] at hidle
    refine ⟨_, out', emittedAt (.sink i j) s.done, [], fun t => (hgiven t).choose, hidle, ?_,
      fun t => (hgiven t).choose_spec.1, hpre, .inl rfl, ?_⟩
    · rw [hcont, List.append_nil]; rfl
    · intro hf
      refine ⟨rfl, rfl, fun t => ?_⟩
      rw [← (hgiven t).choose_spec.2, emitted_by, Lock.finished_run hf]

/-! ## C67 -/

/-- **C67.** Any number of threads log through the same logger under any schedule, whatever the sinks meet. At any
moment the files of a file sink hold whole lines, one for each emit that returned, in the order in which the emits were
done, followed by the beginning of at most one more line; what each thread contributed is a beginning of what its calls
have to give to this sink, in its order; and the unfinished line is the next one of its thread. When all threads are
done, everything was given, and the sink with its files (what was written, flushed and rotated) is as if one thread had
done these emits one after the other. -/
theorem C67_files (p : Process) (hs : List Handler) (n : Nat) (calls : Nat → List Call) (hn : ∀ t, n ≤ t → calls t = [])
    (programs : Nat → List (List Task)) (hp : ∀ t, program p hs (calls t) = .ok (programs t)) (schedule : List Nat)
    (i j : Nat) (h : Handler) (hi : hs[i]? = some h) (path : Str) (r : File.RotateFactory) (f : File.FlusherFactory)
    (hj : h.sinks[j]? = some (.file path (File.Sink.init r f))) :
    ∃ (sink : File.Sink) (out : File.Outcome) (emitted : List (Nat × Reply × Int × Str)) (current : Str)
      (gs : Nat → List (Option (Reply × Int × Str))),
      (run programs hs schedule).res (.sink i j) = .file sink out
      ∧ File.contents sink.streams = File.deliveredLines (emitted.map fun e => (e.2.1.file, e.2.2.2))
          ((File.Sink.init r f).run (emitted.map fun e => (e.2.1.file, e.2.2.2))).2 ++ current
      ∧ (∀ t, Both (Given p h i j) (calls t) (gs t))
      ∧ (∀ t, byThread t emitted <+: (gs t).flatMap Option.toList)
      ∧ (current = [] ∨ ∃ t e, byThread t emitted ++ [e] <+: (gs t).flatMap Option.toList ∧ current <+: e.2.2 ++ ['\n'])
      ∧ ((run programs hs schedule).finished → current = []
          ∧ sink = ((File.Sink.init r f).run (emitted.map fun e => (e.2.1.file, e.2.2.2))).1
          ∧ ∀ t, byThread t emitted = (gs t).flatMap Option.toList) := by
  refine files_of hs n programs ?_ (fun t op => program_kind (hp t)) schedule i j h hi path r f hj
    (fun t => Both (Given p h i j) (calls t)) fun t d hc hh => program_given (s0 := .file path (File.Sink.init r f)) (hp t) hc hh hi trivial hj
  intro t ht
  have := hp t
  rw [hn t ht] at this
  injection this with this
  exact this.symm

/-- **C67, all is done.** Threads never block each other for ever: whatever their order, after enough rounds in each of
which every thread takes a step all calls have returned. -/
theorem C67_finishes (p : Process) (hs : List Handler) (n : Nat) (calls : Nat → List Call) (hn : ∀ t, n ≤ t → calls t = [])
    (programs : Nat → List (List Task)) (hp : ∀ t, program p hs (calls t) = .ok (programs t)) (rounds : List (List Nat))
    (hr : ∀ round ∈ rounds, (∀ t ∈ round, t < n) ∧ ∀ t < n, t ∈ round)
    (hlen : ((List.range n).map fun t => Lock.workOf (programs t)).sum ≤ rounds.length) :
    (run programs hs rounds.flatten).finished := by
  refine Inv.rounds ?_ rounds _ (Inv.start programs (start hs)) hr ?_
  · intro t ht
    have := hp t
    rw [hn t ht] at this
    injection this with this
    exact this.symm
  · refine Nat.le_trans (Nat.le_of_eq ?_) hlen
    unfold Lock.total
    congr 1
    exact List.map_congr_left fun t _ => Lock.work_none _

theorem given_texts {p : Process} {h : Handler} {i j : Nat} {cs : List Call} {gs : List (Option (Reply × Int × Str))}
    {ts : List (Option Str)} {path : Str} {s0 : File.Sink} (hj : h.sinks[j]? = some (.file path s0))
    (hg : Both (Given p h i j) cs gs) (hs : Both (Says p h.formatter) cs ts)
    (hok : ∀ c ∈ cs, ∀ k s, h.sinks[k]? = some s → ¬ Fails (c.replies i k) s) :
    (gs.flatMap Option.toList).map (·.2.2) = ts.filterMap id
    ∧ ∀ e ∈ gs.flatMap Option.toList, e.1.file.opened ≠ none ∧ e.1.file.recorded ≠ none := by
  induction hg generalizing ts with
  | nil => cases hs; exact ⟨rfl, by intro e he; cases he⟩
  | @cons c g cs gs hg _ ih =>
    cases hs with
    | @cons _ t _ _ ht hrest =>
      obtain ⟨ih1, ih2⟩ := ih hrest fun c hc => hok c (List.mem_cons_of_mem _ hc)
      have hg := Pipeline.given_says hg ht (hok c List.mem_cons_self)
      subst hg
      have hf := hok c List.mem_cons_self j _ hj
      cases t with
      | none => exact ⟨by simpa using ih1, by simpa using ih2⟩
      | some text =>
        refine ⟨by simpa using ih1, ?_⟩
        intro e he
        rw [List.flatMap_cons] at he
        rcases List.mem_append.1 he with he | he
        · simp at he
          subst he
          simpa only [Fails, not_or] using hf
        · exact ih2 e he

theorem byThread_map {α β : Type} (g : α → β) (t : Nat) (l : List (Nat × α)) :
    byThread t (l.map fun x => (x.1, g x.2)) = (byThread t l).map g := by
  induction l with
  | nil => rfl
  | cons x l ih =>
    by_cases h : x.1 = t
    · simpa [byThread, h] using ih
    · simpa [byThread, h] using ih

theorem prefix_map {α β : Type} (g : α → β) {a b : List α} (h : a <+: b) : a.map g <+: b.map g := by
  obtain ⟨c, rfl⟩ := h
  exact ⟨c.map g, by simp⟩

/-- The lines of a file sink when nothing fails. -/
theorem lines_of {s : State} {i j : Nat} (r : File.RotateFactory) (f : File.FlusherFactory) {sink : File.Sink}
    {out : File.Outcome} {emitted : List (Nat × Reply × Int × Str)} {current : Str}
    {gs : Nat → List (Option (Reply × Int × Str))} {texts : Nat → List (Option Str)}
    (h1 : s.res (.sink i j) = .file sink out)
    (h2 : File.contents sink.streams = File.deliveredLines (emitted.map fun e => (e.2.1.file, e.2.2.2))
      ((File.Sink.init r f).run (emitted.map fun e => (e.2.1.file, e.2.2.2))).2 ++ current)
    (h4 : ∀ t, byThread t emitted <+: (gs t).flatMap Option.toList)
    (h5 : current = [] ∨ ∃ t e, byThread t emitted ++ [e] <+: (gs t).flatMap Option.toList ∧ current <+: e.2.2 ++ ['\n'])
    (h6 : s.finished → current = []
      ∧ sink = ((File.Sink.init r f).run (emitted.map fun e => (e.2.1.file, e.2.2.2))).1
      ∧ ∀ t, byThread t emitted = (gs t).flatMap Option.toList)
    (key : ∀ t, ((gs t).flatMap Option.toList).map (·.2.2) = (texts t).filterMap id
      ∧ ∀ e ∈ (gs t).flatMap Option.toList, e.1.file.opened ≠ none ∧ e.1.file.recorded ≠ none) :
    ∃ (sink : File.Sink) (out : File.Outcome) (lines : List (Nat × Str)) (current : Str),
      s.res (.sink i j) = .file sink out
      ∧ File.contents sink.streams = (lines.flatMap fun l => l.2 ++ ['\n']) ++ current
      ∧ (∀ t, byThread t lines <+: (texts t).filterMap id)
      ∧ (current = [] ∨ ∃ t line, byThread t lines ++ [line] <+: (texts t).filterMap id ∧ current <+: line ++ ['\n'])
      ∧ (s.finished → current = [] ∧ ∀ t, byThread t lines = (texts t).filterMap id) := by
  have horacle : ∀ x ∈ emitted.map (fun e => (e.2.1.file, e.2.2.2)), x.1.opened ≠ none ∧ x.1.recorded ≠ none := by
    intro x hx
    obtain ⟨e, he, rfl⟩ := List.mem_map.1 hx
    refine (key e.1).2 e.2 ((h4 e.1).subset ?_)
    exact List.mem_map.2 ⟨e, List.mem_filter.2 ⟨he, by simp⟩, rfl⟩
  have hlines := File.C14_nothing_dropped r f _ horacle
  rw [File.C14_lines] at hlines
  refine ⟨sink, out, emitted.map fun e => (e.1, e.2.2.2), current, h1, ?_, ?_, ?_, ?_⟩
  · rw [h2, hlines]
    simp [List.flatMap_map]
  · intro t
    rw [byThread_map (fun e : Reply × Int × Str => e.2.2), ← (key t).1]
    exact prefix_map _ (h4 t)
  · rcases h5 with h5 | ⟨t, e, h5, h5'⟩
    · exact .inl h5
    · refine .inr ⟨t, e.2.2, ?_, h5'⟩
      rw [byThread_map (fun e : Reply × Int × Str => e.2.2), ← (key t).1]
      have := prefix_map (fun e : Reply × Int × Str => e.2.2) h5
      simpa using this
  · intro hf
    obtain ⟨e1, -, e2⟩ := h6 hf
    refine ⟨e1, fun t => ?_⟩
    rw [byThread_map (fun e : Reply × Int × Str => e.2.2), ← (key t).1, e2 t]

/-- **C67, nothing is lost, doubled or broken.** If no sink of the handler fails and its formatter gives a text for every
accepted record: at any moment the files hold whole lines and the beginning of at most one more, where what comes from
each thread is a beginning of what its calls say, in the order of its calls. When all threads are done the files hold
exactly one line for every accepted call of every thread. -/
theorem C67_every_line (p : Process) (hs : List Handler) (n : Nat) (calls : Nat → List Call)
    (hn : ∀ t, n ≤ t → calls t = []) (programs : Nat → List (List Task))
    (hp : ∀ t, program p hs (calls t) = .ok (programs t)) (schedule : List Nat)
    (i j : Nat) (h : Handler) (hi : hs[i]? = some h) (path : Str) (r : File.RotateFactory) (f : File.FlusherFactory)
    (hj : h.sinks[j]? = some (.file path (File.Sink.init r f)))
    (hok : ∀ t, ∀ c ∈ calls t, ∀ k s, h.sinks[k]? = some s → ¬ Fails (c.replies i k) s)
    (texts : Nat → List (Option Str)) (hsays : ∀ t, Both (Says p h.formatter) (calls t) (texts t)) :
    ∃ (sink : File.Sink) (out : File.Outcome) (lines : List (Nat × Str)) (current : Str),
      (run programs hs schedule).res (.sink i j) = .file sink out
      ∧ File.contents sink.streams = (lines.flatMap fun l => l.2 ++ ['\n']) ++ current
      ∧ (∀ t, byThread t lines <+: (texts t).filterMap id)
      ∧ (current = [] ∨ ∃ t line, byThread t lines ++ [line] <+: (texts t).filterMap id ∧ current <+: line ++ ['\n'])
      ∧ ((run programs hs schedule).finished → current = [] ∧ ∀ t, byThread t lines = (texts t).filterMap id) := by
  obtain ⟨sink, out, emitted, current, gs, h1, h2, h3, h4, h5, h6⟩ :=
    C67_files p hs n calls hn programs hp schedule i j h hi path r f hj
  exact lines_of r f h1 h2 h4 h5 h6 fun t => given_texts hj (h3 t) (hsays t) (hok t)

end Blackhole.Shared
