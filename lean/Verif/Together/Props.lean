import Verif.Together.Lemmas

/-!
# Several file sinks on one path

C88: what comes to the files, whether lines stay whole, and which file a line goes to when the path changes.
-/

namespace Blackhole.Together

open File (Rotate RotateFactory Flusher FlusherFactory Backend)

variable {path : Option Nat} {next : Nat} {config : Nat → RotateFactory × FlusherFactory}

/-- **C88.** At every moment, what a sink has put in a file and what it still holds for it are the lines of the calls for
that file, each once and in order, and perhaps the beginning of the line of the call that is under way. -/
theorem C88_order (acts : List Act) (k i : Nat) :
    let w := (World.init path next config).run acts
    handed w.log k i ++ (w.sinks k).held i = lines (callsTo w.wrote k i) ++ (w.sinks k).begun i :=
  (inv_run (inv_init path next config) acts).text k i

theorem log_step (w : World) (a : Act) : w.log <+: (w.step a).log := by
  have hh : ∀ k i t, w.log <+: (w.hand k i t).log := fun k i t => by rw [hand_log]; exact List.prefix_append _ _
  cases a with
  | emit k m => simp only [World.step]; split <;> exact List.prefix_refl _
  | go k =>
    simp only [World.step, World.go]
    split
    all_goals try exact List.prefix_refl _
    all_goals try exact hh _ _ _
    · split <;> exact List.prefix_refl _
    · split <;> exact List.prefix_refl _
    · split <;> simp
    · split <;> exact List.prefix_refl _
  | fail k => simp only [World.step]; split <;> exact List.prefix_refl _
  | spill k n =>
    simp only [World.step]
    split
    · exact hh _ _ _
    · exact List.prefix_refl _
  | destroy k =>
    simp only [World.step]
    split
    · exact hh _ _ _
    · exact List.prefix_refl _
  | point p => simp only [World.step]; split <;> exact List.prefix_refl _
  | create => exact List.prefix_refl _

/-- **C88.** What is in a file stays there: whatever the sinks do, its text is only continued. -/
theorem C88_kept (w : World) (acts : List Act) (i : Nat) : content w.log i <+: content (w.run acts).log i := by
  have : w.log <+: (w.run acts).log := by
    induction acts generalizing w with
    | nil => exact List.prefix_refl _
    | cons a acts ih => exact (log_step w a).trans (ih (w.step a))
  obtain ⟨t, ht⟩ := this
  exact ⟨content t i, by simp [← ht, content]⟩

/-! ## Whole lines -/

/-- The message of a call. -/
def Pc.message : Pc → Option Str
  | .idle => none
  | .look m | .check m | .close m | .openFile m | .record m _ | .write m | .newline m | .flush m => some m

/-- The line that waits to be flushed. -/
def Sink.pending (k : Nat) (s : Sink) : List Chunk :=
  match s.pc, s.current with
  | .flush m, some (st, _) => [⟨k, st.inode, m ++ ['\n']⟩]
  | _, _ => []

structure SinkWhole (limit : Nat) (s : Sink) : Prop where
  every : EveryEvent s.flush
  short : ∀ m, s.pc.message = some m → m.length < limit
  current : ∀ st b, s.current = some (st, b) → b.flusher = .repeat 0 1 ∧ st.buffer = match s.pc with
    | .newline m => m
    | .flush m => m ++ ['\n']
    | _ => []

structure Whole (limit : Nat) (w : World) : Prop where
  sinks : ∀ k, SinkWhole limit (w.sinks k)
  log : ∀ k, w.log.filter (·.sink = k) ++ (w.sinks k).pending k = (w.wrote.filter (·.sink = k)).map Call.chunk

theorem whole_set {limit : Nat} {w w' : World} (k : Nat) (h : Whole limit w) (hs : ∀ j, j ≠ k → w'.sinks j = w.sinks j)
    (hl : ∀ j, j ≠ k → w'.log.filter (·.sink = j) = w.log.filter (·.sink = j))
    (hc : ∀ j, j ≠ k → w'.wrote.filter (·.sink = j) = w.wrote.filter (·.sink = j))
    (hw : SinkWhole limit (w'.sinks k))
    (ht : w'.log.filter (·.sink = k) ++ (w'.sinks k).pending k = (w'.wrote.filter (·.sink = k)).map Call.chunk) :
    Whole limit w' := by
  constructor
  · intro j
    by_cases e : j = k
    · subst e; exact hw
    · rw [hs j e]; exact h.sinks j
  · intro j
    by_cases e : j = k
    · subst e; exact ht
    · rw [hs j e, hl j e, hc j e]; exact h.log j

theorem whole_move {limit : Nat} {w w' : World} (k : Nat) (h : Whole limit w) (hs : ∀ j, j ≠ k → w'.sinks j = w.sinks j)
    (hl : w'.log = w.log) (hc : w'.wrote = w.wrote) (hw : SinkWhole limit (w'.sinks k))
    (hp : (w'.sinks k).pending k = (w.sinks k).pending k) : Whole limit w' := by
  refine whole_set k h hs (fun _ _ => by rw [hl]) (fun _ _ => by rw [hc]) hw ?_
  rw [hl, hc, hp]
  exact h.log k

theorem filter_hand (w : World) (k i : Nat) (t : Str) (j : Nat) :
    (w.hand k i t).log.filter (·.sink = j) = w.log.filter (·.sink = j) ++ if t = [] ∨ k ≠ j then [] else [⟨k, i, t⟩] := by
  rw [hand_log]
  by_cases ht : t = []
  · simp [ht]
  · by_cases e : k = j <;> simp [ht, e]

theorem whole_go {limit : Nat} {w : World} (hi : Inv w) (h : Whole limit w) (k : Nat) : Whole limit (w.go k) := by
  have hw := h.sinks k
  have hwf := hi.wf k
  have ht := h.log k
  generalize hs : w.sinks k = s at hw hwf ht
  obtain ⟨rot, fl, cur, pc⟩ := s
  obtain ⟨he, hm, hcur⟩ := hw
  simp only [World.go, hs]
  cases pc with
  | idle => exact h
  | look m =>
    have hm' : m.length < limit := hm m rfl
    cases cur with
    | none =>
      refine whole_move k h (fun j e => set_other _ _ e) rfl rfl ?_ ?_
      · simp only [set_same]
        exact ⟨he, fun m' e => by cases e; exact hm', fun st b e => by cases e⟩
      · simp [hs, Sink.pending]
    | some c =>
      obtain ⟨st, b⟩ := c
      obtain ⟨h1, h2⟩ := hcur st b rfl
      simp only
      split <;> refine whole_move k h (fun j e => set_other _ _ e) rfl rfl ?_ ?_
      · simp only [set_same]
        exact ⟨he, fun m' e => by cases e; exact hm', fun st b e => by cases e; exact ⟨h1, h2⟩⟩
      · simp [hs, Sink.pending]
      · simp only [set_same]
        exact ⟨he, fun m' e => by cases e; exact hm', fun st b e => by cases e; exact ⟨h1, h2⟩⟩
      · simp [hs, Sink.pending]
  | check m =>
    have hm' : m.length < limit := hm m rfl
    cases cur with
    | none => exact h
    | some c =>
      obtain ⟨st, b⟩ := c
      obtain ⟨h1, h2⟩ := hcur st b rfl
      simp only
      split <;> refine whole_move k h (fun j e => set_other _ _ e) rfl rfl ?_ ?_
      · simp only [set_same]
        exact ⟨he, fun m' e => by cases e; exact hm', fun st b e => by cases e; exact ⟨h1, h2⟩⟩
      · simp [hs, Sink.pending]
      · simp only [set_same]
        exact ⟨he, fun m' e => by cases e; exact hm', fun st b e => by cases e; exact ⟨h1, h2⟩⟩
      · simp [hs, Sink.pending]
  | close m =>
    have hm' : m.length < limit := hm m rfl
    cases cur with
    | none => exact h
    | some c =>
      obtain ⟨st, b⟩ := c
      obtain ⟨h1, h2⟩ := hcur st b rfl
      simp only at h2 ⊢
      have e0 : w.hand k st.inode st.buffer = w := by rw [h2]; rfl
      rw [e0]
      refine whole_move k h (fun j e => set_other _ _ e) rfl rfl ?_ ?_
      · simp only [set_same]
        exact ⟨he, fun m' e => by cases e; exact hm', fun st b e => by cases e⟩
      · simp [hs, Sink.pending]
  | openFile m =>
    have hm' : m.length < limit := hm m rfl
    cases cur with
    | some c => exact h
    | none =>
      simp only
      cases rot with
      | null =>
        refine whole_move k h (fun j e => by simp [set_other _ _ e]) (by simp) (by simp) ?_ ?_
        · simp only [set_same]
          refine ⟨he, fun m' e => by cases e; exact hm', fun st b e => ?_⟩
          cases e
          rw [show fl = .repeat 1 from he]
          exact ⟨rfl, rfl⟩
        · simp [hs, Sink.pending]
      | stat =>
        refine whole_move k h (fun j e => by simp [set_other _ _ e]) (by simp) (by simp) ?_ ?_
        · simp only [set_same]
          exact ⟨he, fun m' e => by cases e; exact hm', fun st b e => by cases e⟩
        · simp [hs, Sink.pending]
  | record m i =>
    have hm' : m.length < limit := hm m rfl
    cases cur with
    | some c => exact h
    | none =>
      simp only
      split <;> refine whole_move k h (fun j e => set_other _ _ e) rfl rfl ?_ ?_
      · simp only [set_same]
        exact ⟨he, fun m' e => (by cases e), fun st b e => by cases e⟩
      · simp [hs, Sink.pending]
      · simp only [set_same]
        refine ⟨he, fun m' e => by cases e; exact hm', fun st b e => ?_⟩
        cases e
        rw [show fl = .repeat 1 from he]
        exact ⟨rfl, rfl⟩
      · simp [hs, Sink.pending]
  | write m =>
    have hm' : m.length < limit := hm m rfl
    cases cur with
    | none => exact h
    | some c =>
      obtain ⟨st, b⟩ := c
      obtain ⟨h1, h2⟩ := hcur st b rfl
      simp only at h2 ⊢
      refine whole_move k h (fun j e => set_other _ _ e) rfl rfl ?_ ?_
      · simp only [set_same]
        exact ⟨he, fun m' e => by cases e; exact hm', fun st b e => by cases e; exact ⟨h1, by simp [h2]⟩⟩
      · simp [hs, Sink.pending]
  | newline m =>
    have hm' : m.length < limit := hm m rfl
    cases cur with
    | none => exact h
    | some c =>
      obtain ⟨st, b⟩ := c
      obtain ⟨h1, h2⟩ := hcur st b rfl
      simp only at h2 ⊢
      have hu : b.flusher.update (m.length + 1) = (.repeat 0 1, true) := by
        rw [h1]; simp [Flusher.update, Nat.mod_one]
      rw [hu]
      refine whole_set k h (fun j e => by simp [set_other _ _ e]) (fun j e => rfl) (fun j e => ?_) ?_ ?_
      · simp [Ne.symm e]
      · simp only [set_same]
        exact ⟨he, fun m' e => by cases e; exact hm', fun st b e => by cases e; exact ⟨rfl, by simp [h2]⟩⟩
      · simp only [Sink.pending, List.append_nil] at ht
        simp [Sink.pending, ht, Call.chunk]
  | flush m =>
    have hm' : m.length < limit := hm m rfl
    cases cur with
    | none => exact h
    | some c =>
      obtain ⟨st, b⟩ := c
      obtain ⟨h1, h2⟩ := hcur st b rfl
      simp only at h2 ⊢
      refine whole_set k h (fun j e => by simp [set_other _ _ e]) (fun j e => ?_) (fun j e => by simp) ?_ ?_
      · simp [filter_hand, Ne.symm e]
      · simp only [set_same]
        exact ⟨he, fun m' e => (by cases e), fun st b e => by cases e; exact ⟨h1, rfl⟩⟩
      · simp only [Sink.pending] at ht
        simp only [set_log, filter_hand, set_same, Sink.pending, List.append_nil, set_wrote, hand_wrote, ← ht, h2]
        simp

theorem patient_snoc {limit : Nat} {w : World} {acts : List Act} {a : Act} (h : Patient limit w (acts ++ [a])) :
    Patient limit w acts :=
  fun before k n after e => h before k n (after ++ [a]) (by simp [e])

theorem whole_run {limit : Nat} (hc : ∀ k, EveryEvent (config k).2) : ∀ acts : List Act,
    Patient limit (World.init path next config) acts → (∀ k m, .emit k m ∈ acts → m.length < limit) →
    Whole limit ((World.init path next config).run acts) := by
  intro acts
  induction acts using snoc_induction with
  | nil =>
    intro _ _
    exact ⟨fun k => ⟨hc k, fun m e => (by cases e), fun st b e => (by cases e)⟩, fun k => rfl⟩
  | snoc acts a ih =>
    intro hp hm
    have h := ih (patient_snoc hp) fun k m e => hm k m (by simp [e])
    have hi := inv_run (inv_init path next config) acts
    rw [run_snoc]
    have hp' := hp acts
    generalize (World.init path next config).run acts = w at h hi hp'
    cases a with
    | emit k m =>
      simp only [World.step]
      split
      · next hpc =>
        obtain ⟨he, hm', hcur⟩ := h.sinks k
        refine whole_move k h (fun j e => set_other _ _ e) rfl rfl ?_ ?_
        · simp only [set_same]
          refine ⟨he, fun m' e => by cases e; exact hm k m (by simp), fun st b e => ?_⟩
          have := hcur st b e
          rw [hpc] at this
          exact this
        · simp [Sink.pending, hpc]
      · exact h
    | go k => exact whole_go hi h k
    | fail k =>
      simp only [World.step]
      split
      · next hpc =>
        obtain ⟨he, hm', hcur⟩ := h.sinks k
        refine whole_move k h (fun j e => set_other _ _ e) rfl rfl ?_ ?_
        · simp only [set_same]
          refine ⟨he, fun m' e => (by cases e), fun st b e => ?_⟩
          have := hcur st b e
          rw [hpc] at this
          exact this
        · simp [Sink.pending, hpc]
      · exact h
    | spill k n =>
      obtain ⟨m, h1, h2⟩ := hp' k n [] rfl
      have := (h.sinks k).short m (by rw [h1]; rfl)
      omega
    | destroy k =>
      obtain ⟨he, hm', hcur⟩ := h.sinks k
      have hl := h.log k
      simp only [World.step]
      generalize hs : w.sinks k = s at he hm' hcur hl
      obtain ⟨rot, fl, cur, pc⟩ := s
      cases pc with
      | idle =>
        cases cur with
        | none => exact h
        | some c =>
          obtain ⟨st, b⟩ := c
          obtain ⟨h1, h2⟩ := hcur st b rfl
          simp only at h2 ⊢
          have e0 : w.hand k st.inode st.buffer = w := by rw [h2]; rfl
          rw [e0]
          refine whole_move k h (fun j e => set_other _ _ e) rfl rfl ?_ ?_
          · simp only [set_same]
            exact ⟨he, fun m' e => (by cases e), fun st b e => by cases e⟩
          · simp [hs, Sink.pending]
      | _ => exact h
    | point p =>
      simp only [World.step]
      split
      · exact ⟨h.sinks, h.log⟩
      · exact h
    | create => exact ⟨h.sinks, h.log⟩

/-- **C88.** If the sinks flush after every line and the messages are shorter than what makes a stream hand over by itself,
lines are never broken: everything in every file is the whole line of a call. -/
theorem C88_whole {limit : Nat} (hc : ∀ k, EveryEvent (config k).2) {acts : List Act}
    (hp : Patient limit (World.init path next config) acts) (hm : ∀ k m, .emit k m ∈ acts → m.length < limit) :
    let w := (World.init path next config).run acts
    (∀ i, ∃ calls : List Call, content w.log i = lines calls ∧ ∀ c ∈ calls, c ∈ w.wrote ∧ c.inode = i)
      ∧ ∀ k, (w.sinks k).pc = .idle → w.log.filter (·.sink = k) = (w.wrote.filter (·.sink = k)).map Call.chunk := by
  intro w
  have h : Whole limit w := whole_run hc acts hp hm
  have hl : ∀ c ∈ w.log, ∃ call ∈ w.wrote, c = call.chunk := by
    intro c hc
    have h1 : c ∈ w.log.filter (·.sink = c.sink) ++ (w.sinks c.sink).pending c.sink := by simp [hc]
    rw [h.log] at h1
    obtain ⟨call, h2, h3⟩ := List.mem_map.mp h1
    exact ⟨call, (List.mem_filter.mp h2).1, h3.symm⟩
  refine ⟨fun i => ?_, fun k hk => ?_⟩
  · generalize w.log = log at hl
    clear hp hm
    induction log with
    | nil => exact ⟨[], rfl, by simp⟩
    | cons c log ih =>
      obtain ⟨calls, h1, h2⟩ := ih fun c h => hl c (by simp [h])
      obtain ⟨call, h3, h4⟩ := hl c (by simp)
      by_cases e : c.inode = i
      · refine ⟨call :: calls, ?_, ?_⟩
        · simp only [content, List.filter_cons, e, decide_true, if_true, List.flatMap_cons, lines]
          simp only [content, lines] at h1
          rw [h1, h4]; rfl
        · intro x hx
          rcases List.mem_cons.mp hx with rfl | hx
          · exact ⟨h3, by rw [h4] at e; exact e⟩
          · exact h2 x hx
      · exact ⟨calls, by simpa [content, e] using h1, h2⟩
  · have := h.log k
    simpa [Sink.pending, hk] using this

/-! ## Which file -/

theorem since_snoc (k : Nat) (a : Act) (acts : List Act) : ∀ (w : World) (seen : List (Option Nat)),
    since k w seen (acts ++ [a]) = (match a with
      | .emit j _ => if j = k ∧ ((w.run acts).sinks k).pc = .idle then [(w.run acts).path] else since k w seen acts
      | _ => since k w seen acts) ++ [((w.run acts).step a).path] := by
  induction acts with
  | nil => intro w seen; rfl
  | cons x acts ih => intro w seen; exact ih _ _

theorem rotate_step (w : World) (a : Act) (k : Nat) : ((w.step a).sinks k).rotate = (w.sinks k).rotate := by
  cases a with
  | go j =>
    simp only [World.step, World.go]
    split <;> (try split) <;> simp only [set_sinks, hand_sinks, named_sinks] <;> (try split) <;> simp_all
  | create => rfl
  | point p => simp only [World.step]; split <;> rfl
  | emit j m => simp only [World.step]; split <;> (try simp only [set_sinks]) <;> (try split) <;> simp_all
  | fail j => simp only [World.step]; split <;> (try simp only [set_sinks]) <;> (try split) <;> simp_all
  | spill j n => simp only [World.step]; split <;> (try simp only [set_sinks, hand_sinks]) <;> (try split) <;> simp_all
  | destroy j => simp only [World.step]; split <;> (try simp only [set_sinks, hand_sinks]) <;> (try split) <;> simp_all

theorem rotate_run (w : World) (acts : List Act) (k : Nat) : ((w.run acts).sinks k).rotate = (w.sinks k).rotate := by
  induction acts generalizing w with
  | nil => rfl
  | cons a acts ih => rw [show w.run (a :: acts) = (w.step a).run acts from rfl, ih, rotate_step]

/-- What a sink that looks for rotation knows about its file. -/
structure Knows (s : Sink) (seen : List (Option Nat)) : Prop where
  stat : ∀ st b, s.current = some (st, b) → b.rotate = .stat st.inode
  opened : ∀ m i, s.pc = .record m i → some i ∈ seen
  checked : ∀ m st b, s.pc = .write m ∨ s.pc = .newline m → s.current = some (st, b) → some st.inode ∈ seen

theorem Knows.mono {s : Sink} {a b : List (Option Nat)} (h : Knows s a) (hab : ∀ x ∈ a, x ∈ b) : Knows s b :=
  ⟨h.stat, fun m i e => hab _ (h.opened m i e), fun m st b e e' => hab _ (h.checked m st b e e')⟩

theorem go_other (w : World) {k j : Nat} (h : k ≠ j) : (w.go j).sinks k = w.sinks k := by
  simp only [World.go]
  split
  all_goals try (first | rfl | (rw [set_other _ _ h]; done) | (rw [set_other _ _ h, hand_sinks]; done))
  all_goals try (split <;> (first | rfl | (rw [set_other _ _ h]; done) | (rw [set_other _ _ h, named_sinks]; done)))

theorem step_other (w : World) {k : Nat} {a : Act} (h : ∀ m n, a ≠ .emit k m ∧ a ≠ .go k ∧ a ≠ .fail k ∧ a ≠ .spill k n ∧ a ≠ .destroy k) :
    (w.step a).sinks k = w.sinks k := by
  cases a with
  | go j => exact go_other w fun e => (h [] 0).2.1 (by rw [e])
  | emit j m =>
    have : k ≠ j := fun e => (h m 0).1 (by rw [e])
    simp only [World.step]; split <;> simp [set_other _ _ this]
  | fail j =>
    have : k ≠ j := fun e => (h [] 0).2.2.1 (by rw [e])
    simp only [World.step]; split <;> simp [set_other _ _ this]
  | spill j n =>
    have : k ≠ j := fun e => (h [] n).2.2.2.1 (by rw [e])
    simp only [World.step]; split <;> simp [set_other _ _ this]
  | destroy j =>
    have : k ≠ j := fun e => (h [] 0).2.2.2.2 (by rw [e])
    simp only [World.step]; split <;> simp [set_other _ _ this]
  | point p => simp only [World.step]; split <;> rfl
  | create => rfl

theorem knows_go {w : World} {k : Nat} {seen : List (Option Nat)} (hr : (w.sinks k).rotate = .stat) (h : Knows (w.sinks k) seen)
    (hp : w.path ∈ seen ∨ (w.sinks k).pc = .idle)
    (hn : ∀ m i, (w.sinks k).pc = .record m i → w.path = some i) :
    Knows ((w.go k).sinks k) (seen ++ [(w.go k).path]) := by
  have h' := h.mono (b := seen ++ [(w.go k).path]) (by simp +contextual)
  generalize hseen : seen ++ [(w.go k).path] = seen' at h' ⊢
  have hsub : ∀ x ∈ seen, x ∈ seen' := by rw [← hseen]; simp +contextual
  have hlast : (w.go k).path ∈ seen' := by rw [← hseen]; simp
  clear hseen
  revert hlast
  generalize hs : w.sinks k = s at hr h h' hp hn
  obtain ⟨rot, fl, cur, pc⟩ := s
  simp only at hr
  subst hr
  simp only [World.go, hs]
  cases pc with
  | idle => intro _; rw [hs]; exact h'
  | look m =>
    intro _
    cases cur with
    | none => simp only [set_same]; exact ⟨fun _ _ e => (by cases e), fun _ _ e => (by cases e), fun _ _ _ _ e => (by cases e)⟩
    | some c =>
      obtain ⟨st, b⟩ := c
      have := h.stat st b rfl
      simp only [this, set_same]
      exact ⟨fun _ _ e => (by cases e; exact this), fun _ _ e => (by cases e), fun _ _ _ e => (by rcases e with e | e <;> cases e)⟩
  | check m =>
    intro _
    cases cur with
    | none => rw [hs]; exact h'
    | some c =>
      obtain ⟨st, b⟩ := c
      have hb := h.stat st b rfl
      simp only [hb]
      split
      · simp only [set_same]
        exact ⟨fun _ _ e => (by cases e; exact hb), fun _ _ e => (by cases e), fun _ _ _ e => (by rcases e with e | e <;> cases e)⟩
      · next hrot =>
        simp only [set_same]
        refine ⟨fun _ _ e => (by cases e; exact hb), fun _ _ e => (by cases e), fun _ _ _ _ e => ?_⟩
        cases e
        have hpath : w.path = some st.inode := by
          cases hw : w.path with
          | none => simp [hw, Rotate.shouldRotate] at hrot
          | some j => simpa [hw, Rotate.shouldRotate] using hrot
        rcases hp with hp | hp
        · exact hsub _ (hpath ▸ hp)
        · cases hp
  | close m =>
    intro _
    cases cur with
    | none => rw [hs]; exact h'
    | some c =>
      obtain ⟨st, b⟩ := c
      simp only [set_same]
      exact ⟨fun _ _ e => (by cases e), fun _ _ e => (by cases e), fun _ _ _ _ e => (by cases e)⟩
  | openFile m =>
    cases cur with
    | some c => intro _; rw [hs]; exact h'
    | none =>
      intro hlast
      have hlast : w.named.1.path ∈ seen' := hlast
      rw [named_path] at hlast
      simp only [set_same]
      exact ⟨fun _ _ e => (by cases e), fun _ _ e => (by cases e; exact hlast), fun _ _ _ _ e => (by cases e)⟩
  | record m i =>
    cases cur with
    | some c => intro _; rw [hs]; exact h'
    | none =>
      have hpath := hn m i rfl
      rw [hpath]
      intro _
      simp only [set_same]
      exact ⟨fun _ _ e => (by cases e; rfl), fun _ _ e => (by cases e), fun _ _ _ _ e => (by cases e; exact hsub _ (h.opened m i rfl))⟩
  | write m =>
    intro _
    cases cur with
    | none => rw [hs]; exact h'
    | some c =>
      obtain ⟨st, b⟩ := c
      have hb := h.stat st b rfl
      simp only [set_same]
      exact ⟨fun _ _ e => (by cases e; exact hb), fun _ _ e => (by cases e),
        fun _ _ _ _ e => (by cases e; exact hsub _ (h.checked m st b (.inl rfl) rfl))⟩
  | newline m =>
    intro _
    cases cur with
    | none => rw [hs]; exact h'
    | some c =>
      obtain ⟨st, b⟩ := c
      have hb := h.stat st b rfl
      simp only [set_same]
      generalize b.flusher.update (m.length + 1) = u
      obtain ⟨fl', u⟩ := u
      cases u <;>
        exact ⟨fun _ _ e => (by cases e; exact hb), fun _ _ e => (by cases e), fun _ _ _ e => (by rcases e with e | e <;> cases e)⟩
  | flush m =>
    intro _
    cases cur with
    | none => rw [hs]; exact h'
    | some c =>
      obtain ⟨st, b⟩ := c
      have hb := h.stat st b rfl
      simp only [set_same]
      exact ⟨fun _ _ e => (by cases e; exact hb), fun _ _ e => (by cases e), fun _ _ _ e => (by rcases e with e | e <;> cases e)⟩

theorem noRace_snoc {k : Nat} {w : World} {acts : List Act} {a : Act} (h : NoRace k w (acts ++ [a])) : NoRace k w acts :=
  fun before after m i e => h before (after ++ [a]) m i (by simp [e])

theorem knows_run {k : Nat} (hc : (config k).1 = .stat) : ∀ acts : List Act, NoRace k (World.init path next config) acts →
    let w := (World.init path next config).run acts
    let seen := since k (World.init path next config) [] acts
    Knows (w.sinks k) seen ∧ (w.path ∈ seen ∨ (w.sinks k).pc = .idle) := by
  intro acts
  induction acts using snoc_induction with
  | nil =>
    intro _
    exact ⟨⟨fun _ _ e => (by cases e), fun _ _ e => (by cases e), fun _ _ _ e => (by rcases e with e | e <;> cases e)⟩, .inr rfl⟩
  | snoc acts a ih =>
    intro hn
    obtain ⟨h, hp⟩ := ih (noRace_snoc hn)
    have hr : (((World.init path next config).run acts).sinks k).rotate = .stat := (rotate_run _ _ _).trans hc
    have hn' := hn acts []
    simp only [run_snoc, since_snoc]
    generalize (World.init path next config).run acts = w at h hp hr hn'
    generalize since k (World.init path next config) [] acts = seen at h hp
    refine ⟨?_, .inl (by simp)⟩
    have same : ∀ seen', (∀ x ∈ seen, x ∈ seen') → (w.step a).sinks k = w.sinks k → Knows ((w.step a).sinks k) seen' :=
      fun seen' hs e => by rw [e]; exact h.mono hs
    by_cases ha : ∀ m n, a ≠ .emit k m ∧ a ≠ .go k ∧ a ≠ .fail k ∧ a ≠ .spill k n ∧ a ≠ .destroy k
    · refine same _ ?_ (step_other w ha)
      intro x hx
      cases a with
      | emit j m =>
        have : j ≠ k := fun e => (ha m 0).1 (by rw [e])
        simp [this, hx]
      | _ => simp [hx]
    · cases a with
      | emit j m =>
        by_cases e : j = k
        · subst e
          by_cases hi : (w.sinks j).pc = .idle
          · simp only [World.step, hi, if_true, set_same]
            exact ⟨h.stat, fun _ _ e => (by cases e), fun _ _ _ e => (by rcases e with e | e <;> cases e)⟩
          · refine same _ (by simp +contextual [hi]) (by simp [World.step, hi])
        · exact absurd (fun m n => by simp [e]) ha
      | go j =>
        by_cases e : j = k
        · subst e
          exact knows_go hr h hp fun m i e => hn' m i rfl e
        · exact absurd (fun m n => by simp [e]) ha
      | fail j =>
        by_cases e : j = k
        · subst e
          simp only [World.step]
          split
          · simp only [set_same]
            exact ⟨h.stat, fun _ _ e => (by cases e), fun _ _ _ e => (by rcases e with e | e <;> cases e)⟩
          · exact h.mono (by simp +contextual)
        · exact absurd (fun m n => by simp [e]) ha
      | spill j n =>
        by_cases e : j = k
        · subst e
          simp only [World.step]
          split
          · next st b hcur =>
            simp only [set_same]
            refine ⟨fun _ _ e => (by cases e; exact h.stat st b hcur), fun m i e => (by have := h.opened m i e; simp [this]), fun m _ _ e e' => ?_⟩
            cases e'
            have := h.checked m st b e hcur
            simp [this]
          · exact h.mono (by simp +contextual)
        · exact absurd (fun m n => by simp [e]) ha
      | destroy j =>
        by_cases e : j = k
        · subst e
          simp only [World.step]
          split
          · next hpc hcur =>
            simp only [set_same]
            exact ⟨fun _ _ e => (by cases e), fun m i e => (by rw [hpc] at e; cases e), fun m _ _ e e' => (by cases e')⟩
          · exact h.mono (by simp +contextual)
        · exact absurd (fun m n => by simp [e]) ha
      | point p => exact absurd (fun m n => by simp) ha
      | create => exact absurd (fun m n => by simp) ha

theorem wrote_go {w : World} {j k i : Nat} {m : Str} (h : (w.go j).wrote = w.wrote ++ [⟨k, i, m⟩]) :
    j = k ∧ ∃ st b, (w.sinks k).pc = .newline m ∧ (w.sinks k).current = some (st, b) ∧ st.inode = i := by
  have no : w.wrote ≠ w.wrote ++ [⟨k, i, m⟩] := fun e => by simpa using congrArg List.length e
  generalize hs : w.sinks j = s at h
  obtain ⟨rot, fl, cur, pc⟩ := s
  simp only [World.go, hs] at h
  cases pc <;> cases cur
  all_goals try exact absurd h no
  case newline.some m' c =>
    obtain ⟨st, b⟩ := c
    simp only [List.append_cancel_left_eq, List.cons.injEq, Call.mk.injEq, and_true] at h
    obtain ⟨rfl, rfl, rfl⟩ := h
    exact ⟨rfl, st, b, by rw [hs], by rw [hs], rfl⟩
  all_goals
    revert h
    try simp only
    repeat' split
    all_goals simp

/-- A line is recorded by a step of its call. -/
theorem wrote_step {w : World} {a : Act} {k i : Nat} {m : Str} (h : (w.step a).wrote = w.wrote ++ [⟨k, i, m⟩]) :
    a = .go k ∧ ∃ st b, (w.sinks k).pc = .newline m ∧ (w.sinks k).current = some (st, b) ∧ st.inode = i := by
  have no : w.wrote ≠ w.wrote ++ [⟨k, i, m⟩] := fun e => by simpa using congrArg List.length e
  cases a with
  | go j =>
    obtain ⟨rfl, h⟩ := wrote_go h
    exact ⟨rfl, h⟩
  | emit j m => simp only [World.step] at h; split at h <;> exact absurd h no
  | fail j => simp only [World.step] at h; split at h <;> exact absurd h no
  | spill j n => simp only [World.step] at h; split at h <;> simp at h
  | destroy j => simp only [World.step] at h; split at h <;> simp at h
  | point p => simp only [World.step] at h; split at h <;> exact absurd h no
  | create => exact absurd h no

/-- **C88.** A sink that looks for rotation, and is not overtaken between opening its file and noting its inode, writes a
line to a file that the path has named since the call began. -/
theorem C88_rotation {k : Nat} (hc : (config k).1 = .stat) {acts : List Act} {a : Act} {i : Nat} {m : Str}
    (hn : NoRace k (World.init path next config) acts)
    (hw : ((World.init path next config).run (acts ++ [a])).wrote
      = ((World.init path next config).run acts).wrote ++ [⟨k, i, m⟩]) :
    some i ∈ since k (World.init path next config) [] acts := by
  rw [run_snoc] at hw
  obtain ⟨_, st, b, h1, h2, rfl⟩ := wrote_step hw
  exact (knows_run hc acts hn).1.checked m st b (.inr h1) h2

theorem wrote_cases (w : World) (j : Nat) : (w.go j).wrote = w.wrote ∨ ∃ i m, (w.go j).wrote = w.wrote ++ [⟨j, i, m⟩] := by
  simp only [World.go]
  split
  all_goals try (first | exact .inl rfl | exact .inr ⟨_, _, rfl⟩)
  · split <;> exact .inl rfl
  · split <;> exact .inl rfl
  · exact .inl (by simp)
  · split <;> exact .inl (by simp)
  · split <;> exact .inl rfl
  · exact .inl (by simp)

/-- A sink without rotation stays with its file. -/
structure Stays (k : Nat) (w : World) : Prop where
  kept : ∀ st b, (w.sinks k).current = some (st, b) → b.rotate = .null ∧ ∀ c ∈ w.wrote, c.sink = k → c.inode = st.inode
  fresh : (w.sinks k).current = none → ∀ c ∈ w.wrote, c.sink ≠ k
  pc : ∀ m i, (w.sinks k).pc ≠ .check m ∧ (w.sinks k).pc ≠ .close m ∧ (w.sinks k).pc ≠ .record m i

theorem Stays.keep {k : Nat} {w w' : World} (h : Stays k w) (e : (w'.sinks k).current = (w.sinks k).current)
    (hw : ∀ c ∈ w'.wrote, c.sink = k → c ∈ w.wrote)
    (hp : ∀ m i, (w'.sinks k).pc ≠ .check m ∧ (w'.sinks k).pc ≠ .close m ∧ (w'.sinks k).pc ≠ .record m i) : Stays k w' :=
  ⟨fun st b e' => ⟨(h.kept st b (e ▸ e')).1, fun c hc hk => (h.kept st b (e ▸ e')).2 c (hw c hc hk) hk⟩,
    fun e' c hc hk => h.fresh (e ▸ e') c (hw c hc hk) hk, hp⟩

theorem stays_go {k : Nat} {w : World} (hr : (w.sinks k).rotate = .null) (h : Stays k w) : Stays k (w.go k) := by
  obtain ⟨h1, h2, h3⟩ := id h
  generalize hs : w.sinks k = s at hr h1 h2 h3
  obtain ⟨rot, fl, cur, pc⟩ := s
  simp only at hr
  subst hr
  simp only [World.go, hs]
  cases pc with
  | idle => exact h
  | look m =>
    cases cur with
    | none => exact h.keep (by simp [hs]) (fun c h _ => h) (by simp)
    | some c =>
      obtain ⟨st, b⟩ := c
      simp only [(h1 st b rfl).1]
      exact h.keep (by simp [hs]) (fun c h _ => h) (by simp)
  | check m => exact absurd rfl (h3 m 0).1
  | close m => exact absurd rfl (h3 m 0).2.1
  | record m i => exact absurd rfl (h3 m i).2.2
  | openFile m =>
    cases cur with
    | some c => exact h
    | none =>
      simp only
      refine ⟨fun st b e => ?_, fun e => (by simp at e), by simp⟩
      simp only [set_same] at e
      cases e
      exact ⟨rfl, fun c hc hk => absurd hk (h2 rfl c (by simpa using hc))⟩
  | write m =>
    cases cur with
    | none => exact h
    | some c =>
      obtain ⟨st, b⟩ := c
      simp only
      refine ⟨fun st' b' e => ?_, fun e => (by simp at e), by simp⟩
      simp only [set_same] at e
      cases e
      exact h1 st b rfl
  | newline m =>
    cases cur with
    | none => exact h
    | some c =>
      obtain ⟨st, b⟩ := c
      simp only
      refine ⟨fun st' b' e => ?_, fun e => (by simp at e), fun m i => ?_⟩
      · simp only [set_same] at e
        cases e
        refine ⟨(h1 st b rfl).1, fun c hc' hk => ?_⟩
        rcases List.mem_append.mp hc' with hc' | hc'
        · exact (h1 st b rfl).2 c hc' hk
        · simp only [List.mem_singleton] at hc'; rw [hc']
      · simp only [set_same]
        split <;> simp
  | flush m =>
    cases cur with
    | none => exact h
    | some c =>
      obtain ⟨st, b⟩ := c
      simp only
      refine ⟨fun st' b' e => ?_, fun e => (by simp at e), by simp⟩
      simp only [set_same] at e
      cases e
      simpa using h1 st b rfl

theorem stays_run {k : Nat} (hc : (config k).1 = .null) : ∀ acts : List Act, (.destroy k ∉ acts) →
    Stays k ((World.init path next config).run acts) := by
  intro acts
  induction acts using snoc_induction with
  | nil =>
    intro _
    exact ⟨fun _ _ e => (by cases e), fun _ c e => (by cases e), fun m i => by simp [World.run, World.init]⟩
  | snoc acts a ih =>
    intro hd
    have h := ih fun e => hd (by simp [e])
    have hr : (((World.init path next config).run acts).sinks k).rotate = .null := (rotate_run _ _ _).trans hc
    simp only [run_snoc]
    generalize (World.init path next config).run acts = w at h hr
    have hd : a ≠ .destroy k := fun e => hd (by simp [e])
    cases a with
    | emit j m =>
      simp only [World.step]
      split
      · by_cases e : k = j
        · subst e; exact h.keep (by simp) (fun c h _ => h) (by simp)
        · exact h.keep (by simp [set_other _ _ e]) (fun c h _ => h) (by simpa [set_other _ _ e] using h.pc)
      · exact h
    | fail j =>
      simp only [World.step]
      split
      · by_cases e : k = j
        · subst e; exact h.keep (by simp) (fun c h _ => h) (by simp)
        · exact h.keep (by simp [set_other _ _ e]) (fun c h _ => h) (by simpa [set_other _ _ e] using h.pc)
      · exact h
    | spill j n =>
      simp only [World.step]
      split
      · next st b hcur =>
        by_cases e : k = j
        · subst e
          refine ⟨fun st' b' e => ?_, fun e => (by simp at e), by simpa using h.pc⟩
          simp only [set_same] at e
          cases e
          simpa using h.kept st b hcur
        · exact h.keep (by simp [set_other _ _ e]) (fun c h _ => by simpa using h) (by simpa [set_other _ _ e] using h.pc)
      · exact h
    | destroy j =>
      have e : k ≠ j := fun e => hd (by rw [e])
      simp only [World.step]
      split
      · exact h.keep (by simp [set_other _ _ e]) (fun c h _ => by simpa using h) (by simpa [set_other _ _ e] using h.pc)
      · exact h
    | point p =>
      simp only [World.step]; split
      · exact h.keep rfl (fun c h _ => h) h.pc
      · exact h
    | create => exact h.keep rfl (fun c h _ => h) h.pc
    | go j =>
      simp only [World.step]
      by_cases e : k = j
      · subst e; exact stays_go hr h
      · refine h.keep (by rw [go_other w e]) (fun c hc' hk => ?_) (by rw [go_other w e]; exact h.pc)
        rcases wrote_cases w j with e' | ⟨i, m, e'⟩
        · rwa [e'] at hc'
        · rw [e'] at hc'
          rcases List.mem_append.mp hc' with hc' | hc'
          · exact hc'
          · simp only [List.mem_singleton] at hc'
            rw [hc'] at hk
            exact absurd hk.symm e

/-- **C88.** A sink without rotation that is not destroyed writes all its lines to one file, whatever becomes of the path. -/
theorem C88_null {k : Nat} (hc : (config k).1 = .null) {acts : List Act} (hd : .destroy k ∉ acts) :
    let w := (World.init path next config).run acts
    ∀ c ∈ w.wrote, ∀ d ∈ w.wrote, c.sink = k → d.sink = k → c.inode = d.inode := by
  intro w c hc' d hd' h1 h2
  have h : Stays k w := stays_run hc acts hd
  cases hcur : (w.sinks k).current with
  | none => exact absurd h1 (h.fresh hcur c hc')
  | some x => exact ((h.kept x.1 x.2 hcur).2 c hc' h1).trans ((h.kept x.1 x.2 hcur).2 d hd' h2).symm

/-! ## Cases -/

/-- Steps of a call, as many as it takes at most. -/
def call (k : Nat) (m : Str) : List Act := .emit k m :: List.replicate 8 (.go k)

/-- Two sinks that look for rotation and flush after every line; the path is moved away between their calls. -/
def every : Nat → RotateFactory × FlusherFactory := fun _ => (.stat, .repeat 1)

def rotating : List Act := call 0 ['a'] ++ call 1 ['b'] ++ [.point none] ++ call 1 ['c'] ++ call 0 ['d']

theorem patient_of_none {limit : Nat} {w : World} {acts : List Act} (h : ∀ k n, .spill k n ∉ acts) : Patient limit w acts :=
  fun before k n after e => absurd (by simp [e]) (h k n)

example : Patient 1024 (World.init none 0 every) rotating ∧ (∀ k m, .emit k m ∈ rotating → m.length < 1024)
    ∧ content ((World.init none 0 every).run rotating).log 0 = ['a', '\n', 'b', '\n']
    ∧ content ((World.init none 0 every).run rotating).log 1 = ['c', '\n', 'd', '\n'] := by
  refine ⟨patient_of_none fun k n => ?_, fun k m h => ?_, by decide, by decide⟩
  · simp [rotating, call]
  · simp only [rotating, call, List.replicate, List.mem_cons, List.cons_append, List.nil_append,
      reduceCtorEq, Act.emit.injEq, List.not_mem_nil, or_false, false_or] at h
    rcases h with h | h | h | h <;> simp [h.2]

/-- The same run with sinks that keep what they are given: everything is still held for the files, in order. -/
example : let w := (World.init none 0 fun _ => (.null, .repeat 0)).run (call 0 ['a'] ++ call 1 ['b'] ++ call 0 ['c'])
    content w.log 0 = [] ∧ (w.sinks 0).held 0 = ['a', '\n', 'c', '\n'] ∧ (w.sinks 1).held 0 = ['b', '\n'] := by decide

/-- A call that finds the path gone writes to the file that it makes: the hypotheses of `C88_rotation` hold. -/
def moved : List Act := call 0 ['a'] ++ [.point none, .emit 0 ['b']] ++ List.replicate 6 (.go 0)

def raceFree (k : Nat) : World → List Act → Bool
  | _, [] => true
  | w, a :: acts =>
    (match a, (w.sinks k).pc with
      | .go j, .record _ i => j != k || w.path == some i
      | _, _ => true) && raceFree k (w.step a) acts

theorem noRace_of {k : Nat} {acts : List Act} : ∀ {w : World}, raceFree k w acts = true → NoRace k w acts := by
  induction acts with
  | nil => intro w _ before after m i e; cases before <;> cases e
  | cons a acts ih =>
    intro w h before after m i e hp
    simp only [raceFree, Bool.and_eq_true] at h
    cases before with
    | nil =>
      cases e
      have hp : (w.sinks k).pc = .record m i := hp
      simpa [hp, World.run] using h.1
    | cons x before =>
      simp only [List.cons_append, List.cons.injEq] at e
      obtain ⟨rfl, e⟩ := e
      exact ih h.2 before after m i e hp

example : NoRace 0 (World.init none 0 every) moved
    ∧ ((World.init none 0 every).run (moved ++ [.go 0])).wrote
      = ((World.init none 0 every).run moved).wrote ++ [⟨0, 1, ['b']⟩]
    ∧ since 0 (World.init none 0 every) [] moved = [none, none, none, none, none, some 1, some 1, some 1] :=
  ⟨noRace_of (by decide), by decide, by decide⟩

/-- A sink without rotation goes on with the file that was moved away. -/
example : let w := (World.init none 0 fun _ => (.null, .repeat 1)).run (call 0 ['a'] ++ [.create] ++ call 0 ['b'])
    w.path = some 1 ∧ content w.log 0 = ['a', '\n', 'b', '\n'] ∧ content w.log 1 = [] := by decide

/-! ## What goes wrong -/

/-- **C88 fails for the default flush policy.** Each stream hands over when its buffer is full, wherever that is in a line:
the lines of two sinks run into each other. Here the streams of
two sinks hand over the first four bytes. -/
theorem C88_fails_default : ∃ acts : List Act,
    let w := (World.init none 0 fun _ => (.null, .repeat 0)).run acts
    w.wrote = [⟨0, 0, ['a', 'b']⟩, ⟨1, 0, ['x', 'y']⟩, ⟨0, 0, ['c', 'd']⟩, ⟨1, 0, ['z', 'w']⟩]
      ∧ (∀ k, (w.sinks k).current = none)
      ∧ content w.log 0 = ['a', 'b', '\n', 'c', 'x', 'y', '\n', 'z', 'd', '\n', 'w', '\n'] :=
  ⟨call 0 ['a', 'b'] ++ call 1 ['x', 'y'] ++ call 0 ['c', 'd'] ++ call 1 ['z', 'w']
    ++ [.spill 0 4, .spill 1 4, .destroy 0, .destroy 1], by
      refine ⟨by decide, fun k => ?_, by decide⟩
      match k with
      | 0 => decide
      | 1 => decide
      | k + 2 => rfl⟩

/-- **C88 fails for long messages.** Although the sinks flush after every line and streams hand over nothing but long
messages, a long message comes to the file before its newline, and another line in between. (The GNU library hands over
texts of 1024 bytes and more at once.) -/
theorem C88_fails_long (m : Str) (hm : 1024 ≤ m.length) : ∃ acts : List Act,
    let w := (World.init none 0 every).run acts
    Patient 1024 (World.init none 0 every) acts ∧ (∀ k, (w.sinks k).pc = .idle)
      ∧ w.wrote = [⟨1, 0, ['b']⟩, ⟨0, 0, m⟩] ∧ content w.log 0 = m ++ ['b', '\n', '\n'] := by
  have hne : m ≠ [] := fun e => by simp [e] at hm
  refine ⟨.emit 0 m :: List.replicate 4 (.go 0) ++ .spill 0 m.length :: (call 1 ['b'] ++ List.replicate 2 (.go 0)), ?_, ?_⟩
  · intro before k n after e
    match before, e with
    | [_, _, _, _, _], e =>
      cases e
      exact ⟨m, rfl, hm⟩
    | [], e | [_], e | [_, _], e | [_, _, _], e | [_, _, _, _], e => cases e
    | _ :: _ :: _ :: _ :: _ :: _ :: before, e =>
      simp only [List.replicate, List.cons_append, List.cons.injEq, List.nil_append] at e
      have : Act.spill k n ∈ call 1 ['b'] ++ [.go 0, .go 0] := by rw [e.2.2.2.2.2.2]; simp
      simp [call] at this
  · simp [World.run, call, List.replicate, World.step, World.go, World.init, every, World.named, World.set,
      FlusherFactory.create, Flusher.update, World.hand, hne, content]
    intro k
    by_cases h0 : k = 0
    · simp [h0]
    · by_cases h1 : k = 1 <;> simp [h0, h1]

/-- **C88 fails when opening and `stat` do not agree.** The file is moved away and another one made between the two. The
sink notes the inode of the new file, keeps writing to the old one, and never notices. -/
theorem C88_fails_race : ∃ acts : List Act, ∀ n : Nat,
    let w := (World.init none 0 every).run (acts ++ (List.replicate n (call 0 ['a'])).flatten)
    w.path = some 1 ∧ content w.log 1 = [] ∧ content w.log 0 = (List.replicate (n + 1) ['a', '\n']).flatten := by
  refine ⟨[.emit 0 ['a'], .go 0, .go 0, .create] ++ List.replicate 4 (.go 0), fun n => ?_⟩
  have step : ∀ w : World, w.sinks 0 = ⟨.stat, .repeat 1, some (⟨0, []⟩, ⟨.stat 1, .repeat 0 1⟩), .idle⟩ → w.path = some 1 →
      (w.run (call 0 ['a'])).sinks 0 = ⟨.stat, .repeat 1, some (⟨0, []⟩, ⟨.stat 1, .repeat 0 1⟩), .idle⟩
      ∧ (w.run (call 0 ['a'])).path = some 1 ∧ (w.run (call 0 ['a'])).log = w.log ++ [⟨0, 0, ['a', '\n']⟩] := by
    intro w h1 h2
    simp [World.run, call, List.replicate, World.step, World.go, h1, h2, World.set, Rotate.shouldRotate, Flusher.update,
      World.hand]
  have all : ∀ n, ∀ w : World, w.sinks 0 = ⟨.stat, .repeat 1, some (⟨0, []⟩, ⟨.stat 1, .repeat 0 1⟩), .idle⟩ →
      w.path = some 1 → (w.run (List.replicate n (call 0 ['a'])).flatten).path = some 1
      ∧ (w.run (List.replicate n (call 0 ['a'])).flatten).log = w.log ++ List.replicate n ⟨0, 0, ['a', '\n']⟩ := by
    intro n
    induction n with
    | zero => intro w _ h; exact ⟨h, by simp [World.run]⟩
    | succ n ih =>
      intro w h1 h2
      obtain ⟨h3, h4, h5⟩ := step w h1 h2
      obtain ⟨h6, h7⟩ := ih _ h3 h4
      rw [List.replicate_succ, List.flatten_cons, run_append]
      exact ⟨h6, by rw [h7, h5, List.replicate_succ]; simp⟩
  rw [run_append]
  obtain ⟨h1, h2⟩ := all n ((World.init none 0 every).run ([.emit 0 ['a'], .go 0, .go 0, .create] ++ List.replicate 4 (.go 0)))
    (by decide) (by decide)
  have h3 : ((World.init none 0 every).run ([.emit 0 ['a'], .go 0, .go 0, .create] ++ List.replicate 4 (.go 0))).log
      = [⟨0, 0, ['a', '\n']⟩] := by decide
  rw [h3] at h2
  refine ⟨h1, ?_, ?_⟩
  · rw [h2]; simp [content]
  · rw [h2]; simp [content, List.replicate_succ, List.flatMap]

end Blackhole.Together
