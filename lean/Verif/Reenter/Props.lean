import Verif.Reenter.Progress

/-!
# Callbacks that use the library again (C73)

While a log call runs, it calls code of the user. Unless this is one of the five kinds of callbacks that the library runs
under a lock, the callback may use the library again, with any logger and to any depth, and so may all other threads at the
same time.
-/

namespace Blackhole.Reenter

/-- A thread that is in the program, or in a callback other than the five kinds, holds no lock of the library: not after
any number of calls, nested ones, callbacks that threw and sinks that failed. -/
theorem C73_unlocked_partial {cells : Nat → Nat} {cfgs : Nat → Cfg} {cs : List Cmd} {t : Nat} {w : Who} {rest : List Frame}
    (hg : Gentle (.init cells cfgs) cs) (ht : ((State.init cells cfgs).run cs).stack t = .usr w :: rest)
    (hw : w.guarded = false) (m : Mutex) : ((State.init cells cfgs).run cs).holder m ≠ some t := by
  obtain ⟨h, h1, h2⟩ := inv_run (inv_init cells cfgs) hg t
  rw [ht] at h1
  have : Good h (.usr w :: rest) := h1
  have hn := (good_none this).1 hw
  intro hm
  rw [(h2 m).1 hm] at hn
  cases hn

/-- A thread that waits for a lock does not wait for itself, and the one it waits for waits for nobody. -/
theorem C73_no_deadlock_partial {cells : Nat → Nat} {cfgs : Nat → Cfg} {cs : List Cmd} {t : Nat} {m : Mutex}
    (hg : Gentle (.init cells cfgs) cs) (hw : Waits ((State.init cells cfgs).run cs) t m) :
    ∃ u, u ≠ t ∧ ((State.init cells cfgs).run cs).holder m = some u ∧
      ∀ m', ¬ Waits ((State.init cells cfgs).run cs) u m' := by
  have hi := inv_run (inv_init cells cfgs) hg
  generalize (State.init cells cfgs).run cs = s at hi hw
  have key : ∀ u m', (∃ m, s.holder m = some u) → ¬ Waits s u m' := by
    rintro u m' ⟨m, hm⟩ ⟨-, n, is, rest, he⟩
    obtain ⟨h, h1, h2⟩ := hi u
    rw [he] at h1
    have hf := h1.1
    simp only [Fits] at hf
    have := (h2 m).1 hm
    rw [hf.1] at this
    cases this
  obtain ⟨u, hu⟩ := Option.ne_none_iff_exists'.1 hw.1
  refine ⟨u, ?_, hu, fun m' => key u m' ⟨m, hu⟩⟩
  rintro rfl
  exact key u m ⟨m, hu⟩ hw

/-- Whatever has happened: every thread can come back from all its calls, by callbacks that return and by steps of calls
that were made before; nobody has to make another call. -/
theorem C73_can_return_partial {cells : Nat → Nat} {cfgs : Nat → Cfg} {cs : List Cmd} (hg : Gentle (.init cells cfgs) cs)
    (t : Nat) : ∃ ds, (∀ d ∈ ds, d.finishing = true) ∧ ((State.init cells cfgs).run (cs ++ ds)).stack t = [.usr .main] := by
  obtain ⟨ds, h1, h2⟩ := finish (inv_run (inv_init cells cfgs) hg) (calls_run cs (calls_init cells cfgs)) (t := t)
  exact ⟨ds, h1, by rw [run_append]; exact h2⟩

/-- A call that has ended, nested or not: it used one configuration for the filter and for the handlers, asked the filter
once, and if this said yes and the message could be made then every handler of the configuration got the record, one after
the other. No callback is excluded here. -/
theorem C73_delivery (cells : Nat → Nat) (cfgs : Nat → Cfg) (cs : List Cmd) {n : Nat} {w : What}
    (hw : w ∈ history ((State.init cells cfgs).run cs) n) (he : w.isEnd = true) :
    ∃ a, Complete (fun c => (cfgs c).handlers.length) a (history ((State.init cells cfgs).run cs) n) := by
  have hc := calls_run cs (calls_init cells cfgs)
  have hn : n < ((State.init cells cfgs).run cs).next := by
    simp only [history, List.mem_map, List.mem_filter, decide_eq_true_eq] at hw
    obtain ⟨e, ⟨h1, rfl⟩, -⟩ := hw
    exact hc.fresh e h1
  refine hc.dead n hn ?_
  intro t ht
  simp only [ids, List.mem_map] at ht
  obtain ⟨⟨m, is⟩, hm, rfl⟩ := ht
  have := (hc.live t m is hm).1 w hw
  rw [he] at this
  cases this

/-- What the pointers and the filters are, from what happened. -/
structure Replayed (cells : Nat → Nat) (cfgs : Nat → Cfg) (s : State) : Prop where
  cell : ∀ l, s.cells l = (lastStored l s.trace).getD (cells l)
  filter : ∀ c, (s.cfgs c).filter = (lastReplaced c s.trace).getD (cfgs c).filter
  chose : ∀ a b t n l c, s.trace = a ++ ⟨t, n, .chose l c⟩ :: b → c = (lastStored l a).getD (cells l)
  copied : ∀ a b t n c f, s.trace = a ++ ⟨t, n, .copied c f⟩ :: b → f = (lastReplaced c a).getD (cfgs c).filter

theorem lastStored_snoc (l : Nat) (tr : List Ev) (e : Ev) : lastStored l (tr ++ [e]) =
    match e.what with
    | .stored l' c => if l' = l then some c else lastStored l tr
    | _ => lastStored l tr := by
  simp only [lastStored, List.reverse_append, List.reverse_cons, List.reverse_nil, List.nil_append, List.cons_append,
    List.findSome?_cons]
  cases e.what <;> simp
  rename_i x y
  by_cases h : x = l <;> simp [h]

theorem lastReplaced_snoc (c : Nat) (tr : List Ev) (e : Ev) : lastReplaced c (tr ++ [e]) =
    match e.what with
    | .replaced c' f => if c' = c then some f else lastReplaced c tr
    | _ => lastReplaced c tr := by
  simp only [lastReplaced, List.reverse_append, List.reverse_cons, List.reverse_nil, List.nil_append, List.cons_append,
    List.findSome?_cons]
  cases e.what <;> simp
  rename_i x y
  by_cases h : x = c <;> simp [h]

theorem replayed_same {cells : Nat → Nat} {cfgs : Nat → Cfg} {s s' : State} (h : Replayed cells cfgs s)
    (h1 : s'.cells = s.cells) (h2 : s'.cfgs = s.cfgs) (h3 : s'.trace = s.trace) : Replayed cells cfgs s' :=
  ⟨by rw [h1, h3]; exact h.cell, by rw [h2, h3]; exact h.filter, by rw [h3]; exact h.chose, by rw [h3]; exact h.copied⟩

/-- One more event, which changes what it says and tells the truth. -/
theorem replayed_snoc {cells : Nat → Nat} {cfgs : Nat → Cfg} {s s' : State} {e : Ev} (h : Replayed cells cfgs s)
    (h1 : ∀ l, s'.cells l = match e.what with
      | .stored l' c => if l' = l then c else s.cells l
      | _ => s.cells l)
    (h2 : ∀ c, (s'.cfgs c).filter = match e.what with
      | .replaced c' f => if c' = c then f else (s.cfgs c).filter
      | _ => (s.cfgs c).filter)
    (h3 : s'.trace = s.trace ++ [e]) (h4 : ∀ l c, e.what = .chose l c → c = s.cells l)
    (h5 : ∀ c f, e.what = .copied c f → f = (s.cfgs c).filter) : Replayed cells cfgs s' := by
  refine ⟨?_, ?_, ?_, ?_⟩
  · intro l
    rw [h1, h3, lastStored_snoc]
    split
    · split
      · rfl
      · exact h.cell l
    · exact h.cell l
  · intro c
    rw [h2, h3, lastReplaced_snoc]
    split
    · split
      · rfl
      · exact h.filter c
    · exact h.filter c
  · intro a b t n l c hcut
    rw [h3] at hcut
    rcases cut_snoc hcut with ⟨-, rfl, rfl⟩ | ⟨b', -, hb⟩
    · rw [h4 l c rfl]; exact h.cell l
    · exact h.chose _ _ _ _ _ _ hb
  · intro a b t n c f hcut
    rw [h3] at hcut
    rcases cut_snoc hcut with ⟨-, rfl, rfl⟩ | ⟨b', -, hb⟩
    · rw [h5 c f rfl]; exact h.filter c
    · exact h.copied _ _ _ _ _ _ hb

theorem replayed_exec {cells : Nat → Nat} {cfgs : Nat → Cfg} {s : State} (h : Replayed cells cfgs s) (t n : Nat)
    (fails : Bool) (i : Instr) (is : List Instr) (rest : List Frame) :
    Replayed cells cfgs (s.exec t n fails i is rest) := by
  have plain : ∀ {s' : State} {w : What}, s'.cells = s.cells → s'.cfgs = s.cfgs → s'.trace = s.trace ++ [⟨t, n, w⟩] →
      (∀ l c, w ≠ .stored l c) → (∀ c f, w ≠ .replaced c f) → (∀ l c, w = .chose l c → c = s.cells l) →
      (∀ c f, w = .copied c f → f = (s.cfgs c).filter) → Replayed cells cfgs s' := by
    intro s' w h1 h2 h3 h4 h5 h6 h7
    refine replayed_snoc h ?_ ?_ h3 h6 h7
    · intro l; rw [h1]; cases w <;> first | rfl | exact absurd rfl (h4 _ _)
    · intro c; rw [h2]; cases w <;> first | rfl | exact absurd rfl (h5 _ _)
  cases i with
  | lock m =>
    simp only [State.exec]
    split
    · exact replayed_same h rfl rfl rfl
    · exact h
  | unlock m =>
    simp only [State.exec]
    split
    · exact replayed_same h rfl rfl rfl
    · exact replayed_same h rfl rfl rfl
  | user w => exact replayed_same h rfl rfl rfl
  | io => exact replayed_same h rfl rfl rfl
  | ask f hs => exact replayed_same h rfl rfl rfl
  | deliver hs => exact replayed_same h rfl rfl rfl
  | emit tty => exact replayed_same h rfl rfl rfl
  | setFilter c f =>
    refine replayed_snoc h (e := ⟨t, n, .replaced c f⟩) (fun _ => rfl) ?_ rfl (by simp) (by simp)
    intro c'
    simp only [State.exec, State.put, State.say, upd]
    by_cases hc : c' = c
    · rw [if_pos hc, if_pos hc.symm]
    · rw [if_neg hc, if_neg (Ne.symm hc)]
  | store l c =>
    refine replayed_snoc h (e := ⟨t, n, .stored l c⟩) ?_ (fun _ => rfl) rfl (by simp) (by simp)
    intro l'
    simp only [State.exec, State.put, State.say, upd]
    by_cases hc : l' = l
    · rw [if_pos hc, if_pos hc.symm]
    · rw [if_neg hc, if_neg (Ne.symm hc)]
  | load l => exact plain rfl rfl rfl (by simp) (by simp) (by rintro l c ⟨⟩; rfl) (by simp)
  | copy c => exact plain rfl rfl rfl (by simp) (by simp) (by simp) (by rintro c f ⟨⟩; rfl)
  | loadFilter l f => exact plain rfl rfl rfl (by simp) (by simp) (by rintro l c ⟨⟩; rfl) (by simp)
  | loadAssign dst src => exact plain rfl rfl rfl (by simp) (by simp) (by rintro l c ⟨⟩; rfl) (by simp)
  | handle i => exact plain rfl rfl rfl (by simp) (by simp) (by simp) (by simp)
  | caught i => exact plain rfl rfl rfl (by simp) (by simp) (by simp) (by simp)
  | report i => exact plain rfl rfl rfl (by simp) (by simp) (by simp) (by simp)
  | rethrow => exact plain rfl rfl rfl (by simp) (by simp) (by simp) (by simp)

theorem replayed_step {cells : Nat → Nat} {cfgs : Nat → Cfg} {s : State} (h : Replayed cells cfgs s) (c : Cmd) :
    Replayed cells cfgs (s.step c) := by
  cases c with
  | call t a =>
    simp only [State.step, State.call]
    split
    · exact replayed_snoc h (e := ⟨t, s.next, .called a⟩) (fun _ => rfl) (fun _ => rfl) rfl (by simp) (by simp)
    · exact h
  | ret t r =>
    simp only [State.step, State.ret]
    split
    · split
      · exact h
      · rename_i w n is rest _ _
        by_cases hw : ∃ f, w = .filter f
        · obtain ⟨f, rfl⟩ := hw
          exact replayed_snoc h (e := ⟨t, n, .verdict f r⟩) (fun _ => rfl) (fun _ => rfl) rfl (by simp) (by simp)
        · have hnote : s.note t n r w = s := by
            cases w <;> first | rfl | exact absurd ⟨_, rfl⟩ hw
          rw [hnote]
          exact replayed_same h rfl rfl rfl
    · exact h
  | tick t fails =>
    simp only [State.step, State.tick]
    split
    · rename_i n rest _
      exact replayed_snoc h (e := ⟨t, n, .returned⟩) (fun _ => rfl) (fun _ => rfl) rfl (by simp) (by simp)
    · exact replayed_exec h ..
    · exact h

theorem replayed_run {cells : Nat → Nat} {cfgs : Nat → Cfg} {s : State} (h : Replayed cells cfgs s) (cs : List Cmd) :
    Replayed cells cfgs (s.run cs) := by
  induction cs generalizing s with
  | nil => exact h
  | cons c cs ih => exact ih (replayed_step h c)

/-- A call that reads which configuration a logger has, from wherever it is made, finds the one that was stored last by any
thread, inside of a callback or not; before there was any, the one of the beginning. Together with `C73_delivery`: a logger
that was assigned in a callback is used by every log call that reads it after that. -/
theorem C73_latest_configuration (cells : Nat → Nat) (cfgs : Nat → Cfg) (cs : List Cmd) {a b : List Ev} {t n l c : Nat}
    (h : ((State.init cells cfgs).run cs).trace = a ++ ⟨t, n, .chose l c⟩ :: b) :
    c = (lastStored l a).getD (cells l) :=
  (replayed_run ⟨fun _ => rfl, fun _ => rfl, by simp [State.init], by simp [State.init]⟩ cs).chose _ _ _ _ _ _ h

/-- The filter that a log call asks is the one that was set last in the configuration, inside of a callback or not. -/
theorem C73_latest_filter (cells : Nat → Nat) (cfgs : Nat → Cfg) (cs : List Cmd) {a b : List Ev} {t n c f : Nat}
    (h : ((State.init cells cfgs).run cs).trace = a ++ ⟨t, n, .copied c f⟩ :: b) :
    f = (lastReplaced c a).getD (cfgs c).filter :=
  (replayed_run ⟨fun _ => rfl, fun _ => rfl, by simp [State.init], by simp [State.init]⟩ cs).copied _ _ _ _ _ _ h

theorem trace_step (s : State) (c : Cmd) : (s.step c).trace = s.trace ∨ ∃ e, (s.step c).trace = s.trace ++ [e] := by
  cases c with
  | call t a =>
    simp only [State.step, State.call]
    split
    · exact .inr ⟨_, rfl⟩
    · first | exact .inl rfl | exact .inr ⟨_, rfl⟩
  | ret t r =>
    simp only [State.step, State.ret]
    split
    · split
      · first | exact .inl rfl | exact .inr ⟨_, rfl⟩
      · rename_i w _ _ _ _ _
        cases w with
        | filter f => exact .inr ⟨_, rfl⟩
        | _ => first | exact .inl rfl | exact .inr ⟨_, rfl⟩
    · first | exact .inl rfl | exact .inr ⟨_, rfl⟩
  | tick t b =>
    simp only [State.step, State.tick]
    split
    · exact .inr ⟨_, rfl⟩
    · rename_i n i is rest he
      cases i with
      | lock m => simp only [State.exec]; split <;> first | exact .inl rfl | exact .inr ⟨_, rfl⟩
      | unlock m => simp only [State.exec]; split <;> first | exact .inl rfl | exact .inr ⟨_, rfl⟩
      | load => exact .inr ⟨_, rfl⟩
      | handle => exact .inr ⟨_, rfl⟩
      | caught => exact .inr ⟨_, rfl⟩
      | report => exact .inr ⟨_, rfl⟩
      | rethrow => exact .inr ⟨_, rfl⟩
      | _ => first | exact .inl rfl | exact .inr ⟨_, rfl⟩
    · first | exact .inl rfl | exact .inr ⟨_, rfl⟩

/-- Every beginning of a trace is the trace of an earlier moment. -/
theorem trace_prefix {s : State} (cs : List Cmd) {a b : List Ev} (h : (s.run cs).trace = s.trace ++ a ++ b) :
    ∃ ds, ds <+: cs ∧ (s.run ds).trace = s.trace ++ a := by
  induction cs generalizing s a with
  | nil =>
    have : a ++ b = [] := by
      have h : s.trace = s.trace ++ a ++ b := h
      rw [List.append_assoc] at h
      exact List.self_eq_append_right.1 h
    simp only [List.append_eq_nil_iff] at this
    exact ⟨[], List.prefix_refl _, by simp [this.1, State.run]⟩
  | cons c cs ih =>
    have h : ((s.step c).run cs).trace = s.trace ++ a ++ b := h
    rcases trace_step s c with e | ⟨x, e⟩
    · obtain ⟨ds, h1, h2⟩ := ih (s := s.step c) (a := a) (by rw [h, e])
      exact ⟨c :: ds, by simpa using h1, by rw [← e]; exact h2⟩
    · cases a with
      | nil => exact ⟨[], List.nil_prefix, by simp [State.run]⟩
      | cons y a =>
        have grows : ∀ (cs : List Cmd) (s' : State), s'.trace <+: (s'.run cs).trace := by
          intro cs
          induction cs with
          | nil => intro s'; exact List.prefix_refl _
          | cons c cs ih =>
            intro s'
            refine List.IsPrefix.trans ?_ (ih (s'.step c))
            rcases trace_step s' c with e | ⟨x, e⟩ <;> rw [e]
            · exact List.prefix_refl _
            · exact List.prefix_append _ _
        obtain ⟨z, hz⟩ := grows cs (s.step c)
        rw [h, e] at hz
        have hxy : x = y := by
          simp only [List.append_assoc, List.cons_append, List.nil_append, List.append_cancel_left_eq, List.cons.injEq] at hz
          exact hz.1
        subst hxy
        obtain ⟨ds, h1, h2⟩ := ih (s := s.step c) (a := a) (by rw [h, e]; simp)
        exact ⟨c :: ds, by simpa using h1, by
          have : ((s.step c).run ds).trace = s.trace ++ x :: a := by rw [h2, e]; simp
          exact this⟩

/-- Calls of one thread are nested: before anything else of an older call of the thread happens, the newer one has ended. No
callback is excluded here. -/
theorem C73_nested (cells : Nat → Nat) (cfgs : Nat → Cfg) (cs : List Cmd) {a b c : List Ev} {t n m : Nat} {x : Api} {w : What}
    (h : ((State.init cells cfgs).run cs).trace = a ++ ⟨t, n, .called x⟩ :: (b ++ ⟨t, m, w⟩ :: c)) (hm : m < n) :
    ∃ e ∈ b, e.call = n ∧ e.what.isEnd = true := by
  obtain ⟨ds, h1, h2⟩ := trace_prefix (s := .init cells cfgs) cs (a := a ++ ⟨t, n, .called x⟩ :: (b ++ [⟨t, m, w⟩])) (b := c)
    (by rw [h]; simp [State.init])
  have hc := calls_run ds (calls_init cells cfgs)
  have h2 : ((State.init cells cfgs).run ds).trace = a ++ ⟨t, n, .called x⟩ :: (b ++ [⟨t, m, w⟩]) := by
    rw [h2]; simp [State.init]
  rcases hc.nested _ _ _ _ _ h2 with ⟨e, he, h3, h4⟩ | ⟨-, h3⟩
  · rcases List.mem_append.1 he with he | he
    · exact ⟨e, he, h3, h4⟩
    · simp only [List.mem_singleton] at he
      subst he
      simp only at h3
      omega
  · have := h3 ⟨t, m, w⟩ (by simp) rfl
    simp only at this
    omega

/-! ## Callbacks under a lock -/

/-- Steps of thread `0`. -/
def ticks (k : Nat) : List Cmd := List.replicate k (.tick 0 false)

/-- A log call of thread `0` until it runs its filter; the copy constructor has done nothing special. -/
def toFilter : List Cmd := .call 0 (.log 0) :: ticks 6 ++ .ret 0 .yes :: ticks 3

/-- … until the first handler runs its formatter. -/
def toFormat : List Cmd := toFilter ++ .ret 0 .yes :: ticks 2 ++ .ret 0 .yes :: ticks 2

/-- A terminal: a colour function that logs to the same console waits for ever. -/
def terminal : State := .init (fun _ => 0) (fun _ => ⟨0, [.blocking [.console true]]⟩)

def toColour : List Cmd := toFormat ++ .ret 0 .yes :: ticks 1 ++ .ret 0 .yes :: ticks 3

theorem C73_fails_colour : (terminal.run toColour).stack 0 =
      [.usr .colour, .lib 0 [.io, .unlock .console, .caught 0, .user .dropCopy], .usr .main] ∧
    StuckForever (terminal.run (toColour ++ (toFormat ++ .ret 0 .yes :: ticks 1 ++ .ret 0 .yes :: ticks 1))) 0 :=
  ⟨rfl, stuck (n := 1) (m := .console) rfl rfl⟩

/-- The handler for development: an attribute function that logs to the same logger waits for ever. -/
def developing : State := .init (fun _ => 0) (fun _ => ⟨0, [.dev]⟩)

def toDev : List Cmd := toFilter ++ .ret 0 .yes :: ticks 2 ++ .ret 0 .yes :: ticks 1

theorem C73_fails_attribute : (developing.run (toDev ++ ticks 2)).stack 0 =
      [.usr .devAttribute, .lib 0 [.io, .unlock .dev, .caught 0, .user .dropCopy], .usr .main] ∧
    StuckForever (developing.run (toDev ++ ticks 2 ++ toDev)) 0 :=
  ⟨rfl, stuck (n := 1) (m := .dev) rfl rfl⟩

/-- A filter whose copy constructor logs to the logger waits for ever. -/
theorem C73_fails_copy : (terminal.run (.call 0 (.log 0) :: ticks 6)).stack 0 =
      [.usr .copyFilter, .lib 0 [.unlock (.config 0), .ask 0 [.blocking [.console true]]], .usr .main] ∧
    StuckForever (terminal.run (.call 0 (.log 0) :: ticks 6 ++ .call 0 (.log 0) :: ticks 3)) 0 :=
  ⟨rfl, stuck (n := 1) (m := .config 0) rfl rfl⟩

/-- A filter whose destructor logs to the logger waits for ever when it is replaced. -/
theorem C73_fails_filter_destructor : (terminal.run (.call 0 (.filter 0 7) :: ticks 6)).stack 0 =
      [.usr .dropFilter, .lib 0 [.unlock (.config 0), .lock (.pointer 0), .store 0 0, .user .dropConfig,
        .unlock (.pointer 0)], .usr .main] ∧
    StuckForever (terminal.run (.call 0 (.filter 0 7) :: ticks 6 ++ .call 0 (.log 0) :: ticks 3)) 0 :=
  ⟨rfl, stuck (n := 1) (m := .config 0) rfl rfl⟩

/-- Another logger is assigned to logger `0`: a handler or sink of the old configuration whose destructor logs to logger `0`
waits for ever. -/
theorem C73_fails_config_destructor : (terminal.run (.call 0 (.assign 0 1) :: ticks 6)).stack 0 =
      [.usr .dropConfig, .lib 0 [.unlock (.pointer 0), .user .dropCopy], .usr .main] ∧
    StuckForever (terminal.run (.call 0 (.assign 0 1) :: ticks 6 ++ .call 0 (.log 0) :: ticks 1)) 0 :=
  ⟨rfl, stuck (n := 1) (m := .pointer 0) rfl rfl⟩

/-! ## Cases that meet the hypotheses -/

/-- `Gentle` as a check. -/
def gentleCheck : State → List Cmd → Bool
  | _, [] => true
  | s, c :: cs =>
    (match c with
      | .call t _ =>
        match s.stack t with
        | .usr w :: _ => !w.guarded
        | _ => true
      | _ => true) && gentleCheck (s.step c) cs

theorem gentle_of_check {s : State} {cs : List Cmd} (h : gentleCheck s cs = true) : Gentle s cs := by
  induction cs generalizing s with
  | nil => trivial
  | cons c cs ih =>
    simp only [gentleCheck, Bool.and_eq_true] at h
    refine ⟨?_, ih h.2⟩
    rintro t a w rest rfl hs
    have h1 := h.1
    simp only [hs] at h1
    simpa using h1

/-- A filter that logs to its own logger, whose nested call ends at a console without a terminal; the filter rejects then. -/
def nestedRun : List Cmd :=
  toFilter ++ toFormat ++ .ret 0 .yes :: ticks 1 ++ .ret 0 .yes :: ticks 6 ++ .ret 0 .yes :: ticks 1 ++ .ret 0 .no :: ticks 1
    ++ .ret 0 .yes :: ticks 1

def plainConsole : State := .init (fun _ => 0) (fun _ => ⟨5, [.blocking [.console false]]⟩)

example : Gentle plainConsole nestedRun := gentle_of_check rfl

example : (plainConsole.run nestedRun).trace.map (fun e => (e.call, e.what)) =
    [(0, .called (.log 0)), (0, .chose 0 0), (0, .copied 0 5), (1, .called (.log 0)), (1, .chose 0 0), (1, .copied 0 5),
      (1, .verdict 5 .yes), (1, .handling 0), (1, .handled 0), (1, .returned), (0, .verdict 5 .no), (0, .returned)] := by decide

/-- In the middle of it the filter of the outer call runs and the formatter of the inner one. -/
example : ((plainConsole.run (toFilter ++ toFormat)).stack 0).length = 5 ∧
    ∃ rest, (plainConsole.run (toFilter ++ toFormat)).stack 0 = .usr .format :: rest := ⟨rfl, _, rfl⟩

/-- A thread waits for another one at the console. -/
def twoThreads : List Cmd :=
  let other : Cmd → Cmd := fun
    | .call _ a => .call 1 a
    | .ret _ r => .ret 1 r
    | .tick _ b => .tick 1 b
  let run := toFormat ++ .ret 0 .yes :: ticks 1 ++ .ret 0 .yes :: ticks 1
  run ++ ticks 1 ++ run.map other

example : Gentle plainConsole twoThreads := gentle_of_check rfl

example : Waits (plainConsole.run twoThreads) 1 .console ∧ (plainConsole.run twoThreads).holder .console = some 0 :=
  ⟨⟨by decide, 1, _, _, rfl⟩, rfl⟩

/-- The filter of logger `0` assigns logger `1` to it: the log call that runs it goes on with the old configuration, the next
one uses the new one. -/
def reassign : List Cmd :=
  toFilter ++ .call 0 (.assign 0 1) :: ticks 6 ++ .ret 0 .yes :: ticks 2 ++ .ret 0 .yes :: ticks 1 ++ .ret 0 .no :: ticks 1
    ++ .ret 0 .yes :: ticks 1 ++ .call 0 (.log 0) :: ticks 2

example : ((State.init id (fun c => ⟨c + 5, []⟩)).run reassign).trace.map (fun e => (e.call, e.what)) =
    [(0, .called (.log 0)), (0, .chose 0 0), (0, .copied 0 5), (1, .called (.assign 0 1)), (1, .chose 1 1),
      (1, .stored 0 1), (1, .returned), (0, .verdict 5 .no), (0, .returned), (2, .called (.log 0)), (2, .chose 0 1)] := by
  decide

/-- A handler that throws does not keep the next one from its work. -/
example : history ((State.init (fun _ => 0) (fun _ => ⟨0, [.custom, .custom]⟩)).run
      (toFormat ++ .ret 0 .throws :: ticks 3 ++ .ret 0 .yes :: ticks 2 ++ .ret 0 .yes :: ticks 1)) 0 =
    [.called (.log 0), .chose 0 0, .copied 0 0, .verdict 0 .yes, .handling 0, .failed 0, .handling 1, .handled 1,
      .returned] := by decide

end Blackhole.Reenter
