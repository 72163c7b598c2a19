import Verif.Reenter.History

/-! # Callbacks that use the library again: calls can always return -/

namespace Blackhole.Reenter

theorem run_append (s : State) (a b : List Cmd) : s.run (a ++ b) = (s.run a).run b := by simp [State.run]

theorem gentle_finishing {s : State} {cs : List Cmd} (h : ∀ c ∈ cs, c.finishing = true) : Gentle s cs := by
  induction cs generalizing s with
  | nil => trivial
  | cons c cs ih =>
    refine ⟨?_, ih (fun x hx => h x (by simp [hx]))⟩
    intro t a w rest hc _
    subst hc
    exact absurd (h (.call t a) (by simp)) (by simp [Cmd.finishing])

/-! ## Other threads and handlers -/

theorem stack_other {s : State} {c : Cmd} {t u : Nat} (hu : u ≠ t)
    (hc : (∃ a, c = .call t a) ∨ (∃ r, c = .ret t r) ∨ ∃ b, c = .tick t b) : (s.step c).stack u = s.stack u := by
  rcases hc with ⟨a, rfl⟩ | ⟨r, rfl⟩ | ⟨b, rfl⟩
  · simp only [State.step, State.call]
    split
    · simp [State.put, State.say, upd_ne _ _ hu]
    · rfl
  · simp only [State.step, State.ret]
    split
    · split
      · rfl
      · rename_i w n is rest he h
        cases w <;> simp [State.put, State.note, State.say, upd_ne _ _ hu]
    · rfl
  · simp only [State.step, State.tick]
    split
    · simp [State.put, State.say, upd_ne _ _ hu]
    · rename_i n i is rest he
      cases i <;> simp [State.exec, State.put, State.say, upd_ne _ _ hu]
      · split <;> simp [upd_ne _ _ hu]
      · split <;> simp [upd_ne _ _ hu]
    · rfl

/-! ## A thread that holds a lock releases it -/

theorem tick_lib {s : State} {t n : Nat} {i : Instr} {is : List Instr} {rest : List Frame}
    (he : s.stack t = .lib n (i :: is) :: rest) : s.step (.tick t false) = s.exec t n false i is rest := by
  simp [State.step, State.tick, he]

theorem ret_usr {s : State} {t n : Nat} {w : Who} {is : List Instr} {rest : List Frame}
    (he : s.stack t = .usr w :: .lib n is :: rest) :
    s.step (.ret t .yes) = (s.note t n .yes w).put t (.lib n is :: rest) := by
  simp [State.step, State.ret, he, resume]

/-- What is reached by finishing steps of thread `u`. -/
def Reached (s : State) (u : Nat) (P : State → Prop) : Prop :=
  ∃ cs, (∀ c ∈ cs, c.finishing = true) ∧ P (s.run cs) ∧ ∀ t, t ≠ u → (s.run cs).stack t = s.stack t

theorem reached_now {s : State} {u : Nat} {P : State → Prop} (h : P s) : Reached s u P := ⟨[], by simp, h, fun _ _ => rfl⟩

theorem reached_tick {s : State} {u : Nat} {P : State → Prop} (h : Reached (s.step (.tick u false)) u P) :
    Reached s u P := by
  obtain ⟨cs, h1, h2, h3⟩ := h
  refine ⟨.tick u false :: cs, ?_, h2, ?_⟩
  · intro c hc
    rcases List.mem_cons.1 hc with rfl | hc
    · rfl
    · exact h1 c hc
  · intro t ht
    exact (h3 t ht).trans (stack_other ht (.inr (.inr ⟨_, rfl⟩)))

theorem reached_ret {s : State} {u : Nat} {P : State → Prop} (h : Reached (s.step (.ret u .yes)) u P) :
    Reached s u P := by
  obtain ⟨cs, h1, h2, h3⟩ := h
  refine ⟨.ret u .yes :: cs, ?_, h2, ?_⟩
  · intro c hc
    rcases List.mem_cons.1 hc with rfl | hc
    · rfl
    · exact h1 c hc
  · intro t ht
    exact (h3 t ht).trans (stack_other ht (.inr (.inl ⟨_, rfl⟩)))

theorem release_unlock {s : State} {u n : Nat} {m : Mutex} {is : List Instr} {rest : List Frame}
    (hm : s.holder m = some u) (he : s.stack u = .lib n (.unlock m :: is) :: rest) :
    Reached s u (fun s' => s'.holder m = none) := by
  refine reached_tick (reached_now ?_)
  rw [tick_lib he]
  simp [State.exec, hm, State.put]

theorem release_lib {u n : Nat} {m : Mutex} {rest : List Frame} (is : List Instr) : ∀ {s : State},
    s.holder m = some u → s.stack u = .lib n is :: rest → Fits (some m) is →
    Reached s u (fun s' => s'.holder m = none) := by
  induction is with
  | nil => intro s hm he hf; simp [Fits] at hf
  | cons i is ih =>
    intro s hm he hf
    have go : ∀ {s' : State}, s.step (.tick u false) = s' → s'.holder m = some u → s'.stack u = .lib n is :: rest →
        Fits (some m) is → Reached s u (fun s' => s'.holder m = none) := by
      intro s' e h1 h2 h3
      exact reached_tick (by rw [e]; exact ih h1 h2 h3)
    cases i <;> simp only [Fits] at hf
    case unlock m' =>
      obtain ⟨hf, -⟩ := hf
      simp at hf
      subst hf
      exact release_unlock hm he
    case user w =>
      refine reached_tick ?_
      rw [tick_lib he]
      refine reached_ret ?_
      rw [ret_usr (n := n) (w := w) (is := is) (rest := rest) (by simp [State.exec, State.put])]
      refine ih ?_ ?_ hf.2.2.2
      · cases w <;> exact hm
      · simp [State.put]
    case io =>
      exact go (tick_lib he) (by exact hm) (by simp [State.exec, State.put]) hf.2
    case load l =>
      obtain ⟨hf, rfl⟩ := hf
      simp at hf
      subst hf
      refine reached_tick ?_
      rw [tick_lib he]
      exact release_unlock (n := n) (rest := rest) hm (by simp [State.exec, State.put]; rfl)
    case copy c =>
      obtain ⟨hf, rfl⟩ := hf
      simp at hf
      subst hf
      refine reached_tick ?_
      rw [tick_lib he]
      refine reached_tick ?_
      rw [tick_lib (n := n) (rest := rest) (i := .user .copyFilter)
        (is := .unlock (.config c) :: .ask (s.cfgs c).filter (s.cfgs c).handlers :: []) (by simp [State.exec, State.put])]
      refine reached_ret ?_
      rw [ret_usr (n := n) (w := .copyFilter) (rest := rest)
        (is := .unlock (.config c) :: .ask (s.cfgs c).filter (s.cfgs c).handlers :: []) (by simp [State.exec, State.put])]
      exact release_unlock (n := n) (rest := rest) (by exact hm) (by simp [State.put]; rfl)
    case loadFilter l f =>
      obtain ⟨hf, rfl⟩ := hf
      simp at hf
      subst hf
      refine reached_tick ?_
      rw [tick_lib he]
      exact release_unlock (n := n) (rest := rest) (by exact hm) (by simp [State.exec, State.put]; rfl)
    case setFilter c f => exact go (tick_lib he) (by exact hm) (by simp [State.exec, State.put]) hf.2
    case loadAssign dst src =>
      obtain ⟨hf, rfl⟩ := hf
      simp at hf
      subst hf
      refine reached_tick ?_
      rw [tick_lib he]
      exact release_unlock (n := n) (rest := rest) (by exact hm) (by simp [State.exec, State.put]; rfl)
    case store l c => exact go (tick_lib he) (by exact hm) (by simp [State.exec, State.put]) hf.2
    all_goals exact absurd hf.1 (by simp)

theorem release {s : State} {u : Nat} {m : Mutex} (hi : Inv s) (hm : s.holder m = some u) :
    Reached s u (fun s' => s'.holder m = none) := by
  obtain ⟨h, h1, h2⟩ := hi u
  have hh := (h2 m).1 hm
  subst hh
  match he : s.stack u, h1 with
  | [], h1 => simp [Top, Good] at h1
  | .lib n is :: rest, h1 => exact release_lib is hm he h1.1
  | [.usr w], h1 => simp [Top, Good] at h1
  | .usr w :: .lib n is :: rest, h1 =>
    have g : Good (some m) (.usr w :: .lib n is :: rest) := h1
    simp only [Good] at g
    refine reached_ret ?_
    rw [ret_usr he]
    refine release_lib (n := n) (rest := rest) is ?_ ?_ g.2.2.2.1
    · cases w <;> exact hm
    · simp [State.put]
  | .usr _ :: .usr _ :: _, h1 => simp [Top, Good] at h1

/-! ## A measure of what a stack has to do -/

def sinkSize : SinkKind → Nat
  | .console _ => 8
  | .locked _ => 3
  | .plain => 1
  | .custom => 2

def handlerSize : HandlerKind → Nat
  | .blocking ks => 2 + (ks.map sinkSize).sum
  | .dev => 5
  | .custom => 2

def handlersSize (hs : List HandlerKind) : Nat := (hs.map (fun h => handlerSize h + 2)).sum

def size (H : Nat → List HandlerKind) : Instr → Nat
  | .user _ => 2
  | .emit _ => 6
  | .deliver hs => 3 + handlersSize hs
  | .ask _ hs => 8 + handlersSize hs
  | .copy c => 12 + handlersSize (H c)
  | _ => 1

def total (H : Nat → List HandlerKind) (is : List Instr) : Nat := (is.map (size H)).sum

variable {H : Nat → List HandlerKind}

@[simp] theorem total_nil : total H [] = 0 := rfl

@[simp] theorem total_cons (i : Instr) (is : List Instr) : total H (i :: is) = size H i + total H is := by simp [total]

@[simp] theorem total_append (a b : List Instr) : total H (a ++ b) = total H a + total H b := by simp [total]

theorem total_sink (k : SinkKind) : total H k.code = sinkSize k := by cases k <;> simp [SinkKind.code, size, sinkSize]

theorem total_sinks (ks : List SinkKind) : total H (ks.flatMap SinkKind.code) = (ks.map sinkSize).sum := by
  induction ks with
  | nil => rfl
  | cons k ks ih => simp [ih, total_sink]

theorem total_handler (k : HandlerKind) : total H k.code = handlerSize k := by
  cases k <;> simp [HandlerKind.code, size, handlerSize, total_sinks]

theorem total_loop (hs : List HandlerKind) : ∀ i, total H (loop i hs) = handlersSize hs := by
  induction hs with
  | nil => intro i; rfl
  | cons k hs ih =>
    intro i
    simp [loop, size, total_handler, ih, handlersSize]
    omega

theorem total_emit (tty : Bool) : total H (emitCode tty) ≤ 5 := by cases tty <;> simp [emitCode, size]

/-- How often a call has still to read the pointer of a logger. -/
def reads : Instr → Nat
  | .load _ | .loadFilter _ _ | .loadAssign _ _ => 1
  | _ => 0

def readsOf (is : List Instr) : Nat := (is.map reads).sum

@[simp] theorem readsOf_nil : readsOf [] = 0 := rfl

@[simp] theorem readsOf_cons (i : Instr) (is : List Instr) : readsOf (i :: is) = reads i + readsOf is := by simp [readsOf]

theorem readsOf_late {is : List Instr} (h : Late is) : readsOf is = 0 := by
  induction is with
  | nil => rfl
  | cons i is ih =>
    obtain ⟨h1, h2⟩ := late_cons.1 h
    cases i <;> simp [Instr.starts] at h1 <;> simp [reads, ih h2]

@[simp] theorem readsOf_append (a b : List Instr) : readsOf (a ++ b) = readsOf a + readsOf b := by simp [readsOf]

def frameReads : Frame → Nat
  | .usr _ => 0
  | .lib _ is => readsOf is

def frameSize (H : Nat → List HandlerKind) : Frame → Nat
  | .usr _ => 1
  | .lib _ is => 1 + total H is

def stackReads (st : List Frame) : Nat := (st.map frameReads).sum

def stackSize (H : Nat → List HandlerKind) (st : List Frame) : Nat := (st.map (frameSize H)).sum

@[simp] theorem stackReads_cons (f : Frame) (st : List Frame) : stackReads (f :: st) = frameReads f + stackReads st := by
  simp [stackReads]

@[simp] theorem stackSize_cons (f : Frame) (st : List Frame) : stackSize H (f :: st) = frameSize H f + stackSize H st := by
  simp [stackSize]

/-- The second stack has less to do. -/
def Less (H : Nat → List HandlerKind) (a b : List Frame) : Prop :=
  stackReads b < stackReads a ∨ (stackReads b = stackReads a ∧ stackSize H b < stackSize H a)

/-- A step of a call that does not wait makes the stack smaller. -/
theorem less_exec {s : State} {t n : Nat} {i : Instr} {is : List Instr} {rest : List Frame} (hc : Calls H s)
    (he : s.stack t = .lib n (i :: is) :: rest) (hl : ∀ m, i = .lock m → s.holder m = none) :
    Less H (s.stack t) ((s.step (.tick t false)).stack t) := by
  rw [tick_lib he, he]
  cases i with
  | lock m =>
    simp [State.exec, hl m rfl, State.put, Less, frameReads, frameSize, reads, size]
  | unlock m => simp [State.exec, State.put, Less, frameReads, frameSize, reads, size]
  | user w =>
    simp [State.exec, State.put, Less, frameReads, frameSize, reads, size]
    omega
  | io => simp [State.exec, State.put, Less, frameReads, frameSize, reads, size]
  | load l =>
    left
    simp [State.exec, State.put, frameReads, reads]
  | copy c =>
    right
    simp [State.exec, State.put, frameReads, frameSize, reads, size, hc.handlers c]
    omega
  | ask f hs =>
    right
    simp [State.exec, State.put, frameReads, frameSize, reads, size]
    omega
  | deliver hs =>
    right
    have h1 := readsOf_late (late_loop hs 0)
    have h2 := total_loop (H := H) hs 0
    simp [State.exec, State.put, frameReads, frameSize, reads, size, h1, h2]
    omega
  | handle i => simp [State.exec, State.put, State.say, Less, frameReads, frameSize, reads, size]
  | caught i => simp [State.exec, State.put, State.say, Less, frameReads, frameSize, reads, size]
  | report i => simp [State.exec, State.put, State.say, Less, frameReads, frameSize, reads, size]
  | emit tty =>
    right
    have h1 := readsOf_late (late_emit tty)
    have h2 := total_emit (H := H) tty
    simp [State.exec, State.put, frameReads, frameSize, reads, size, h1]
    omega
  | loadFilter l f =>
    left
    simp [State.exec, State.put, frameReads, reads]
  | setFilter c f => simp [State.exec, State.put, Less, frameReads, frameSize, reads, size]
  | loadAssign dst src =>
    left
    simp [State.exec, State.put, frameReads, reads]
  | store l c => simp [State.exec, State.put, Less, frameReads, frameSize, reads, size]
  | rethrow =>
    simp [State.exec, State.put, Less, frameReads, frameSize, reads, size]
    omega

/-- Thread `t` is in the library or in a callback: some finishing steps bring it forward. -/
theorem forward {s : State} {t : Nat} (hi : Inv s) (hc : Calls H s) (hne : s.stack t ≠ [.usr .main]) :
    ∃ cs, (∀ c ∈ cs, c.finishing = true) ∧ Less H (s.stack t) ((s.run cs).stack t) := by
  obtain ⟨h, h1, h2⟩ := hi t
  match he : s.stack t, h1 with
  | [], h1 => simp [Top, Good] at h1
  | [.usr w], h1 => simp [Top, Good] at h1; simp [he, h1.1] at hne
  | .usr _ :: .usr _ :: _, h1 => simp [Top, Good] at h1
  | .usr w :: .lib n is :: rest, h1 =>
    refine ⟨[.ret t .yes], by simp [Cmd.finishing], ?_⟩
    simp only [State.run, List.foldl_cons, List.foldl_nil]
    rw [ret_usr he]
    simp [State.put, Less, frameReads, frameSize]
  | .lib n [] :: rest, h1 =>
    refine ⟨[.tick t false], by simp [Cmd.finishing], ?_⟩
    simp [State.run, State.step, State.tick, he, State.put, Less, frameReads, frameSize]
  | .lib n (i :: is) :: rest, h1 =>
    rw [← he]
    by_cases hw : ∃ m u, i = .lock m ∧ s.holder m = some u
    · obtain ⟨m, u, rfl, hm⟩ := hw
      have hut : u ≠ t := by
        rintro rfl
        have := (h2 m).1 hm
        have h1 : Top h (.lib n (.lock m :: is) :: rest) := by rw [← he]; assumption
        have hf := h1.1
        simp only [Fits] at hf
        rw [hf.1] at this
        cases this
      obtain ⟨cs, k1, k2, k3⟩ := release hi hm
      refine ⟨cs ++ [.tick t false], ?_, ?_⟩
      · intro c hc'
        rcases List.mem_append.1 hc' with hc' | hc'
        · exact k1 c hc'
        · simp at hc'; subst hc'; rfl
      · rw [run_append]
        have he' : (s.run cs).stack t = .lib n (.lock m :: is) :: rest := (k3 t (Ne.symm hut)).trans he
        have := less_exec (calls_run cs hc) he' (by
          intro m' h
          simp at h
          subst h
          exact k2)
        rw [he, ← he']
        exact this
    · refine ⟨[.tick t false], by simp [Cmd.finishing], ?_⟩
      refine less_exec hc he ?_
      intro m h
      cases hh : s.holder m with
      | none => rfl
      | some u => exact absurd ⟨m, u, h, hh⟩ hw

theorem finish {s : State} {t : Nat} (hi : Inv s) (hc : Calls H s) :
    ∃ cs, (∀ c ∈ cs, c.finishing = true) ∧ (s.run cs).stack t = [.usr .main] := by
  generalize ha : stackReads (s.stack t) = a
  induction a using Nat.strongRecOn generalizing s with
  | ind a iha =>
    generalize hb : stackSize H (s.stack t) = b
    induction b using Nat.strongRecOn generalizing s with
    | ind b ihb =>
      by_cases hne : s.stack t = [.usr .main]
      · exact ⟨[], by simp, hne⟩
      · obtain ⟨cs, h1, h2⟩ := forward hi hc hne
        have hi' := inv_run (cs := cs) hi (gentle_finishing h1)
        have hc' := calls_run cs hc
        have : ∃ ds, (∀ c ∈ ds, c.finishing = true) ∧ ((s.run cs).run ds).stack t = [.usr .main] := by
          rcases h2 with h2 | ⟨h2, h3⟩
          · exact iha _ (ha ▸ h2) hi' hc' rfl
          · exact ihb _ (hb ▸ h3) hi' hc' (h2.trans ha) rfl
        obtain ⟨ds, k1, k2⟩ := this
        refine ⟨cs ++ ds, ?_, by rw [run_append]; exact k2⟩
        intro c hc'
        rcases List.mem_append.1 hc' with hc' | hc'
        · exact h1 c hc'
        · exact k1 c hc'

/-! ## A thread that waits for itself -/

theorem holder_keeps {s : State} {c : Cmd} {t n : Nat} {m : Mutex} {is : List Instr} {rest : List Frame}
    (hm : s.holder m = some t) (he : s.stack t = .lib n (.lock m :: is) :: rest) :
    (s.step c).holder m = some t ∧ (s.step c).stack t = s.stack t := by
  have other : ∀ u, u ≠ t → ((∃ a, c = .call u a) ∨ (∃ r, c = .ret u r) ∨ ∃ b, c = .tick u b) →
      (s.step c).holder m = some t → (s.step c).holder m = some t ∧ (s.step c).stack t = s.stack t :=
    fun u hu hc hh => ⟨hh, stack_other (Ne.symm hu) hc⟩
  cases c with
  | call u a =>
    by_cases hu : u = t
    · subst hu; simp [State.step, State.call, he, hm]
    · refine other u hu (.inl ⟨_, rfl⟩) ?_
      simp only [State.step, State.call]
      split <;> exact hm
  | ret u r =>
    by_cases hu : u = t
    · subst hu; simp [State.step, State.ret, he, hm]
    · refine other u hu (.inr (.inl ⟨_, rfl⟩)) ?_
      simp only [State.step, State.ret]
      split
      · split
        · exact hm
        · rename_i w _ _ _ _ _
          cases w <;> exact hm
      · exact hm
  | tick u b =>
    by_cases hu : u = t
    · subst hu; simp [State.step, State.tick, he, State.exec, hm]
    · refine other u hu (.inr (.inr ⟨_, rfl⟩)) ?_
      simp only [State.step, State.tick]
      split
      · exact hm
      · rename_i n' i is' rest' he'
        cases i <;> simp only [State.exec] <;> try exact hm
        · rename_i m'
          split
          · rename_i h
            by_cases hmm : m' = m
            · subst hmm; rw [hm] at h; cases h
            · simpa [State.put, upd_ne _ _ (Ne.symm hmm)] using hm
          · exact hm
        · rename_i m'
          split
          · rename_i h
            by_cases hmm : m' = m
            · subst hmm; rw [hm] at h; simp at h; exact absurd h.symm hu
            · simpa [State.put, upd_ne _ _ (Ne.symm hmm)] using hm
          · exact hm
      · exact hm

theorem stuck {s : State} {t n : Nat} {m : Mutex} {is : List Instr} {rest : List Frame}
    (hm : s.holder m = some t) (he : s.stack t = .lib n (.lock m :: is) :: rest) : StuckForever s t := by
  refine ⟨m, ?_⟩
  have key : ∀ cs, ∀ s', s'.holder m = some t → s'.stack t = s.stack t →
      (State.run s' cs).holder m = some t ∧ (State.run s' cs).stack t = s.stack t := by
    intro cs
    induction cs with
    | nil => intro s' h1 h2; exact ⟨h1, h2⟩
    | cons c cs ih =>
      intro s' h1 h2
      have := holder_keeps (c := c) h1 (h2.trans he)
      exact ih _ this.1 (this.2.trans h2)
  intro cs
  obtain ⟨h1, h2⟩ := key cs s hm rfl
  exact ⟨⟨by simp [h1], n, is, rest, h2.trans he⟩, h2⟩

end Blackhole.Reenter
