import Verif.Spin.Progress
import Verif.RootConc.Props

/-!
# C84: lock sections of the root logger

`State.init.run cs = some s`: schedule `cs` of single memory accesses leads to `s`.
-/

namespace Blackhole.Spin

open RootConc (Pc Cmd)

variable {A B H : Type}

/-- At no time are two threads in sections of the same lock. -/
theorem C84_exclusive {cs : List (Cmd (A × B) H)} {s : State A B H} (h : State.init.run cs = some s) {t u : Nat} {k : Lock}
    (ht : Holds s t k) (hu : Holds s u k) : t = u :=
  (good_run h).exclusive ht hu

/-- **C84.** What the log calls of an execution worked with, they could have worked with if every lock section was a single step:
leaving out some steps of the threads, and none of their calls, gives a schedule of `RootConc` with the same outcome. -/
theorem C84_atomic {cs : List (Cmd (A × B) H)} {s : State A B H} (h : State.init.run cs = some s) :
    ∃ cs' g, Thinned cs cs' ∧ RootConc.State.init.run cs' = some g ∧
      s.done = g.done.map fun d => ⟨d.logger, d.filter, d.handlers⟩ := by
  obtain ⟨cs', g, h1, h2, h3⟩ := reach h
  exact ⟨cs', g, h1, h2, h3.done.symm⟩

theorem Thinned.mem {a b : List (Cmd (A × B) H)} (h : Thinned a b) {c : Cmd (A × B) H} (hc : c ∈ b) : c ∈ a := by
  induction h with
  | nil => exact hc
  | keep d _ ih =>
    rcases List.mem_cons.1 hc with rfl | h1
    · exact List.mem_cons_self
    · exact List.mem_cons_of_mem _ (ih h1)
  | drop t _ ih => exact List.mem_cons_of_mem _ (ih hc)

/-- No log call gets half of one filter and half of another: it uses one that was passed to a constructor or to `filter()`, and
the handlers of one constructor; if `filter()` was never called, those that were passed together. -/
theorem C84_whole {cs : List (Cmd (A × B) H)} {s : State A B H} (h : State.init.run cs = some s) {d : Done A B H}
    (hd : d ∈ s.done) :
    ((∃ t, Cmd.construct t d.filter d.handlers ∈ cs) ∨ ∃ t l, Cmd.filter t l d.filter ∈ cs) ∧
      ∃ t fn, Cmd.construct t fn d.handlers ∈ cs := by
  obtain ⟨cs', g, h1, h2, h3⟩ := C84_atomic h
  rw [h3, List.mem_map] at hd
  obtain ⟨e, he, rfl⟩ := hd
  obtain ⟨j, s₁, c, -, -, ha, hc, hh, hg⟩ := RootConc.C06_never_mixes cs' g h2 e he
  refine ⟨?_, ?_⟩
  · rcases hg with ⟨i, t, s', b1, -, -⟩ | ⟨i, j, t, l, s', b1, -, -, -⟩
    · exact .inl ⟨t, h1.mem (List.mem_of_getElem? b1)⟩
    · exact .inr ⟨t, l, h1.mem (List.mem_of_getElem? b1)⟩
  · have key : ∀ (xs : List (Cmd (A × B) H)) (g0 g1 : RootConc.State (A × B) H), g0.run xs = some g1 →
        (∀ (i : Nat) y, g0.cfgs[i]? = some y → ∃ t fn, Cmd.construct t fn y.handlers ∈ cs') → (∀ x ∈ xs, x ∈ cs') →
        ∀ (i : Nat) y, g1.cfgs[i]? = some y → ∃ t fn, Cmd.construct t fn y.handlers ∈ cs' := by
      intro xs
      induction xs with
      | nil => intro g0 g1 hr h0 _; cases hr; exact h0
      | cons x xs ih =>
        intro g0 g1 hr h0 hx
        simp only [RootConc.State.run, Option.bind_eq_some_iff] at hr
        obtain ⟨m, hm, hr⟩ := hr
        refine ih m g1 hr ?_ (fun y hy => hx y (by simp [hy]))
        obtain ⟨m', hm', rfl⟩ := RootConc.next_eq hm
        intro i y hy
        simp only at hy
        have hcall {t : Nat} {p : Pc (A × B)} (hc : g0.call t p = some m') : m'.cfgs = g0.cfgs := by
          obtain ⟨-, rfl⟩ := RootConc.call_some hc; rfl
        cases x with
        | construct t f hs =>
          simp only [RootConc.State.act] at hm'
          split at hm'
          · cases hm'
            simp only [List.getElem?_append] at hy
            split at hy
            · exact h0 i y hy
            · cases hj : i - g0.cfgs.length with
              | zero => rw [hj] at hy; simp at hy; subst hy; exact ⟨t, f, hx _ (by simp)⟩
              | succ j => rw [hj] at hy; simp at hy
          · cases hm'
        | log t l => rw [hcall hm'] at hy; exact h0 i y hy
        | filter t l fn => rw [hcall hm'] at hy; exact h0 i y hy
        | move t l => rw [hcall hm'] at hy; exact h0 i y hy
        | assign t d r =>
          simp only [RootConc.State.act] at hm'
          split at hm'
          · cases hm'; exact h0 i y hy
          · rw [hcall hm'] at hy; exact h0 i y hy
        | step t =>
          simp only [RootConc.State.act, RootConc.State.advance] at hm'
          split at hm'
          · cases hm'
          · split at hm' <;> cases hm'; exact h0 i y hy
          · split at hm' <;> cases hm'; exact h0 i y hy
          · split at hm' <;> cases hm'; exact h0 i y hy
          · split at hm'
            · next cfg hcfg =>
              cases hm'
              simp only [List.getElem?_set] at hy
              split at hy
              · split at hy
                · cases hy; exact h0 _ cfg hcfg
                · cases hy
              · exact h0 i y hy
            · cases hm'
          · cases hm'; exact h0 i y hy
          · split at hm' <;> cases hm'; exact h0 i y hy
          · cases hm'; exact h0 i y hy
          · split at hm' <;> cases hm'; exact h0 i y hy
    obtain ⟨ha1, ha2⟩ := ha
    have hs₁ := key (cs'.take j) _ s₁ ha2 (by intro i y hy; simp [RootConc.State.init] at hy)
      (fun x hx => List.mem_of_mem_take hx)
    cases hy : s₁.cfgs[c]? with
    | none => rw [hy] at hh; cases hh
    | some y =>
      rw [hy] at hh
      simp only [Option.map_some, Option.some.injEq] at hh
      obtain ⟨t, fn, hm⟩ := hs₁ c y hy
      exact ⟨t, fn, by rw [← hh]; exact h1.mem hm⟩

theorem Good.pointer {s : State A B H} (h : Good s) {t o k : Nat}
    (ht : (s.thr t).stage = .full o k ∨ ∃ d, (s.thr t).stage = .ready o k d) : o = k ∧ o < s.cfgs.length := by
  obtain ⟨g, hR, hV⟩ := h
  have hi : (s.thr t).stage.inside = true := by rcases ht with ht | ⟨d, ht⟩ <;> rw [ht] <;> rfl
  have hh := (hR.held t).2 hi
  have fin (l : Nat) (x : Cell) (hx : s.cells[l]? = some x) (hl : x.lock = some t) : o = k ∧ o < s.cfgs.length := by
    obtain ⟨v, hv⟩ := getElem?_some_of_len hR.cellsLen hx
    have h1 := hR.cells l x v hx hv
    unfold CellOk at h1
    rw [hl] at h1
    rw [hR.cfgsLen]
    have hvv := hV.cells l v hv
    simp only at h1
    rcases ht with ht | ⟨d, ht⟩ <;> rw [ht] at h1 <;> unfold PointerOk at h1 <;> split at h1 <;>
      first | exact h1.elim | (simp_all; done) | (rename_i hst; simp at hst; obtain ⟨rfl, rfl⟩ := hst; obtain ⟨-, -, -, rfl, rfl⟩ := h1; exact ⟨rfl, hvv⟩)
  split at hh
  · exact hh.elim
  · next l _ => obtain ⟨x, h1, h2⟩ := hh; exact fin l x h1 h2
  · next l _ _ => obtain ⟨x, h1, h2⟩ := hh; exact fin l x h1 h2
  · next c ha =>
    obtain ⟨x, h1, h2⟩ := hh
    obtain ⟨v, hv⟩ := getElem?_some_of_len hR.cfgsLen h1
    have := (hR.cfgs c x v h1 hv).2
    rcases ht with ht | ⟨d, ht⟩ <;> simp [CfgOk, h2, ha, ht, FilterOk] at this
  · next c fn ha =>
    obtain ⟨x, h1, h2⟩ := hh
    obtain ⟨v, hv⟩ := getElem?_some_of_len hR.cfgsLen h1
    have := (hR.cfgs c x v h1 hv).2
    rcases ht with ht | ⟨d, ht⟩ <;> simp [CfgOk, h2, ha, ht, FilterOk] at this

/-- A pointer that a thread has read or taken out is whole, and points to a configuration that was made. -/
theorem C84_pointer_whole {cs : List (Cmd (A × B) H)} {s : State A B H} (h : State.init.run cs = some s) {t o k : Nat}
    (ht : (s.thr t).stage = .full o k ∨ ∃ d, (s.thr t).stage = .ready o k d) : o = k ∧ o < s.cfgs.length :=
  (good_run h).pointer ht

/-- A thread inside a section leaves it by at most four steps of its own, whatever the others are doing. -/
theorem C84_section_ends {cs : List (Cmd (A × B) H)} {s : State A B H} (h : State.init.run cs = some s) {t : Nat} {k : Lock}
    (ht : Holds s t k) :
    ∃ n s', n ≤ 4 ∧ s.run (List.replicate n (.step t)) = some s' ∧ ∀ k', ¬ Holds s' t k' := by
  obtain ⟨n, s', h1, h2, h3, -⟩ := leaves 4 (good_run h) ht.1
    (by have := ht.1; cases hst : (s.thr t).stage <;> simp [Stage.rank, hst, Stage.inside] at this ⊢)
  exact ⟨n, s', h1, h2, fun k' hk => by rw [hk.1] at h3; cases h3⟩

/-- A call on existing loggers returns by its own steps, unless another thread stays in a section. -/
theorem C84_returns_alone {cs : List (Cmd (A × B) H)} {s : State A B H} (h : State.init.run cs = some s) {t : Nat}
    (he : ∀ l ∈ loggersOf (s.thr t).pc, l < s.cells.length) (hf : ∀ u k, u ≠ t → ¬ Holds s u k) :
    ∃ n s', s.run (List.replicate n (.step t)) = some s' ∧ Idle s' t :=
  ends_alone _ (good_run h) (Nat.le_refl _) he hf

/-- No deadlock: from every reachable state each call on existing loggers can return, given that the destructors and copy
constructors that sections run return. -/
theorem C84_no_deadlock {cs : List (Cmd (A × B) H)} {s : State A B H} (h : State.init.run cs = some s) (t : Nat)
    (he : ∀ l ∈ loggersOf (s.thr t).pc, l < s.cells.length) :
    ∃ us : List Nat, ∃ s', s.run (us.map .step) = some s' ∧ Idle s' t :=
  ends _ (good_run h) (Nat.le_refl _) he

/-- But sections run destructors of the user: as long as thread `u` does not return from one (or is stopped in a section for
another reason), no log call on that logger gets any further, whatever the others do. -/
theorem C84_fails_waiting {cs : List (Cmd (A × B) H)} {s : State A B H} (h : State.init.run cs = some s) {t u l b : Nat}
    (hu : Holds s u (.logger l)) (ht : s.thr t = ⟨.log l b, .outside⟩) (more : List (Cmd (A × B) H)) (s' : State A B H)
    (hm : .step u ∉ more) (hr : s.run more = some s') : s'.thr t = s.thr t := by
  have key : ∀ (more : List (Cmd (A × B) H)) (s1 : State A B H), Good s1 → s1.thr u = s.thr u → s1.thr t = s.thr t →
      .step u ∉ more → s1.run more = some s' → s'.thr t = s.thr t := by
    intro more
    induction more with
    | nil => intro s1 _ _ h2 _ h3; cases h3; exact h2
    | cons c more ih =>
      intro s1 hG h1 h2 hm h3
      simp only [State.run, Option.bind_eq_some_iff] at h3
      obtain ⟨m, h4, h5⟩ := h3
      have hunot : c.thread ≠ u ∨ m = s1 := by
        by_cases hc : c.thread = u
        · right
          have busy (x : Nat) (hx : x = u) : s1.thr x ≠ ⟨.idle, .outside⟩ := by
            subst hx; rw [h1]; intro e; have := hu.1; rw [e] at this; cases this
          have hcall {p : Pc (A × B)} (h : s1.call c.thread p = some m) : False := busy _ hc (call_some h).1
          cases c with
          | construct x f hs =>
            simp only [State.act] at h4
            split at h4
            · next hp => exact absurd hp (busy x hc)
            · cases h4
          | log => exact (hcall h4).elim
          | filter => exact (hcall h4).elim
          | move => exact (hcall h4).elim
          | assign x d r =>
            simp only [State.act] at h4
            split at h4
            · cases h4; rfl
            · exact (hcall h4).elim
          | step x => exact absurd (by simp [Cmd.thread] at hc; simp [hc]) hm
        · exact .inl hc
      rcases hunot with hc | rfl
      · have hmu : m.thr u = s1.thr u := act_others hG h4 (Ne.symm hc)
        have hmt : m.thr t = s1.thr t := by
          by_cases hct : t = c.thread
          · have notidle (x : Nat) (hx : x = t) : s1.thr x ≠ ⟨.idle, .outside⟩ := by
              subst hx; rw [h2, ht]; intro e; simp at e
            have hcall {p : Pc (A × B)} (h : s1.call c.thread p = some m) : False := notidle _ hct.symm (call_some h).1
            cases c with
            | construct x f hs =>
              simp only [State.act] at h4
              split at h4
              · next hp => exact absurd hp (notidle x hct.symm)
              · cases h4
            | log => exact (hcall h4).elim
            | filter => exact (hcall h4).elim
            | move => exact (hcall h4).elim
            | assign x d r =>
              simp only [State.act] at h4
              split at h4
              · cases h4; rfl
              · exact (hcall h4).elim
            | step x =>
              simp only [Cmd.thread] at hct
              subst hct
              obtain ⟨g, hR, -⟩ := hG
              have hlock : ∃ x : Cell, s1.cells[l]? = some x ∧ x.lock = some u := by
                have h6 := (hR.held u).2 (by rw [h1]; exact hu.1)
                have h7 := hu.2
                rw [← h1] at h7
                split at h6
                · exact h6.elim
                all_goals (next ha => rw [ha] at h7; simp [Access.lock] at h7; try (subst h7; exact h6))
              obtain ⟨x, hx, hxl⟩ := hlock
              simp only [State.act, State.advance, h2, ht, access, State.pointerStep, hx, hxl] at h4
              cases h4
              rfl
          · exact act_others hG h4 hct
        exact ih m (hG.act h4) (hmu.trans h1) (hmt.trans h2) (fun hx => hm (by simp [hx])) h5
      · exact ih m hG h1 h2 (fun hx => hm (by simp [hx])) h5
  exact key more s (good_run h) rfl rfl hm hr

/-- Thread 1 assigns logger 1 to logger 0 and so destroys the handlers of logger 0; thread 0 logs to logger 0 meanwhile. -/
def destroys : List (Cmd (Nat × Nat) Nat) :=
  [.construct 0 (10, 11) 100, .construct 1 (20, 21) 200, .assign 1 0 1, .step 1, .step 1, .step 1, .step 1, .step 1,
    .step 1, .step 1, .step 1, .step 1, .log 0 0, .step 0]

example : ∃ s, State.init.run destroys = some s ∧ (s.thr 1).stage = .ready 0 0 true ∧ Holds s 1 (.logger 0)
    ∧ s.thr 0 = ⟨.log 0 0, .outside⟩ := ⟨_, rfl, rfl, ⟨rfl, rfl⟩, rfl⟩

/-- A log call between the two halves of a change of the filter waits, and gets the new filter. -/
example : (State.init.run ([.construct 0 (10, 11) 100, .filter 1 0 (20, 21), .step 1, .step 1, .step 1, .step 1, .step 1, .step 1,
    .step 1, .log 0 0, .step 0, .step 0, .step 0, .step 0, .step 0, .step 0, .step 0, .step 0, .step 1, .step 1, .step 1,
    .step 0, .step 0, .step 0, .step 0, .step 0] : List (Cmd (Nat × Nat) Nat))).map (·.done) = some [⟨0, (20, 21), 100⟩] := rfl

end Blackhole.Spin
