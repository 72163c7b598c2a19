import Verif.RootConc.Lemmas

/-!
# Property C06: concurrent reconfiguration

`At cs j s` says that `s` is the state after the first `j` commands of the schedule `cs`, from the initial state.
`GivenTo cs c f h` says that filter `f` was given to configuration `c` (with handlers `h`).
-/

namespace Blackhole.RootConc
variable {F H : Type}

/-- **C06, atomicity.** In every schedule, every completed log call was really called at `d.begun`, and there
are two moments during the call such that at the first the logger had configuration `c`, with the handlers the
call used, and at the second that same configuration had the filter the call used. -/
theorem C06_log_is_atomic (cs : List (Cmd F H)) (s : State F H) (h : State.init.run cs = some s)
    (d : Done F H) (hd : d ∈ s.done) :
    (∃ t, cs[d.begun]? = some (.log t d.logger)) ∧ d.ended < cs.length ∧
    ∃ j₁ j₂ s₁ s₂ c, d.begun < j₁ ∧ j₁ ≤ j₂ ∧ j₂ ≤ d.ended ∧ At cs j₁ s₁ ∧ At cs j₂ s₂ ∧
      s₁.cells[d.logger]? = some c ∧ s₁.cfgs[c]?.map Cfg.handlers = some d.handlers ∧
      s₂.cfgs[c]? = some ⟨d.filter, d.handlers⟩ :=
  (logInv_run h).done d hd

/-- **C06, no mixing.** The filter a log call used was given to the very configuration whose handlers it used. -/
theorem C06_never_mixes (cs : List (Cmd F H)) (s : State F H) (h : State.init.run cs = some s)
    (d : Done F H) (hd : d ∈ s.done) :
    ∃ j s₁ c, d.begun < j ∧ j ≤ d.ended ∧ At cs j s₁ ∧ s₁.cells[d.logger]? = some c ∧
      s₁.cfgs[c]?.map Cfg.handlers = some d.handlers ∧ GivenTo cs c d.filter d.handlers := by
  obtain ⟨-, hl, j₁, j₂, s₁, s₂, c, a1, a2, a3, a4, a5, a6, a7, a8⟩ := (logInv_run h).done d hd
  refine ⟨j₁, s₁, c, a1, by omega, a4, a6, a7, ?_⟩
  have g := (filterInv_run a5.2).cfgs c _ a8
  have ext : ∀ (i : Nat) x, (cs.take j₂)[i]? = some x → cs[i]? = some x := by
    intro i x hx
    have := (List.getElem?_eq_some_iff.1 hx).1
    simp at this
    rwa [List.getElem?_take_of_lt (by omega)] at hx
  have extAt : ∀ i x, At (cs.take j₂) i x → At cs i x := by
    intro i x hx
    obtain ⟨h1, h2⟩ := hx
    simp at h1
    rw [List.take_take, Nat.min_eq_left (by omega)] at h2
    exact ⟨by omega, h2⟩
  rcases g with ⟨i, t, s', b1, b2, b3⟩ | ⟨i, j, t, l, s', b1, b2, b3, b4⟩
  · exact .inl ⟨i, t, s', ext _ _ b1, extAt _ _ b2, b3⟩
  · exact .inr ⟨i, j, t, l, s', ext _ _ b1, b2, extAt _ _ b3, b4⟩

/-- Without any `filter()` call, each log call used a pair of filter and handlers that some constructor got. -/
theorem C06_constructed_pairs (cs : List (Cmd F H)) (s : State F H) (h : State.init.run cs = some s)
    (hn : ∀ t l fn, Cmd.filter t l fn ∉ cs) (d : Done F H) (hd : d ∈ s.done) :
    ∃ t, Cmd.construct t d.filter d.handlers ∈ cs := by
  obtain ⟨_, _, _, _, _, _, _, _, g⟩ := C06_never_mixes cs s h d hd
  rcases g with ⟨i, t, s', b1, -, -⟩ | ⟨i, j, t, l, s', b1, -, -, -⟩
  · exact ⟨t, List.mem_of_getElem? b1⟩
  · exact absurd (List.mem_of_getElem? b1) (hn _ _ _)

/-- **C06, assignments stick (partial).** If no `filter()` on the logger is between its load and its store, then
whatever other threads do next, including any number of `filter()` calls on the logger, its configuration stays
as it is until another move assignment to it is called. Missing for the full claim: `filter()` calls in flight,
for which it is false (`C06_fails_assignment_undone`). -/
theorem C06_assignment_sticks_partial (s s' : State F H) (l c : Nat) (hq : Quiet s l)
    (hc : s.cells[l]? = some c) (cs : List (Cmd F H)) (hr : s.run cs = some s')
    (hn : ∀ x ∈ cs, ∀ t r, x ≠ .assign t l r) : s'.cells[l]? = some c :=
  (sticks_run cs ⟨hc, fun t fn k hp => absurd hp ((hq t).1 fn k), fun t k hp => absurd hp ((hq t).2.1 k),
    fun t r => (hq t).2.2.1 r, fun t k => (hq t).2.2.2 k⟩ hr hn).cell

/-- A move assignment that runs alone gives the destination the source's configuration. -/
theorem C06_assignment_installs (s : State F H) (t dst src c d : Nat) (hi : s.pc t = .idle) (hne : dst ≠ src)
    (hs : s.cells[src]? = some c) (hd : s.cells[dst]? = some d) :
    ∃ s', s.run [.assign t dst src, .step t, .step t] = some s' ∧ s'.cells[dst]? = some c ∧
      s'.pc t = .idle ∧ ∀ l, l ≠ dst → s'.cells[l]? = s.cells[l]? := by
  have hlt := (List.getElem?_eq_some_iff.1 hd).1
  refine ⟨_, by simp [State.run, State.next, State.act, hne, State.call, hi, State.advance, State.setPc, hs]; rfl,
    ?_, ?_, ?_⟩
  · simp [hlt]
  · simp
  · intro l hl
    simp [Ne.symm hl]

/-- A `filter()` call that runs alone is obeyed by the next log call, with the logger's own handlers, and by
every logger that shares the configuration. -/
theorem C06_filter_takes_effect (s : State F H) (t l l' c : Nat) (fn : F) (cfg : Cfg F H)
    (hi : s.pc t = .idle) (hc : s.cells[l]? = some c) (hc' : s.cells[l']? = some c)
    (hf : s.cfgs[c]? = some cfg) :
    ∃ s', s.run [.filter t l fn, .step t, .step t, .step t, .log t l', .step t, .step t] = some s' ∧
      s'.cells[l]? = some c ∧
      ∃ b e, s'.done = s.done ++ [⟨l', b, e, fn, cfg.handlers⟩] := by
  have hlt := (List.getElem?_eq_some_iff.1 hc).1
  have hlt2 := (List.getElem?_eq_some_iff.1 hf).1
  have hset : (s.cells.set l c)[l']? = some c := by
    rw [List.getElem?_set]; split
    · simp_all
    · exact hc'
  refine ⟨_, by
    simp [State.run, State.next, State.act, State.call, hi, State.advance, State.setPc, hc, hlt2, hset]; rfl,
    ?_, ?_⟩
  · simp [hlt]
  · have e : s.cfgs[c] = cfg := by simpa [hlt2] using hf
    exact ⟨_, _, by rw [e]⟩

/-- The schedule of the lost update: thread 0 is inside `filter()` on logger 0 when thread 1 assigns logger 1 to
logger 0; thread 0's final store brings the old configuration back. -/
def lostUpdate : List (Cmd Nat Nat) :=
  [.construct 0 10 100, .construct 0 11 101, .filter 0 0 12, .step 0, .assign 1 0 1, .step 1, .step 1,
   .step 0, .step 0, .log 1 0, .step 1, .step 1]

/-- **C06, negation of the last part.** There is a schedule in which a completed move assignment is undone: after
command 7 the assignment has returned and logger 0 has the configuration of logger 1, yet a log call made after
all calls have returned uses the old handlers. -/
theorem C06_fails_assignment_undone :
    (∃ s, At lostUpdate 7 s ∧ s.cells[0]? = some 1 ∧ s.cells[1]? = some 1 ∧ s.pc 1 = .idle) ∧
    ∃ s d, State.init.run lostUpdate = some s ∧ s.done = [d] ∧ d.logger = 0 ∧ 9 ≤ d.begun ∧
      d.handlers = 100 ∧ s.cells[0]? = some 0 := by
  refine ⟨⟨_, ⟨by decide, rfl⟩, rfl, rfl, rfl⟩, _, _, rfl, rfl, rfl, ?_, rfl, rfl⟩
  decide

/-! ## Witnesses -/

/-- The schedule above completes a log call, so the universal theorems speak about it. -/
example : ∃ s d, State.init.run lostUpdate = some s ∧ d ∈ s.done ∧ d.filter = 12 :=
  ⟨_, _, rfl, List.mem_singleton.2 rfl, rfl⟩

/-- A quiet state with two loggers, one of them idle. -/
example : ∃ s : State Nat Nat, State.init.run [.construct 0 10 100, .construct 0 11 101] = some s ∧
    Quiet s 0 ∧ s.cells[0]? = some 0 ∧ s.cells[1]? = some 1 ∧ s.pc 0 = .idle ∧
    s.cfgs[0]? = some ⟨10, 100⟩ :=
  ⟨_, rfl, fun _ => ⟨nofun, nofun, nofun, nofun⟩, rfl, rfl, rfl, rfl⟩

end Blackhole.RootConc
