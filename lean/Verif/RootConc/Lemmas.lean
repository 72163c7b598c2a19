import Verif.RootConc.Model

namespace Blackhole.RootConc
variable {F H : Type}

theorem run_append (s : State F H) (a b : List (Cmd F H)) :
    s.run (a ++ b) = (s.run a).bind (·.run b) := by
  induction a generalizing s with
  | nil => rfl
  | cons c a ih =>
    simp only [List.cons_append, State.run]
    cases h : s.next c with
    | none => rfl
    | some s' => simp [ih]

theorem run_snoc {s s' : State F H} {a : List (Cmd F H)} {c : Cmd F H}
    (h : s.run (a ++ [c]) = some s') : ∃ m, s.run a = some m ∧ m.next c = some s' := by
  rw [run_append] at h
  cases h1 : s.run a with
  | none => simp [h1] at h
  | some m =>
    refine ⟨m, rfl, ?_⟩
    simp only [h1, Option.bind_some, State.run] at h
    cases h2 : m.next c with
    | none => simp [h2] at h
    | some m' => simpa [h2] using h

theorem next_eq {s s' : State F H} {c : Cmd F H} (h : s.next c = some s') :
    ∃ m, s.act c = some m ∧ s' = { m with time := m.time + 1 } := by
  simp only [State.next, Option.map_eq_some_iff] at h
  obtain ⟨m, h1, h2⟩ := h
  exact ⟨m, h1, h2.symm⟩

theorem call_some {s s' : State F H} {t : Nat} {p : Pc F} (h : s.call t p = some s') :
    s.pc t = .idle ∧ s' = s.setPc t p := by
  unfold State.call at h
  split at h
  · rename_i h1; exact ⟨h1, by simpa using h.symm⟩
  · simp at h

/-- The handlers of configurations never change, and configurations are only added. -/
def Grows (a b : State F H) : Prop :=
  ∀ (c : Nat) (h : H), a.cfgs[c]?.map Cfg.handlers = some h → b.cfgs[c]?.map Cfg.handlers = some h

theorem Grows.refl (a : State F H) : Grows a a := fun _ _ h => h
theorem Grows.trans {a b c : State F H} (h1 : Grows a b) (h2 : Grows b c) : Grows a c :=
  fun k h hk => h2 k h (h1 k h hk)

/-- What one step may do, by the moving thread's position before it. -/
inductive Effect (s : State F H) : Cmd F H → State F H → Prop where
  | construct {t f h} (hp : s.pc t = .idle) :
      Effect s (.construct t f h)
        { s with cfgs := s.cfgs ++ [⟨f, h⟩], cells := s.cells ++ [s.cfgs.length] }
  | call {t p cmd} (hp : s.pc t = .idle)
      (hc : (∃ l, cmd = .log t l ∧ p = .log l s.time) ∨ (∃ l fn, cmd = .filter t l fn ∧ p = .filter l fn) ∨
        (∃ d r, cmd = .assign t d r ∧ d ≠ r ∧ p = .assign d r) ∨ (∃ r, cmd = .move t r ∧ p = .move r)) :
      Effect s cmd (s.setPc t p)
  | selfAssign {t d} : Effect s (.assign t d d) s
  | logLoad {t l b c} (hp : s.pc t = .log l b) (hc : s.cells[l]? = some c) :
      Effect s (.step t) (s.setPc t (.logLoaded l b c))
  | logRead {t l b c cfg} (hp : s.pc t = .logLoaded l b c) (hc : s.cfgs[c]? = some cfg) :
      Effect s (.step t) { s.setPc t .idle with
        done := s.done ++ [⟨l, b, s.time, cfg.filter, cfg.handlers⟩] }
  | filterLoad {t l fn c} (hp : s.pc t = .filter l fn) (hc : s.cells[l]? = some c) :
      Effect s (.step t) (s.setPc t (.filterLoaded l fn c))
  | filterApply {t l fn c cfg} (hp : s.pc t = .filterLoaded l fn c) (hc : s.cfgs[c]? = some cfg) :
      Effect s (.step t)
        { s.setPc t (.filterSet l c) with cfgs := s.cfgs.set c { cfg with filter := fn } }
  | filterStore {t l c} (hp : s.pc t = .filterSet l c) :
      Effect s (.step t) { s.setPc t .idle with cells := s.cells.set l c }
  | assignLoad {t d r c} (hp : s.pc t = .assign d r) (hc : s.cells[r]? = some c) :
      Effect s (.step t) (s.setPc t (.assignLoaded d c))
  | assignStore {t d c} (hp : s.pc t = .assignLoaded d c) :
      Effect s (.step t) { s.setPc t .idle with cells := s.cells.set d c }
  | moveLoad {t r c} (hp : s.pc t = .move r) (hc : s.cells[r]? = some c) :
      Effect s (.step t) { s.setPc t .idle with cells := s.cells ++ [c] }

theorem act_effect {s m : State F H} {c : Cmd F H} (h : s.act c = some m) : Effect s c m := by
  cases c with
  | construct t f hd =>
    simp only [State.act] at h
    split at h
    · rename_i hp; simp only [Option.some.injEq] at h; subst h; exact .construct hp
    · simp at h
  | log t l =>
    obtain ⟨hp, rfl⟩ := call_some h
    exact .call hp (.inl ⟨l, rfl, rfl⟩)
  | filter t l fn =>
    obtain ⟨hp, rfl⟩ := call_some h
    exact .call hp (.inr (.inl ⟨l, fn, rfl, rfl⟩))
  | assign t d r =>
    simp only [State.act] at h
    split at h
    · rename_i e; simp only [Option.some.injEq] at h; subst h; subst e; exact .selfAssign
    · rename_i e
      obtain ⟨hp, rfl⟩ := call_some h
      exact .call hp (.inr (.inr (.inl ⟨d, r, rfl, e, rfl⟩)))
  | move t r =>
    obtain ⟨hp, rfl⟩ := call_some h
    exact .call hp (.inr (.inr (.inr ⟨r, rfl, rfl⟩)))
  | step t =>
    simp only [State.act, State.advance] at h
    split at h
    · simp at h
    · rename_i l b hp
      split at h
      · rename_i c hc; simp only [Option.some.injEq] at h; subst h; exact .logLoad hp hc
      · simp at h
    · rename_i l b c hp
      split at h
      · rename_i cfg hc; simp only [Option.some.injEq] at h; subst h; exact .logRead hp hc
      · simp at h
    · rename_i l fn hp
      split at h
      · rename_i c hc; simp only [Option.some.injEq] at h; subst h; exact .filterLoad hp hc
      · simp at h
    · rename_i l fn c hp
      split at h
      · rename_i cfg hc; simp only [Option.some.injEq] at h; subst h; exact .filterApply hp hc
      · simp at h
    · rename_i l c hp; simp only [Option.some.injEq] at h; subst h; exact .filterStore hp
    · rename_i d r hp
      split at h
      · rename_i c hc; simp only [Option.some.injEq] at h; subst h; exact .assignLoad hp hc
      · simp at h
    · rename_i d c hp; simp only [Option.some.injEq] at h; subst h; exact .assignStore hp
    · rename_i r hp
      split at h
      · rename_i c hc; simp only [Option.some.injEq] at h; subst h; exact .moveLoad hp hc
      · simp at h

theorem effect_grows {s m : State F H} {c : Cmd F H} (h : Effect s c m) : Grows s m := by
  intro k hd hk
  cases h with
  | construct hp =>
    simp only [Option.map_eq_some_iff] at hk ⊢
    obtain ⟨a, ha, rfl⟩ := hk
    have := (List.getElem?_eq_some_iff.1 ha).1
    exact ⟨a, by rw [List.getElem?_append_left this]; exact ha, rfl⟩
  | @filterApply t l fn c cfg hp hc =>
    simp only [Option.map_eq_some_iff] at hk ⊢
    obtain ⟨a, ha, rfl⟩ := hk
    by_cases e : c = k
    · subst e
      rw [hc] at ha
      cases ha
      have := (List.getElem?_eq_some_iff.1 hc).1
      exact ⟨{ cfg with filter := fn }, by simp [this], rfl⟩
    · exact ⟨a, by simp [e, ha], rfl⟩
  | _ => exact hk

theorem effect_time {s m : State F H} {c : Cmd F H} (h : Effect s c m) : m.time = s.time := by
  cases h <;> rfl

theorem next_effect {s s' : State F H} {c : Cmd F H} (h : s.next c = some s') :
    ∃ m, Effect s c m ∧ s' = { m with time := s.time + 1 } := by
  obtain ⟨m, h1, h2⟩ := next_eq h
  have e := act_effect h1
  exact ⟨m, e, by rw [h2, effect_time e]⟩

theorem run_time {cs : List (Cmd F H)} : ∀ {s : State F H}, State.init.run cs = some s →
    s.time = cs.length := by
  induction cs using snoc_induction with
  | nil => intro s h; simp [State.run] at h; subst h; rfl
  | snoc cs c ih =>
    intro s h
    obtain ⟨m, h1, h2⟩ := run_snoc h
    obtain ⟨m', -, rfl⟩ := next_effect h2
    simp [ih h1]

/-- The state after the first `j` commands of a schedule. -/
def At (cs : List (Cmd F H)) (j : Nat) (s : State F H) : Prop :=
  j ≤ cs.length ∧ State.init.run (cs.take j) = some s

theorem At.snoc {cs : List (Cmd F H)} {j : Nat} {s : State F H} (h : At cs j s) (c : Cmd F H) :
    At (cs ++ [c]) j s := by
  obtain ⟨h1, h2⟩ := h
  refine ⟨by simp; omega, ?_⟩
  rw [List.take_append_of_le_length h1]
  exact h2

theorem At.last {cs : List (Cmd F H)} {s : State F H} (h : State.init.run cs = some s) :
    At cs cs.length s := ⟨Nat.le_refl _, by simpa using h⟩

theorem getElem?_snoc {α : Type} {l : List α} {i : Nat} {a b : α} (h : l[i]? = some a) :
    (l ++ [b])[i]? = some a := by
  have := (List.getElem?_eq_some_iff.1 h).1
  rw [List.getElem?_append_left this]; exact h

/-- What a completed log call is owed. -/
def Owed (cs : List (Cmd F H)) (d : Done F H) : Prop :=
  (∃ t, cs[d.begun]? = some (.log t d.logger)) ∧ d.ended < cs.length ∧
  ∃ j₁ j₂ s₁ s₂ c, d.begun < j₁ ∧ j₁ ≤ j₂ ∧ j₂ ≤ d.ended ∧ At cs j₁ s₁ ∧ At cs j₂ s₂ ∧
    s₁.cells[d.logger]? = some c ∧ s₁.cfgs[c]?.map Cfg.handlers = some d.handlers ∧
    s₂.cfgs[c]? = some ⟨d.filter, d.handlers⟩

theorem Owed.snoc {cs : List (Cmd F H)} {d : Done F H} (h : Owed cs d) (x : Cmd F H) :
    Owed (cs ++ [x]) d := by
  obtain ⟨⟨t, h0⟩, h1, j₁, j₂, s₁, s₂, c, a1, a2, a3, a4, a5, a6, a7, a8⟩ := h
  exact ⟨⟨t, getElem?_snoc h0⟩, by simp; omega,
    j₁, j₂, s₁, s₂, c, a1, a2, a3, a4.snoc x, a5.snoc x, a6, a7, a8⟩

/-- Every pointer held anywhere refers to an existing configuration. -/
structure CellsOk (s : State F H) : Prop where
  cells : ∀ l c : Nat, s.cells[l]? = some c → c < s.cfgs.length
  logLoaded : ∀ t l b c, s.pc t = .logLoaded l b c → c < s.cfgs.length
  filterLoaded : ∀ t l fn c, s.pc t = .filterLoaded l fn c → c < s.cfgs.length
  filterSet : ∀ t l c, s.pc t = .filterSet l c → c < s.cfgs.length
  assignLoaded : ∀ t d c, s.pc t = .assignLoaded d c → c < s.cfgs.length

theorem CellsOk.effect {s m : State F H} {c : Cmd F H} (i : CellsOk s) (h : Effect s c m) : CellsOk m := by
  obtain ⟨i1, i2, i3, i4, i5⟩ := i
  cases h <;> constructor <;> intros <;> (try simp only [State.setPc] at *) <;> grind

theorem cellsOk_run {cs : List (Cmd F H)} : ∀ {s : State F H}, State.init.run cs = some s → CellsOk s := by
  induction cs using snoc_induction with
  | nil => intro s h; simp [State.run] at h; subst h; constructor <;> simp [State.init]
  | snoc cs c ih =>
    intro s h
    obtain ⟨m, h1, h2⟩ := run_snoc h
    obtain ⟨m', he, rfl⟩ := next_effect h2
    have := (ih h1).effect he
    exact ⟨this.1, this.2, this.3, this.4, this.5⟩

/-- Invariant behind C06: positions inside a call remember where their pointer came from. -/
structure LogInv (cs : List (Cmd F H)) (s : State F H) : Prop where
  log : ∀ t l b, s.pc t = .log l b → ∃ u, cs[b]? = some (.log u l)
  loaded : ∀ t l b c, s.pc t = .logLoaded l b c → (∃ u, cs[b]? = some (.log u l)) ∧
    ∃ j s₁, b < j ∧ At cs j s₁ ∧ s₁.cells[l]? = some c ∧ Grows s₁ s ∧ c < s₁.cfgs.length
  done : ∀ d ∈ s.done, Owed cs d

theorem logInv_run {cs : List (Cmd F H)} : ∀ {s : State F H}, State.init.run cs = some s → LogInv cs s := by
  induction cs using snoc_induction with
  | nil => intro s h; simp [State.run] at h; subst h; constructor <;> simp [State.init]
  | snoc cs c ih =>
    intro s h
    obtain ⟨m, h1, h2⟩ := run_snoc h
    obtain ⟨m', he, rfl⟩ := next_effect h2
    have hi := ih h1
    have ht := run_time h1
    have hg := effect_grows he
    have hok := cellsOk_run h1
    have keepLog : ∀ t l b, m.pc t = .log l b → ∃ u, (cs ++ [c])[b]? = some (.log u l) := by
      intro t l b hp
      obtain ⟨u, hu⟩ := hi.log t l b hp
      exact ⟨u, getElem?_snoc hu⟩
    have keepLoaded : ∀ t l b k, m.pc t = .logLoaded l b k →
        (∃ u, (cs ++ [c])[b]? = some (.log u l)) ∧
        ∃ j s₁, b < j ∧ At (cs ++ [c]) j s₁ ∧ s₁.cells[l]? = some k ∧ Grows s₁ m' ∧
          k < s₁.cfgs.length := by
      intro t l b k hp
      obtain ⟨⟨u, hu⟩, j, s₁, a1, a2, a3, a4, a5⟩ := hi.loaded t l b k hp
      exact ⟨⟨u, getElem?_snoc hu⟩, j, s₁, a1, a2.snoc c, a3, a4.trans hg, a5⟩
    have keepDone : ∀ d ∈ m.done, Owed (cs ++ [c]) d := fun d hd => (hi.done d hd).snoc c
    refine ⟨?_, ?_, ?_⟩
    · intro t l b hp
      cases he with
      | construct => exact keepLog t l b hp
      | selfAssign => exact keepLog t l b hp
      | @call t' p _ hq hc =>
        simp only [State.setPc] at hp
        split at hp
        · rcases hc with ⟨l', e1, e2⟩ | ⟨l', fn, e1, e2⟩ | ⟨d, r, e1, -, e2⟩ | ⟨r, e1, e2⟩
          · subst e2; injection hp with e3 e4; subst e3 e4 e1
            exact ⟨t', by rw [ht]; simp⟩
          all_goals subst e2; simp at hp
        · exact keepLog t l b hp
      | _ =>
        simp only [State.setPc] at hp
        split at hp
        · simp at hp
        · exact keepLog t l b hp
    · intro t l b k hp
      cases he with
      | construct => exact keepLoaded t l b k hp
      | selfAssign => exact keepLoaded t l b k hp
      | @call t' p _ hq hc =>
        simp only [State.setPc] at hp
        split at hp
        · rcases hc with ⟨l', e1, e2⟩ | ⟨l', fn, e1, e2⟩ | ⟨d, r, e1, -, e2⟩ | ⟨r, e1, e2⟩
          all_goals subst e2; simp at hp
        · exact keepLoaded t l b k hp
      | @logLoad t' l' b' c' hq hc =>
        simp only [State.setPc] at hp
        split at hp
        · injection hp with e1 e2 e3; subst e1 e2 e3
          obtain ⟨u, hu⟩ := hi.log _ _ _ hq
          have hlt := (List.getElem?_eq_some_iff.1 hu).1
          exact ⟨⟨u, getElem?_snoc hu⟩, cs.length, m, hlt, (At.last h1).snoc _, hc, hg,
            hok.cells _ _ hc⟩
        · exact keepLoaded t l b k hp
      | _ =>
        simp only [State.setPc] at hp
        split at hp
        · simp at hp
        · exact keepLoaded t l b k hp
    · intro d hd
      cases he with
      | @logRead t l b k cfg hq hc =>
        simp only [List.mem_append, List.mem_singleton] at hd
        rcases hd with hd | hd
        · exact keepDone d hd
        · subst hd
          obtain ⟨⟨u, hu⟩, j, s₁, a1, a2, a3, a4, a5⟩ := hi.loaded _ _ _ _ hq
          refine ⟨⟨u, getElem?_snoc hu⟩, by simp [ht], j, cs.length, s₁, m, k, a1, a2.1, by simp [ht],
            a2.snoc _, (At.last h1).snoc _, a3, ?_, hc⟩
          · obtain ⟨x, hx⟩ := List.getElem?_eq_some_iff.2 ⟨a5, rfl⟩ |> fun h => (⟨_, h⟩ : ∃ x, s₁.cfgs[k]? = some x)
            have := a4 k x.handlers (by simp [hx])
            simp [hc] at this
            simp [hx, this]
      | _ => exact keepDone d hd

/-- Filter `f` was given to configuration `c`, whose handlers are `h`, by its constructor, or by a `filter()`
call on a logger that had configuration `c` at some moment after the call began. -/
def GivenTo (cs : List (Cmd F H)) (c : Nat) (f : F) (h : H) : Prop :=
  (∃ i t s, cs[i]? = some (.construct t f h) ∧ At cs i s ∧ s.cfgs.length = c) ∨
  (∃ i j t l s, cs[i]? = some (.filter t l f) ∧ i < j ∧ At cs j s ∧ s.cells[l]? = some c)

theorem GivenTo.snoc {cs : List (Cmd F H)} {c : Nat} {f : F} {h : H} (g : GivenTo cs c f h)
    (x : Cmd F H) : GivenTo (cs ++ [x]) c f h := by
  rcases g with ⟨i, t, s, h1, h2, h3⟩ | ⟨i, j, t, l, s, h1, h2, h3, h4⟩
  · exact .inl ⟨i, t, s, getElem?_snoc h1, h2.snoc x, h3⟩
  · exact .inr ⟨i, j, t, l, s, getElem?_snoc h1, h2, h3.snoc x, h4⟩

structure FilterInv (cs : List (Cmd F H)) (s : State F H) : Prop where
  called : ∀ t l fn, s.pc t = .filter l fn → ∃ (i u : Nat), cs[i]? = some (Cmd.filter u l fn)
  loaded : ∀ t l fn c, s.pc t = .filterLoaded l fn c → ∃ (i j u : Nat) (s₁ : State F H),
    cs[i]? = some (.filter u l fn) ∧ i < j ∧ At cs j s₁ ∧ s₁.cells[l]? = some c
  cfgs : ∀ (c : Nat) cfg, s.cfgs[c]? = some cfg → GivenTo cs c cfg.filter cfg.handlers

theorem filterInv_run {cs : List (Cmd F H)} :
    ∀ {s : State F H}, State.init.run cs = some s → FilterInv cs s := by
  induction cs using snoc_induction with
  | nil => intro s h; simp [State.run] at h; subst h; constructor <;> simp [State.init]
  | snoc cs c ih =>
    intro s h
    obtain ⟨m, h1, h2⟩ := run_snoc h
    obtain ⟨m', he, rfl⟩ := next_effect h2
    have hi := ih h1
    have keep1 : ∀ t l fn, m.pc t = .filter l fn → ∃ (i u : Nat), (cs ++ [c])[i]? = some (Cmd.filter u l fn) := by
      intro t l fn hp
      obtain ⟨i, u, hu⟩ := hi.called t l fn hp
      exact ⟨i, u, getElem?_snoc hu⟩
    have keep2 : ∀ t l fn k, m.pc t = .filterLoaded l fn k → ∃ (i j u : Nat) (s₁ : State F H),
        (cs ++ [c])[i]? = some (.filter u l fn) ∧ i < j ∧ At (cs ++ [c]) j s₁ ∧
        s₁.cells[l]? = some k := by
      intro t l fn k hp
      obtain ⟨i, j, u, s₁, a1, a2, a3, a4⟩ := hi.loaded t l fn k hp
      exact ⟨i, j, u, s₁, getElem?_snoc a1, a2, a3.snoc c, a4⟩
    have keep3 : ∀ (k : Nat) cfg, m.cfgs[k]? = some cfg →
        GivenTo (cs ++ [c]) k cfg.filter cfg.handlers := fun k cfg hk => (hi.cfgs k cfg hk).snoc c
    refine ⟨?_, ?_, ?_⟩
    · intro t l fn hp
      cases he with
      | construct => exact keep1 t l fn hp
      | selfAssign => exact keep1 t l fn hp
      | @call t' p _ hq hc =>
        simp only [State.setPc] at hp
        split at hp
        · rcases hc with ⟨l', e1, e2⟩ | ⟨l', fn', e1, e2⟩ | ⟨d, r, e1, -, e2⟩ | ⟨r, e1, e2⟩
          · subst e2; simp at hp
          · subst e2; injection hp with e3 e4; subst e3 e4 e1
            exact ⟨cs.length, t', by simp⟩
          all_goals subst e2; simp at hp
        · exact keep1 t l fn hp
      | _ =>
        simp only [State.setPc] at hp
        split at hp
        · simp at hp
        · exact keep1 t l fn hp
    · intro t l fn k hp
      cases he with
      | construct => exact keep2 t l fn k hp
      | selfAssign => exact keep2 t l fn k hp
      | @call t' p _ hq hc =>
        simp only [State.setPc] at hp
        split at hp
        · rcases hc with ⟨l', e1, e2⟩ | ⟨l', fn', e1, e2⟩ | ⟨d, r, e1, -, e2⟩ | ⟨r, e1, e2⟩
          all_goals subst e2; simp at hp
        · exact keep2 t l fn k hp
      | @filterLoad t' l' fn' c' hq hc =>
        simp only [State.setPc] at hp
        split at hp
        · injection hp with e1 e2 e3; subst e1 e2 e3
          obtain ⟨i, u, hu⟩ := hi.called _ _ _ hq
          have hlt := (List.getElem?_eq_some_iff.1 hu).1
          exact ⟨i, cs.length, u, m, getElem?_snoc hu, hlt, (At.last h1).snoc _, hc⟩
        · exact keep2 t l fn k hp
      | _ =>
        simp only [State.setPc] at hp
        split at hp
        · simp at hp
        · exact keep2 t l fn k hp
    · intro k cfg hk
      cases he with
      | @construct t f hd hq =>
        by_cases hlt : k < m.cfgs.length
        · rw [List.getElem?_append_left hlt] at hk; exact keep3 k cfg hk
        · rw [List.getElem?_append_right (by omega)] at hk
          have hkk : k - m.cfgs.length = 0 := by
            have := (List.getElem?_eq_some_iff.1 hk).1
            simp at this; omega
          rw [hkk] at hk
          simp at hk; subst hk
          exact .inl ⟨cs.length, t, m, by simp, (At.last h1).snoc _, by omega⟩
      | @filterApply t l fn c' cfg' hq hc =>
        by_cases e : c' = k
        · subst e
          have hlt := (List.getElem?_eq_some_iff.1 hc).1
          simp [hlt] at hk; subst hk
          obtain ⟨i, j, u, s₁, a1, a2, a3, a4⟩ := keep2 _ _ _ _ hq
          exact .inr ⟨i, j, u, l, s₁, a1, a2, a3, a4⟩
        · simp [e] at hk; exact keep3 k cfg hk
      | _ => exact keep3 k cfg hk

/-- No thread is about to store an old pointer into logger `l`, and no assignment to it is under way. -/
def Quiet (s : State F H) (l : Nat) : Prop :=
  ∀ t, (∀ fn c, s.pc t ≠ .filterLoaded l fn c) ∧ (∀ c, s.pc t ≠ .filterSet l c) ∧
    (∀ r, s.pc t ≠ .assign l r) ∧ (∀ c, s.pc t ≠ .assignLoaded l c)

structure Sticks (s : State F H) (l c : Nat) : Prop where
  cell : s.cells[l]? = some c
  loaded : ∀ t fn k, s.pc t = .filterLoaded l fn k → k = c
  set : ∀ t k, s.pc t = .filterSet l k → k = c
  noAssign : ∀ t r, s.pc t ≠ .assign l r
  noStore : ∀ t k, s.pc t ≠ .assignLoaded l k

theorem Sticks.effect {s m : State F H} {l c : Nat} {x : Cmd F H} (i : Sticks s l c) (h : Effect s x m)
    (hx : ∀ t r, x ≠ .assign t l r ∨ r = l) : Sticks m l c := by
  obtain ⟨i1, i2, i3, i4, i5⟩ := i
  cases h <;> constructor <;> intros <;> (try simp only [State.setPc] at *) <;> grind

theorem sticks_run {l c : Nat} (cs : List (Cmd F H)) : ∀ {s s' : State F H}, Sticks s l c →
    s.run cs = some s' → (∀ x ∈ cs, ∀ t r, x ≠ .assign t l r) → Sticks s' l c := by
  induction cs with
  | nil => intro s s' i h _; simp [State.run] at h; subst h; exact i
  | cons x cs ih =>
    intro s s' i h hx
    simp only [State.run, Option.bind_eq_some_iff] at h
    obtain ⟨m, h1, h2⟩ := h
    obtain ⟨m', he, rfl⟩ := next_effect h1
    have j := i.effect he (fun t r => .inl (hx x (by simp) t r))
    exact ih (s := { m' with time := s.time + 1 }) ⟨j.1, j.2, j.3, j.4, j.5⟩ h2
      (fun y hy => hx y (by simp [hy]))

end Blackhole.RootConc
