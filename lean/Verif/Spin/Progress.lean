import Verif.Spin.Sim

namespace Blackhole.Spin

open RootConc (Pc)

variable {A B H : Type}

/-! ## Configurations that loggers and calls refer to exist -/

def Pc.config? {F : Type} : Pc F → Option Nat
  | .logLoaded _ _ c => some c
  | .filterLoaded _ _ c => some c
  | .filterSet _ c => some c
  | .assignLoaded _ c => some c
  | _ => none

structure Valid {F : Type} (g : RootConc.State F H) : Prop where
  cells : ∀ (l c : Nat), g.cells[l]? = some c → c < g.cfgs.length
  pcs : ∀ t c, Pc.config? (g.pc t) = some c → c < g.cfgs.length

theorem Valid.setPc {F : Type} {g : RootConc.State F H} (h : Valid g) {t : Nat} {p : Pc F}
    (hp : ∀ c, Pc.config? p = some c → c < g.cfgs.length) : Valid (g.setPc t p) := by
  refine ⟨h.cells, fun u c hc => ?_⟩
  simp only [RootConc.State.setPc] at hc
  split at hc
  · exact hp c hc
  · exact h.pcs u c hc

theorem valid_act {F : Type} {g g' : RootConc.State F H} {x : RootConc.Cmd F H} (h : Valid g) (ha : g.act x = some g') :
    Valid g' := by
  have hcall {t : Nat} {p : Pc F} (hp : Pc.config? p = none) (hc : g.call t p = some g') : Valid g' := by
    obtain ⟨-, rfl⟩ := RootConc.call_some hc
    exact h.setPc (by simp [hp])
  cases x with
  | construct t f hs =>
    simp only [RootConc.State.act] at ha
    split at ha
    · cases ha
      refine ⟨fun l c hc => ?_, fun u c hc => ?_⟩
      · simp only [List.length_append, List.length_singleton]
        rw [List.getElem?_append] at hc
        split at hc
        · have := h.cells l c hc; omega
        · next hl =>
          cases hj : l - g.cells.length with
          | zero => rw [hj] at hc; simp at hc; omega
          | succ j => rw [hj] at hc; simp at hc
      · have := h.pcs u c hc
        simp only [List.length_append, List.length_singleton]
        omega
    · cases ha
  | log t l => exact hcall rfl ha
  | filter t l fn => exact hcall rfl ha
  | move t l => exact hcall rfl ha
  | assign t d r =>
    simp only [RootConc.State.act] at ha
    split at ha
    · cases ha; exact h
    · exact hcall rfl ha
  | step t =>
    have set (g1 : RootConc.State F H) (h1 : Valid g1) (l c : Nat) (hc : c < g1.cfgs.length) :
        Valid { g1 with cells := g1.cells.set l c } := by
      refine ⟨fun i v hv => ?_, h1.pcs⟩
      simp only [List.getElem?_set] at hv
      split at hv
      · split at hv
        · cases hv; exact hc
        · cases hv
      · exact h1.cells i v hv
    simp only [RootConc.State.act, RootConc.State.advance] at ha
    split at ha
    · cases ha
    · split at ha
      · next c hc => cases ha; exact h.setPc (by rintro _ ⟨⟩; exact h.cells _ _ hc)
      · cases ha
    · split at ha
      · cases ha
        exact ⟨h.cells, (h.setPc (p := .idle) (by rintro _ ⟨⟩)).pcs⟩
      · cases ha
    · split at ha
      · next c hc => cases ha; exact h.setPc (by rintro _ ⟨⟩; exact h.cells _ _ hc)
      · cases ha
    · next l fn c hp =>
      split at ha
      · cases ha
        have hl : c < g.cfgs.length := h.pcs t c (by rw [hp]; rfl)
        have h1 := h.setPc (t := t) (p := .filterSet l c) (by rintro _ ⟨⟩; exact hl)
        refine ⟨fun i v hv => ?_, fun u v hv => ?_⟩
        · simpa using h.cells i v hv
        · simpa [RootConc.State.setPc] using h1.pcs u v hv
      · cases ha
    · next l c hp =>
      cases ha
      have hl : c < g.cfgs.length := h.pcs t c (by rw [hp]; rfl)
      exact set (g.setPc t .idle) (h.setPc (by rintro _ ⟨⟩)) l c hl
    · split at ha
      · next c hc => cases ha; exact h.setPc (by rintro _ ⟨⟩; exact h.cells _ _ hc)
      · cases ha
    · next l c hp =>
      cases ha
      have hl : c < g.cfgs.length := h.pcs t c (by rw [hp]; rfl)
      exact set (g.setPc t .idle) (h.setPc (by rintro _ ⟨⟩)) l c hl
    · split at ha
      · next c hc =>
        cases ha
        refine ⟨fun i v hv => ?_, (h.setPc (p := .idle) (by rintro _ ⟨⟩)).pcs⟩
        simp only [RootConc.State.setPc] at hv ⊢
        rw [List.getElem?_append] at hv
        split at hv
        · exact h.cells i v hv
        · next hl =>
          cases hj : i - g.cells.length with
          | zero => rw [hj] at hv; simp at hv; subst hv; exact h.cells _ _ hc
          | succ j => rw [hj] at hv; simp at hv
      · cases ha

theorem valid_run {F : Type} {cs : List (RootConc.Cmd F H)} : ∀ {g g' : RootConc.State F H}, Valid g →
    g.run cs = some g' → Valid g' := by
  induction cs with
  | nil => intro g g' h hr; cases hr; exact h
  | cons c cs ih =>
    intro g g' h hr
    simp only [RootConc.State.run, Option.bind_eq_some_iff] at hr
    obtain ⟨m, h1, h2⟩ := hr
    obtain ⟨m', h3, rfl⟩ := RootConc.next_eq h1
    have := valid_act h h3
    exact ih (g := { m' with time := m'.time + 1 }) ⟨this.cells, this.pcs⟩ h2

/-- What is true of every reachable state. -/
def Good (s : State A B H) : Prop := ∃ g, R s g ∧ Valid g

theorem good_run {cs : List (RootConc.Cmd (A × B) H)} {s : State A B H} (h : State.init.run cs = some s) : Good s := by
  obtain ⟨cs', g, -, h2, h3⟩ := reach h
  refine ⟨g, h3, valid_run ?_ h2⟩
  exact ⟨fun l c hc => by simp [RootConc.State.init] at hc, fun t c hc => by simp [RootConc.State.init, Pc.config?] at hc⟩

theorem Good.act {s s' : State A B H} {c : RootConc.Cmd (A × B) H} (h : Good s) (ha : s.act c = some s') : Good s' := by
  obtain ⟨g, h1, h2⟩ := h
  rcases act_sim h1 ha with ⟨h3, -⟩ | ⟨g', h3, h4⟩
  · exact ⟨g, h3, h2⟩
  · exact ⟨g', h4, valid_act h2 h3⟩

/-! ## Work that is left -/

def Pc.rank {F : Type} : Pc F → Nat
  | .idle => 0
  | .filterSet _ _ => 1
  | .assignLoaded _ _ => 1
  | .move _ => 1
  | .logLoaded _ _ _ => 1
  | .filterLoaded _ _ _ => 2
  | .log _ _ => 2
  | .assign _ _ => 2
  | .filter _ _ => 3

def Stage.rank : Stage A B → Nat
  | .outside => 6
  | .locked => 5
  | .half _ => 4
  | .halfF _ => 4
  | .full _ _ => 3
  | .fullF _ _ => 3
  | .ready _ _ _ => 2
  | .ending _ => 7

/-- The steps a thread has to take, at most. -/
def work : Thread A B → Nat
  | ⟨.idle, .outside⟩ => 0
  | ⟨p, st⟩ => 10 * Pc.rank p + st.rank

theorem work_le (th : Thread A B) : work th ≤ 10 * Pc.rank th.pc + th.stage.rank := by
  unfold work; split <;> simp

theorem work_eq {th : Thread A B} (h : ¬ (th.pc = .idle ∧ th.stage = .outside)) :
    work th = 10 * Pc.rank th.pc + th.stage.rank := by
  unfold work
  split
  · exact absurd ⟨rfl, rfl⟩ h
  · rfl

/-- The lock that thread `t` is at, if it exists and is not someone else's. -/
def Free (s : State A B H) (t : Nat) : Prop :=
  match access (s.thr t).pc with
  | .none => True
  | .load l | .store l _ => ∃ x : Cell, s.cells[l]? = some x ∧ (x.lock = none ∨ x.lock = some t)
  | .read c | .write c _ => ∃ x : Cfg A B H, s.cfgs[c]? = some x ∧ (x.lock = none ∨ x.lock = some t)

/-- One step of thread `t` changes no other thread, keeps its calls' loggers and takes no logger away. -/
structure Advances (s s' : State A B H) (t : Nat) : Prop where
  others : ∀ u, u ≠ t → s'.thr u = s.thr u
  less : work (s'.thr t) < work (s.thr t)
  loggers : ∀ l ∈ loggersOf (s'.thr t).pc, l ∈ loggersOf (s.thr t).pc
  grows : s.cells.length ≤ s'.cells.length
  pc : (s.thr t).stage.inside = true → (s'.thr t).stage.inside = true → (s'.thr t).pc = (s.thr t).pc

theorem recount_thr (s : State A B H) (c : Nat) (f : Nat → Nat) : (s.recount c f).thr = s.thr := by
  unfold State.recount; split <;> rfl

theorem recount_cells (s : State A B H) (c : Nat) (f : Nat → Nat) : (s.recount c f).cells = s.cells := by
  unfold State.recount; split <;> rfl

theorem inside_ne_ending {st : Stage A B} (h : st.inside = true) : ∀ c, st ≠ .ending c := by
  rintro c rfl; cases h

/-- A thread whose lock is not someone else's gets on. -/
theorem progress {s : State A B H} (hG : Good s) {t : Nat} (hn : ¬ Idle s t) (hf : Free s t) :
    ∃ s', s.advance t = some s' ∧ Advances s s' t := by
  obtain ⟨g, hR, -⟩ := hG
  by_cases hend : ∃ c, (s.thr t).stage = .ending c
  · obtain ⟨c, hc⟩ := hend
    refine ⟨_, by simp only [State.advance, hc]; rfl, ?_, ?_, ?_, ?_, ?_⟩
    · intro u hu; rw [goTo_other _ _ hu, recount_thr]
    · have := work_eq (th := s.thr t) (by simp [hc])
      rw [goTo_same, this, hc]
      simp [work, Stage.rank]
    · rw [goTo_same]; intro l hl; simp [loggersOf] at hl
    · simp [State.goTo, recount_cells]
    · intro h1; rw [hc] at h1; cases h1
  · have hadv : s.advance t = match access (s.thr t).pc with
      | .none => none
      | .load l => s.pointerStep t l none
      | .store l c => s.pointerStep t l (some c)
      | .read c => s.filterStep t c none
      | .write c f => s.filterStep t c (some f) := by
      unfold State.advance
      split
      · next c hc => exact absurd ⟨c, hc⟩ hend
      · rfl
    have hne : ¬ ((s.thr t).pc = .idle ∧ (s.thr t).stage = .outside) := by
      rintro ⟨h1, h2⟩
      exact hn (by unfold Idle; rw [← h1, ← h2])
    have hin : (s.thr t).pc = .idle → False := by
      intro hi
      have : (s.thr t).stage.inside = true := by
        cases hst : (s.thr t).stage with
        | outside => exact absurd ⟨hi, hst⟩ hne
        | ending c => exact absurd ⟨c, hst⟩ hend
        | _ => rfl
      have := (hR.held t).2 this
      rw [hi] at this
      exact this
    -- a step within a section
    have stay (s1 : State A B H) (st : Stage A B) (hth : s1.thr = s.thr) (hce : s1.cells.length = s.cells.length)
        (hlt : st.rank < (s.thr t).stage.rank) : Advances s (s1.goTo t ⟨(s.thr t).pc, st⟩) t := by
      refine ⟨?_, ?_, ?_, ?_, ?_⟩
      · intro u hu; rw [goTo_other _ _ hu, hth]
      · rw [goTo_same, work_eq hne]
        have := work_le (⟨(s.thr t).pc, st⟩ : Thread A B)
        simp only at this
        omega
      · rw [goTo_same]; intro l hl; exact hl
      · simp [State.goTo, hce]
      · intro _ _; rw [goTo_same]
    -- a step out of a section
    have leave (s1 : State A B H) (th : Thread A B) (hth : s1.thr = s.thr) (hce : s.cells.length ≤ s1.cells.length)
        (hst : th.stage.inside = false) (hr : Pc.rank th.pc < Pc.rank (s.thr t).pc)
        (hl : ∀ l ∈ loggersOf th.pc, l ∈ loggersOf (s.thr t).pc) : Advances s (s1.goTo t th) t := by
      refine ⟨?_, ?_, ?_, ?_, ?_⟩
      · intro u hu; rw [goTo_other _ _ hu, hth]
      · rw [goTo_same, work_eq hne]
        have := work_le th
        have : th.stage.rank ≤ 7 := by cases th.stage <;> simp [Stage.rank]
        omega
      · rw [goTo_same]; exact hl
      · simpa [State.goTo] using hce
      · intro _ h2; rw [goTo_same, hst] at h2; cases h2
    have hheld := (hR.held t).2
    unfold Free at hf
    cases ha : access (s.thr t).pc with
    | none => cases hp : (s.thr t).pc <;> simp [hp, access] at ha; exact absurd hp hin
    | load l =>
      rw [ha] at hf hheld
      simp only at hf
      obtain ⟨x, hx, hl⟩ := hf
      simp only [hadv, ha]
      unfold State.pointerStep
      simp only [hx]
      cases hst : (s.thr t).stage with
      | outside =>
        have : x.lock = none := by
          rcases hl with h1 | h1
          · exact h1
          · have := (hR.owner_cell hx h1).2; rw [hst] at this; cases this
        simp only [this]
        exact ⟨_, rfl, stay _ _ rfl (by simp [State.setCell]) (by rw [hst]; simp [Stage.rank])⟩
      | locked => exact ⟨_, rfl, stay _ _ rfl (by simp [State.setCell]) (by rw [hst]; simp [Stage.rank])⟩
      | half o => exact ⟨_, rfl, stay _ _ rfl (by simp [State.setCell]) (by rw [hst]; simp [Stage.rank])⟩
      | full o k => exact ⟨_, rfl, stay _ _ (recount_thr ..) (by rw [recount_cells]) (by rw [hst]; simp [Stage.rank])⟩
      | ready o k d =>
        cases hp : (s.thr t).pc with
        | log l' b => exact ⟨_, rfl, leave _ _ rfl (by simp [State.setCell]) rfl (by rw [hp]; simp [Pc.rank]) (by simp [loggersOf])⟩
        | filter l' fn => exact ⟨_, rfl, leave _ _ rfl (by simp [State.setCell]) rfl (by rw [hp]; simp [Pc.rank]) (by simp [loggersOf, hp])⟩
        | assign d r => exact ⟨_, rfl, leave _ _ rfl (by simp [State.setCell]) rfl (by rw [hp]; simp [Pc.rank]) (by simp [loggersOf, hp])⟩
        | move r =>
          exact ⟨_, rfl, leave { s.setCell l { x with lock := none } with
            cells := (s.setCell l { x with lock := none }).cells ++ [⟨o, k, none⟩] } ⟨.idle, .outside⟩ rfl
            (by simp [State.setCell]) rfl (by rw [hp]; simp [Pc.rank]) (by simp [loggersOf])⟩
        | _ => rw [hp] at ha; simp [access] at ha
      | ending c => exact absurd ⟨c, hst⟩ hend
      | halfF a =>
        obtain ⟨v, hv⟩ := getElem?_some_of_len hR.cellsLen hx
        obtain ⟨y, h1, h2⟩ := hheld (by rw [hst]; rfl)
        rw [hx] at h1; cases h1
        have := hR.cells l x v hx hv
        simp [CellOk, h2, ha, hst, PointerOk] at this
      | fullF a b =>
        obtain ⟨v, hv⟩ := getElem?_some_of_len hR.cellsLen hx
        obtain ⟨y, h1, h2⟩ := hheld (by rw [hst]; rfl)
        rw [hx] at h1; cases h1
        have := hR.cells l x v hx hv
        simp [CellOk, h2, ha, hst, PointerOk] at this
    | store l c =>
      rw [ha] at hf hheld
      simp only at hf
      obtain ⟨x, hx, hl⟩ := hf
      simp only [hadv, ha]
      unfold State.pointerStep
      simp only [hx]
      cases hst : (s.thr t).stage with
      | outside =>
        have : x.lock = none := by
          rcases hl with h1 | h1
          · exact h1
          · have := (hR.owner_cell hx h1).2; rw [hst] at this; cases this
        simp only [this]
        exact ⟨_, rfl, stay _ _ rfl (by simp [State.setCell]) (by rw [hst]; simp [Stage.rank])⟩
      | locked => exact ⟨_, rfl, stay _ _ rfl (by simp [State.setCell]) (by rw [hst]; simp [Stage.rank])⟩
      | half o => exact ⟨_, rfl, stay _ _ rfl (by simp [State.setCell]) (by rw [hst]; simp [Stage.rank])⟩
      | full o k => exact ⟨_, rfl, stay _ _ (recount_thr ..) (by rw [recount_cells]) (by rw [hst]; simp [Stage.rank])⟩
      | ready o k d =>
        cases hp : (s.thr t).pc with
        | filterSet l' c => exact ⟨_, rfl, leave _ _ rfl (by simp [State.setCell]) rfl (by rw [hp]; simp [Pc.rank]) (by simp [loggersOf])⟩
        | assignLoaded l' c => exact ⟨_, rfl, leave _ _ rfl (by simp [State.setCell]) rfl (by rw [hp]; simp [Pc.rank]) (by simp [loggersOf])⟩
        | _ => rw [hp] at ha; simp [access] at ha
      | ending c => exact absurd ⟨c, hst⟩ hend
      | halfF a =>
        obtain ⟨v, hv⟩ := getElem?_some_of_len hR.cellsLen hx
        obtain ⟨y, h1, h2⟩ := hheld (by rw [hst]; rfl)
        rw [hx] at h1; cases h1
        have := hR.cells l x v hx hv
        simp [CellOk, h2, ha, hst, PointerOk] at this
      | fullF a b =>
        obtain ⟨v, hv⟩ := getElem?_some_of_len hR.cellsLen hx
        obtain ⟨y, h1, h2⟩ := hheld (by rw [hst]; rfl)
        rw [hx] at h1; cases h1
        have := hR.cells l x v hx hv
        simp [CellOk, h2, ha, hst, PointerOk] at this
    | read c =>
      rw [ha] at hf hheld
      simp only at hf
      obtain ⟨x, hx, hl⟩ := hf
      simp only [hadv, ha]
      unfold State.filterStep
      simp only [hx]
      have bad (h : (s.thr t).stage.inside = true) (h1 : ¬ ∃ st : Stage A B, (s.thr t).stage = st ∧ (st = .locked ∨ (∃ a, st = .halfF a) ∨ ∃ a b, st = .fullF a b)) : False := by
        obtain ⟨v, hv⟩ := getElem?_some_of_len hR.cfgsLen hx
        obtain ⟨y, h1', h2⟩ := hheld h
        rw [hx] at h1'; cases h1'
        have := (hR.cfgs c x v hx hv).2
        unfold CfgOk at this
        rw [h2] at this
        simp only [ha] at this
        unfold FilterOk at this
        split at this <;> first | exact this | (rename_i hh; exact h1 ⟨_, hh, by simp⟩) | (rename_i hh; exact h1 ⟨_, rfl, by simp [hh]⟩)
      cases hst : (s.thr t).stage with
      | outside =>
        have : x.lock = none := by
          rcases hl with h1 | h1
          · exact h1
          · have := (hR.owner_cfg hx h1).2; rw [hst] at this; cases this
        simp only [this]
        exact ⟨_, rfl, stay _ _ rfl (by simp [State.setCfg]) (by rw [hst]; simp [Stage.rank])⟩
      | locked => exact ⟨_, rfl, stay _ _ rfl (by simp [State.setCfg]) (by rw [hst]; simp [Stage.rank])⟩
      | halfF o => exact ⟨_, rfl, stay _ _ rfl (by simp [State.setCfg]) (by rw [hst]; simp [Stage.rank])⟩
      | fullF a b =>
        cases hp : (s.thr t).pc with
        | logLoaded l' b' c' =>
          exact ⟨_, rfl, leave { s.setCfg c { x with lock := none } with done := s.done ++ [⟨l', (a, b), x.handlers⟩] }
            ⟨.idle, .ending c⟩ rfl (by simp [State.setCfg]) rfl (by rw [hp]; simp [Pc.rank]) (by simp [loggersOf])⟩
        | _ => rw [hp] at ha; simp [access] at ha
      | ending c => exact absurd ⟨c, hst⟩ hend
      | half => exact (bad (by rw [hst]; rfl) (by simp [hst])).elim
      | full => exact (bad (by rw [hst]; rfl) (by simp [hst])).elim
      | ready => exact (bad (by rw [hst]; rfl) (by simp [hst])).elim
    | write c fn =>
      rw [ha] at hf hheld
      simp only at hf
      obtain ⟨x, hx, hl⟩ := hf
      simp only [hadv, ha]
      unfold State.filterStep
      simp only [hx]
      have bad (h : (s.thr t).stage.inside = true) (h1 : ¬ ∃ st : Stage A B, (s.thr t).stage = st ∧ (st = .locked ∨ (∃ a, st = .halfF a) ∨ ∃ a b, st = .fullF a b)) : False := by
        obtain ⟨v, hv⟩ := getElem?_some_of_len hR.cfgsLen hx
        obtain ⟨y, h1', h2⟩ := hheld h
        rw [hx] at h1'; cases h1'
        have := (hR.cfgs c x v hx hv).2
        unfold CfgOk at this
        rw [h2] at this
        simp only [ha] at this
        unfold FilterOk at this
        split at this <;> first | exact this | (rename_i hh; exact h1 ⟨_, hh, by simp⟩) | (rename_i hh; exact h1 ⟨_, rfl, by simp [hh]⟩)
      cases hst : (s.thr t).stage with
      | outside =>
        have : x.lock = none := by
          rcases hl with h1 | h1
          · exact h1
          · have := (hR.owner_cfg hx h1).2; rw [hst] at this; cases this
        simp only [this]
        exact ⟨_, rfl, stay _ _ rfl (by simp [State.setCfg]) (by rw [hst]; simp [Stage.rank])⟩
      | locked => exact ⟨_, rfl, stay _ _ rfl (by simp [State.setCfg]) (by rw [hst]; simp [Stage.rank])⟩
      | halfF o => exact ⟨_, rfl, stay _ _ rfl (by simp [State.setCfg]) (by rw [hst]; simp [Stage.rank])⟩
      | fullF a b =>
        cases hp : (s.thr t).pc with
        | filterLoaded l' b' c' =>
          exact ⟨_, rfl, leave _ _ rfl (by simp [State.setCfg]) rfl (by rw [hp]; simp [Pc.rank]) (by simp [loggersOf, hp])⟩
        | _ => rw [hp] at ha; simp [access] at ha
      | ending c => exact absurd ⟨c, hst⟩ hend
      | half => exact (bad (by rw [hst]; rfl) (by simp [hst])).elim
      | full => exact (bad (by rw [hst]; rfl) (by simp [hst])).elim
      | ready => exact (bad (by rw [hst]; rfl) (by simp [hst])).elim

theorem run_append (s : State A B H) (a b : List (RootConc.Cmd (A × B) H)) : s.run (a ++ b) = (s.run a).bind (·.run b) := by
  induction a generalizing s with
  | nil => rfl
  | cons c a ih =>
    simp only [List.cons_append, State.run]
    cases h : s.act c with
    | none => rfl
    | some s' => simp [ih]

/-- No two threads are in sections of one lock. -/
theorem Good.exclusive {s : State A B H} (hG : Good s) {t u : Nat} {k : Lock} (ht : Holds s t k) (hu : Holds s u k) : t = u := by
  obtain ⟨g, hR, -⟩ := hG
  have lockOf (t : Nat) (ht : Holds s t k) : match k with
      | .logger l => ∃ x : Cell, s.cells[l]? = some x ∧ x.lock = some t
      | .config c => ∃ x : Cfg A B H, s.cfgs[c]? = some x ∧ x.lock = some t := by
    have h1 := (hR.held t).2 ht.1
    have h2 := ht.2
    split at h1
    · exact h1.elim
    all_goals (next ha => rw [ha] at h2; simp only [Access.lock, Option.some.injEq] at h2; subst h2; exact h1)
  have h1 := lockOf t ht
  have h2 := lockOf u hu
  cases k with
  | logger l =>
    obtain ⟨x, a1, a2⟩ := h1
    obtain ⟨y, b1, b2⟩ := h2
    rw [a1] at b1; cases b1
    rw [a2] at b2; cases b2; rfl
  | config c =>
    obtain ⟨x, a1, a2⟩ := h1
    obtain ⟨y, b1, b2⟩ := h2
    rw [a1] at b1; cases b1
    rw [a2] at b2; cases b2; rfl

/-- Unless someone else is in a section of the lock, the lock is there to be taken. -/
theorem Good.free {s : State A B H} (hG : Good s) {t : Nat} (he : ∀ l ∈ loggersOf (s.thr t).pc, l < s.cells.length)
    (hn : ∀ u k, u ≠ t → (access (s.thr t).pc).lock = some k → ¬ Holds s u k) : Free s t := by
  obtain ⟨g, hR, hV⟩ := hG
  have cell (l : Nat) (hl : l < s.cells.length) (ha : (access (s.thr t).pc).lock = some (.logger l)) :
      ∃ x : Cell, s.cells[l]? = some x ∧ (x.lock = none ∨ x.lock = some t) := by
    refine ⟨_, List.getElem?_eq_getElem hl, ?_⟩
    cases hlock : s.cells[l].lock with
    | none => exact .inl rfl
    | some u =>
      right
      have := hR.owner_cell (List.getElem?_eq_getElem hl) hlock
      by_cases hu : u = t
      · rw [hu]
      · exact absurd ⟨this.2, this.1⟩ (hn u _ hu ha)
  have cfg (c : Nat) (hl : c < s.cfgs.length) (ha : (access (s.thr t).pc).lock = some (.config c)) :
      ∃ x : Cfg A B H, s.cfgs[c]? = some x ∧ (x.lock = none ∨ x.lock = some t) := by
    refine ⟨_, List.getElem?_eq_getElem hl, ?_⟩
    cases hlock : s.cfgs[c].lock with
    | none => exact .inl rfl
    | some u =>
      right
      have := hR.owner_cfg (List.getElem?_eq_getElem hl) hlock
      by_cases hu : u = t
      · rw [hu]
      · exact absurd ⟨this.2, this.1⟩ (hn u _ hu ha)
  have conf (c : Nat) (hc : Pc.config? (s.thr t).pc = some c) : c < s.cfgs.length := by
    rw [hR.cfgsLen]
    apply hV.pcs t c
    rw [← hc, ← hR.pc t]
    cases g.pc t <;> rfl
  unfold Free
  cases hp : (s.thr t).pc with
  | idle => trivial
  | log l b => exact cell l (he l (by simp [hp, loggersOf])) (by simp [hp, access, Access.lock])
  | filter l fn => exact cell l (he l (by simp [hp, loggersOf])) (by simp [hp, access, Access.lock])
  | filterSet l c => exact cell l (he l (by simp [hp, loggersOf])) (by simp [hp, access, Access.lock])
  | assign d r => exact cell r (he r (by simp [hp, loggersOf])) (by simp [hp, access, Access.lock])
  | assignLoaded l c => exact cell l (he l (by simp [hp, loggersOf])) (by simp [hp, access, Access.lock])
  | move l => exact cell l (he l (by simp [hp, loggersOf])) (by simp [hp, access, Access.lock])
  | logLoaded l b c => exact cfg c (conf c (by rw [hp]; rfl)) (by simp [hp, access, Access.lock])
  | filterLoaded l fn c => exact cfg c (conf c (by rw [hp]; rfl)) (by simp [hp, access, Access.lock])

/-- A thread in a section has what it needs. -/
theorem Good.free_inside {s : State A B H} (hG : Good s) {t : Nat} (hi : (s.thr t).stage.inside = true) : Free s t := by
  obtain ⟨g, hR, -⟩ := hG
  have := (hR.held t).2 hi
  unfold Free
  split at this
  · exact this.elim
  all_goals (next ha => rw [ha]; obtain ⟨x, h1, h2⟩ := this; exact ⟨x, h1, .inr h2⟩)

/-- A thread leaves its section by its own steps. -/
theorem leaves (n : Nat) : ∀ {s : State A B H} {u : Nat}, Good s → (s.thr u).stage.inside = true →
    (s.thr u).stage.rank ≤ n + 1 → ∃ m s', m ≤ n ∧ s.run (List.replicate m (.step u)) = some s' ∧
      (s'.thr u).stage.inside = false ∧ (∀ w, w ≠ u → s'.thr w = s.thr w) ∧ s.cells.length ≤ s'.cells.length ∧ Good s' := by
  induction n with
  | zero =>
    intro s u _ hi hr
    cases hst : (s.thr u).stage <;> rw [hst] at hi hr <;> simp [Stage.inside, Stage.rank] at hi hr
  | succ n ih =>
    intro s u hG hi hr
    have hn : ¬ Idle s u := by
      intro h; unfold Idle at h; rw [h] at hi; cases hi
    obtain ⟨s1, h1, h2⟩ := progress hG hn (hG.free_inside hi)
    have hG1 : Good s1 := hG.act (c := .step u) h1
    by_cases hi1 : (s1.thr u).stage.inside = true
    · have hp := h2.pc hi hi1
      have hne {th : Thread A B} (h : th.stage.inside = true) : ¬ (th.pc = .idle ∧ th.stage = .outside) := by
        rintro ⟨-, h3⟩; rw [h3] at h; cases h
      have hl := h2.less
      rw [work_eq (hne hi), work_eq (hne hi1), hp] at hl
      obtain ⟨m, s', a1, a2, a3, a4, a5, a6⟩ := ih hG1 hi1 (by omega)
      refine ⟨m + 1, s', by omega, ?_, a3, fun w hw => (a4 w hw).trans (h2.others w hw), Nat.le_trans h2.grows a5, a6⟩
      rw [List.replicate_succ]
      simp only [State.run, State.act, h1, Option.bind_some]
      exact a2
    · refine ⟨1, s1, by omega, ?_, by simpa using hi1, h2.others, h2.grows, hG1⟩
      simp [State.run, State.act, h1]

/-- Every call can end. -/
theorem ends (n : Nat) : ∀ {s : State A B H} {t : Nat}, Good s → work (s.thr t) ≤ n →
    (∀ l ∈ loggersOf (s.thr t).pc, l < s.cells.length) →
    ∃ us : List Nat, ∃ s', s.run (us.map .step) = some s' ∧ Idle s' t := by
  induction n with
  | zero =>
    intro s t _ hw _
    refine ⟨[], s, rfl, ?_⟩
    by_cases h : (s.thr t).pc = .idle ∧ (s.thr t).stage = .outside
    · unfold Idle; rw [← h.1, ← h.2]
    · rw [work_eq h] at hw
      cases hst : (s.thr t).stage <;> rw [hst] at hw <;> simp [Stage.rank] at hw
  | succ n ih =>
    intro s t hG hw he
    by_cases hn : Idle s t
    · exact ⟨[], s, rfl, hn⟩
    · have go (s : State A B H) (hG : Good s) (hw : work (s.thr t) ≤ n + 1) (hn : ¬ Idle s t)
          (he : ∀ l ∈ loggersOf (s.thr t).pc, l < s.cells.length) (hf : Free s t) :
          ∃ us : List Nat, ∃ s', s.run (us.map .step) = some s' ∧ Idle s' t := by
        obtain ⟨s1, h1, h2⟩ := progress hG hn hf
        have hless := h2.less
        obtain ⟨us, s', h3, h4⟩ := ih (hG.act (c := .step t) h1) (by omega)
          (fun l hl => Nat.lt_of_lt_of_le (he l (h2.loggers l hl)) h2.grows)
        exact ⟨t :: us, s', by simp [State.run, State.act, h1, h3], h4⟩
      by_cases hb : ∃ u k, u ≠ t ∧ (access (s.thr t).pc).lock = some k ∧ Holds s u k
      · obtain ⟨u, k, hu, hk, hh⟩ := hb
        obtain ⟨m, s1, -, h2, h3, h4, h5, h6⟩ := leaves 5 hG hh.1
          (by have := hh.1; cases hst : (s.thr u).stage <;> simp [Stage.rank, hst, Stage.inside] at this ⊢)
        have ht : s1.thr t = s.thr t := h4 t (Ne.symm hu)
        obtain ⟨us, s', h7, h8⟩ := go s1 h6 (by rw [ht]; exact hw) (by unfold Idle; rw [ht]; exact hn)
          (by rw [ht]; exact fun l hl => Nat.lt_of_lt_of_le (he l hl) h5) (h6.free (by rw [ht]; exact fun l hl => Nat.lt_of_lt_of_le (he l hl) h5) (by
            intro w k' hw' hk' hh'
            rw [ht, hk] at hk'; cases hk'
            by_cases hwu : w = u
            · subst hwu; have := hh'.1; rw [h3] at this; cases this
            · have : Holds s w k := by
                have e := h4 w hwu
                unfold Holds at hh' ⊢
                rw [e] at hh'; exact hh'
              exact hwu (hG.exclusive this hh)))
        refine ⟨List.replicate m u ++ us, s', ?_, h8⟩
        rw [List.map_append, run_append, List.map_replicate, h2]
        exact h7
      · refine go s hG hw hn he (hG.free he ?_)
        intro u k hu hk hh
        exact hb ⟨u, k, hu, hk, hh⟩

/-- A call returns by its own steps if nobody else is in a section. -/
theorem ends_alone (n : Nat) : ∀ {s : State A B H} {t : Nat}, Good s → work (s.thr t) ≤ n →
    (∀ l ∈ loggersOf (s.thr t).pc, l < s.cells.length) → (∀ u k, u ≠ t → ¬ Holds s u k) →
    ∃ m s', s.run (List.replicate m (.step t)) = some s' ∧ Idle s' t := by
  induction n with
  | zero =>
    intro s t _ hw _ _
    refine ⟨0, s, rfl, ?_⟩
    by_cases h : (s.thr t).pc = .idle ∧ (s.thr t).stage = .outside
    · unfold Idle; rw [← h.1, ← h.2]
    · rw [work_eq h] at hw
      cases hst : (s.thr t).stage <;> rw [hst] at hw <;> simp [Stage.rank] at hw
  | succ n ih =>
    intro s t hG hw he hf
    by_cases hn : Idle s t
    · exact ⟨0, s, rfl, hn⟩
    · obtain ⟨s1, h1, h2⟩ := progress hG hn (hG.free he fun u k hu _ => hf u k hu)
      have hless := h2.less
      obtain ⟨m, s', h3, h4⟩ := ih (hG.act (c := .step t) h1) (by omega)
        (fun l hl => Nat.lt_of_lt_of_le (he l (h2.loggers l hl)) h2.grows)
        (fun u k hu hk => hf u k hu (by unfold Holds at hk ⊢; rw [h2.others u hu] at hk; exact hk))
      refine ⟨m + 1, s', ?_, h4⟩
      rw [List.replicate_succ]
      simp only [State.run, State.act, h1, Option.bind_some]
      exact h3

/-- Only commands of thread `u` change thread `u`. -/
def _root_.Blackhole.RootConc.Cmd.thread {F : Type} : RootConc.Cmd F H → Nat
  | .construct t _ _ => t
  | .log t _ => t
  | .filter t _ _ => t
  | .assign t _ _ => t
  | .move t _ => t
  | .step t => t

theorem act_others {s s' : State A B H} {c : RootConc.Cmd (A × B) H} (hG : Good s) (h : s.act c = some s') {u : Nat}
    (hu : u ≠ c.thread) : s'.thr u = s.thr u := by
  have hcall {t : Nat} {p : Pc (A × B)} (hu : u ≠ t) (h : s.call t p = some s') : s'.thr u = s.thr u := by
    obtain ⟨-, rfl⟩ := call_some h
    exact goTo_other _ _ hu
  cases c with
  | construct t f hs =>
    simp only [State.act] at h
    split at h
    · cases h; rfl
    · cases h
  | log t l => exact hcall hu h
  | filter t l fn => exact hcall hu h
  | move t l => exact hcall hu h
  | assign t d r =>
    simp only [State.act] at h
    split at h
    · cases h; rfl
    · exact hcall hu h
  | step t =>
    change u ≠ t at hu
    simp only [State.act] at h
    by_cases hn : Idle s t
    · simp [State.advance, show s.thr t = _ from hn, access] at h
    · by_cases hf : Free s t
      · obtain ⟨s1, h1, h2⟩ := progress hG hn hf
        rw [h] at h1; cases h1
        exact h2.others u hu
      · -- spins
        unfold State.advance at h
        split at h
        · cases h; rw [goTo_other _ _ hu, recount_thr]
        · have hout : (s.thr t).stage = .outside ∨ ∃ c, (s.thr t).stage = .ending c := by
            cases hst : (s.thr t).stage with
            | outside => exact .inl rfl
            | ending c => exact .inr ⟨c, rfl⟩
            | _ => exact absurd (hG.free_inside (by rw [hst]; rfl)) hf
          rcases hout with hst | ⟨c, hst⟩
          · unfold Free at hf
            split at h
            · cases h
            all_goals
              next ha =>
              rw [ha] at hf
              first
              | unfold State.pointerStep at h
                split at h
                · cases h
                · next x hx =>
                  simp only [hst] at h
                  split at h
                  · cases h; rfl
                  · next hl => exact absurd ⟨x, hx, .inl hl⟩ hf
              | unfold State.filterStep at h
                split at h
                · cases h
                · next x hx =>
                  simp only [hst] at h
                  split at h
                  · cases h; rfl
                  · next hl => exact absurd ⟨x, hx, .inl hl⟩ hf
          · next hx => exact absurd hst (hx c)

end Blackhole.Spin
