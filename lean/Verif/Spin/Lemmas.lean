import Verif.Spin.Spec
import Verif.RootConc.Lemmas

namespace Blackhole.Spin

open RootConc (Pc)

variable {A B H : Type}

/-- A program counter without the time of the call. -/
def strip {F : Type} : Pc F → Pc F
  | .log l _ => .log l 0
  | .logLoaded l _ c => .logLoaded l 0 c
  | p => p

def toDone (d : RootConc.Done (A × B) H) : Done A B H := ⟨d.logger, d.filter, d.handlers⟩

/-- A pointer whose lock is held by a thread at this stage; `v` is the pointer that everybody else knows. -/
def PointerOk (l v : Nat) (x : Cell) : Access A B → Stage A B → Prop
  | .load l', .locked => l' = l ∧ x.obj = v ∧ x.ctl = v
  | .load l', .half o => l' = l ∧ x.obj = v ∧ x.ctl = v ∧ o = v
  | .load l', .full o k => l' = l ∧ x.obj = v ∧ x.ctl = v ∧ o = v ∧ k = v
  | .load l', .ready o k _ => l' = l ∧ x.obj = v ∧ x.ctl = v ∧ o = v ∧ k = v
  | .store l' _, .locked => l' = l ∧ x.obj = v ∧ x.ctl = v
  | .store l' c, .half o => l' = l ∧ x.obj = c ∧ x.ctl = v ∧ o = v
  | .store l' c, .full o k => l' = l ∧ x.obj = c ∧ x.ctl = c ∧ o = v ∧ k = v
  | .store l' c, .ready o k _ => l' = l ∧ x.obj = c ∧ x.ctl = c ∧ o = v ∧ k = v
  | _, _ => False

def CellOk (thr : Nat → Thread A B) (l : Nat) (x : Cell) (v : Nat) : Prop :=
  match x.lock with
  | none => x.obj = v ∧ x.ctl = v
  | some t => PointerOk l v x (access (thr t).pc) (thr t).stage

def FilterOk (c : Nat) (v : A × B) (x : Cfg A B H) : Access A B → Stage A B → Prop
  | .read c', .locked => c' = c ∧ x.fa = v.1 ∧ x.fb = v.2
  | .read c', .halfF a => c' = c ∧ x.fa = v.1 ∧ x.fb = v.2 ∧ a = v.1
  | .read c', .fullF a b => c' = c ∧ x.fa = v.1 ∧ x.fb = v.2 ∧ a = v.1 ∧ b = v.2
  | .write c' _, .locked => c' = c ∧ x.fa = v.1 ∧ x.fb = v.2
  | .write c' f, .halfF _ => c' = c ∧ x.fa = f.1 ∧ x.fb = v.2
  | .write c' f, .fullF _ _ => c' = c ∧ x.fa = f.1 ∧ x.fb = f.2
  | _, _ => False

def CfgOk (thr : Nat → Thread A B) (c : Nat) (x : Cfg A B H) (v : A × B) : Prop :=
  match x.lock with
  | none => x.fa = v.1 ∧ x.fb = v.2
  | some t => FilterOk c v x (access (thr t).pc) (thr t).stage

/-- The thread has the lock of the section it is in. -/
def Held (s : State A B H) (t : Nat) : Prop :=
  (∀ c, (s.thr t).stage = .ending c → (s.thr t).pc = .idle) ∧
  ((s.thr t).stage.inside = true →
    match access (s.thr t).pc with
    | .none => False
    | .load l | .store l _ => ∃ x : Cell, s.cells[l]? = some x ∧ x.lock = some t
    | .read c | .write c _ => ∃ x : Cfg A B H, s.cfgs[c]? = some x ∧ x.lock = some t)

/-- Fine state `f` looks like coarse state `g`. -/
structure R (f : State A B H) (g : RootConc.State (A × B) H) : Prop where
  pc : ∀ t, strip (g.pc t) = (f.thr t).pc
  cellsLen : f.cells.length = g.cells.length
  cells : ∀ (l : Nat) (x : Cell) (v : Nat), f.cells[l]? = some x → g.cells[l]? = some v → CellOk f.thr l x v
  cfgsLen : f.cfgs.length = g.cfgs.length
  cfgs : ∀ (c : Nat) (x : Cfg A B H) (y : RootConc.Cfg (A × B) H), f.cfgs[c]? = some x → g.cfgs[c]? = some y →
    x.handlers = y.handlers ∧ CfgOk f.thr c x y.filter
  held : ∀ t, Held f t
  done : g.done.map toDone = f.done

theorem PointerOk.at {l v : Nat} {x : Cell} {a : Access A B} {st : Stage A B} (h : PointerOk l v x a st) :
    a.lock = some (.logger l) ∧ st.inside = true := by
  unfold PointerOk at h
  split at h <;> first | exact h.elim | simp [Access.lock, Stage.inside, h.1]

theorem FilterOk.at {c : Nat} {v : A × B} {x : Cfg A B H} {a : Access A B} {st : Stage A B} (h : FilterOk c v x a st) :
    a.lock = some (.config c) ∧ st.inside = true := by
  unfold FilterOk at h
  split at h <;> first | exact h.elim | simp [Access.lock, Stage.inside, h.1]

theorem getElem?_some_of_len {α β : Type} {a : List α} {b : List β} (h : a.length = b.length) {i : Nat} {x : α}
    (hx : a[i]? = some x) : ∃ y, b[i]? = some y := by
  have := (List.getElem?_eq_some_iff.1 hx).1
  exact ⟨_, List.getElem?_eq_getElem (by omega)⟩

/-- A lock that the table shows as taken by `t` is the one `t` is in. -/
theorem R.owner_cell {f : State A B H} {g : RootConc.State (A × B) H} (hR : R f g) {t l : Nat} {x : Cell}
    (hx : f.cells[l]? = some x) (ht : x.lock = some t) :
    (access (f.thr t).pc).lock = some (.logger l) ∧ (f.thr t).stage.inside = true := by
  obtain ⟨v, hv⟩ := getElem?_some_of_len hR.cellsLen hx
  have := hR.cells l x v hx hv
  unfold CellOk at this
  rw [ht] at this
  exact this.at

theorem R.owner_cfg {f : State A B H} {g : RootConc.State (A × B) H} (hR : R f g) {t c : Nat} {x : Cfg A B H}
    (hx : f.cfgs[c]? = some x) (ht : x.lock = some t) :
    (access (f.thr t).pc).lock = some (.config c) ∧ (f.thr t).stage.inside = true := by
  obtain ⟨v, hv⟩ := getElem?_some_of_len hR.cfgsLen hx
  have := (hR.cfgs c x v hx hv).2
  unfold CfgOk at this
  rw [ht] at this
  exact this.at

theorem CellOk.frame {thr thr' : Nat → Thread A B} {l v : Nat} {x : Cell} (h : CellOk thr l x v)
    (he : ∀ u, x.lock = some u → thr' u = thr u) : CellOk thr' l x v := by
  unfold CellOk at h ⊢
  split at h
  · assumption
  · next u hu => rw [he u hu]; exact h

theorem CfgOk.frame {thr thr' : Nat → Thread A B} {c : Nat} {v : A × B} {x : Cfg A B H} (h : CfgOk thr c x v)
    (he : ∀ u, x.lock = some u → thr' u = thr u) : CfgOk thr' c x v := by
  unfold CfgOk at h ⊢
  split at h
  · assumption
  · next u hu => rw [he u hu]; exact h

theorem Held.frame {s s' : State A B H} {u : Nat} (h : Held s u) (ht : s'.thr u = s.thr u)
    (hc : ∀ (l : Nat) (x : Cell), s.cells[l]? = some x → x.lock = some u → ∃ x' : Cell, s'.cells[l]? = some x' ∧ x'.lock = some u)
    (hf : ∀ (c : Nat) (x : Cfg A B H), s.cfgs[c]? = some x → x.lock = some u →
      ∃ x' : Cfg A B H, s'.cfgs[c]? = some x' ∧ x'.lock = some u) : Held s' u := by
  refine ⟨?_, ?_⟩
  · rw [ht]; exact h.1
  · rw [ht]
    intro hi
    have := h.2 hi
    split at this
    · exact this.elim
    · next l _ => obtain ⟨x, h1, h2⟩ := this; exact hc l x h1 h2
    · next l _ _ => obtain ⟨x, h1, h2⟩ := this; exact hc l x h1 h2
    · next l _ => obtain ⟨x, h1, h2⟩ := this; exact hf l x h1 h2
    · next l _ _ => obtain ⟨x, h1, h2⟩ := this; exact hf l x h1 h2

theorem goTo_same (s : State A B H) (t : Nat) (p : Thread A B) : (s.goTo t p).thr t = p := by simp [State.goTo]

theorem goTo_other (s : State A B H) {t u : Nat} (p : Thread A B) (h : u ≠ t) : (s.goTo t p).thr u = s.thr u := by
  simp [State.goTo, h]

/-- A step of thread `t` on logger `l`, whose lock it has or takes. -/
theorem cell_step {f : State A B H} {g g' : RootConc.State (A × B) H} (hR : R f g) {t l : Nat} {x x' : Cell}
    {th : Thread A B} {v' : Nat} (hx : f.cells[l]? = some x)
    (hown : x.lock = some t ∨ x.lock = none ∧ (f.thr t).stage = .outside)
    (hpc : ∀ u, strip (g'.pc u) = if u = t then th.pc else (f.thr u).pc)
    (hlen : g'.cells.length = g.cells.length)
    (hcl : ∀ i : Nat, i ≠ l → g'.cells[i]? = g.cells[i]?) (hv : g'.cells[l]? = some v')
    (hcf : g'.cfgs = g.cfgs) (hd : g'.done = g.done)
    (hok : CellOk ((f.setCell l x').goTo t th).thr l x' v')
    (hheld : Held ((f.setCell l x').goTo t th) t) : R ((f.setCell l x').goTo t th) g' := by
  have hl := (List.getElem?_eq_some_iff.1 hx).1
  have nocell (i : Nat) (hi : i ≠ l) (y : Cell) (hy : f.cells[i]? = some y) (u : Nat) (hu : y.lock = some u) : u ≠ t := by
    rintro rfl
    have h1 := hR.owner_cell hy hu
    rcases hown with h2 | ⟨-, h2⟩
    · have h3 := hR.owner_cell hx h2
      rw [h3.1] at h1
      simp only [Option.some.injEq, Lock.logger.injEq] at h1
      exact hi h1.1.symm
    · rw [h2] at h1; exact absurd h1.2 (by simp [Stage.inside])
  have nocfg (i : Nat) (y : Cfg A B H) (hy : f.cfgs[i]? = some y) (u : Nat) (hu : y.lock = some u) : u ≠ t := by
    rintro rfl
    have h1 := hR.owner_cfg hy hu
    rcases hown with h2 | ⟨-, h2⟩
    · have h3 := hR.owner_cell hx h2
      rw [h3.1] at h1
      simp at h1
    · rw [h2] at h1; exact absurd h1.2 (by simp [Stage.inside])
  refine ⟨?_, ?_, ?_, ?_, ?_, ?_, ?_⟩
  · intro u
    rw [hpc]
    by_cases h : u = t
    · subst h; rw [goTo_same, if_pos rfl]
    · rw [goTo_other _ _ h, if_neg h]; rfl
  · simpa [State.goTo, State.setCell, hlen] using hR.cellsLen
  · intro i y w hy hw
    by_cases hi : i = l
    · subst hi
      rw [hv] at hw; cases hw
      simp only [State.goTo, State.setCell, List.getElem?_set_self hl] at hy
      cases hy
      exact hok
    · simp only [State.goTo, State.setCell, List.getElem?_set_ne (Ne.symm hi)] at hy
      rw [hcl i hi] at hw
      exact (hR.cells i y w hy hw).frame fun u hu => goTo_other _ _ (nocell i hi y hy u hu)
  · rw [hcf]; exact hR.cfgsLen
  · intro i y w hy hw
    rw [hcf] at hw
    have := hR.cfgs i y w hy hw
    exact ⟨this.1, this.2.frame fun u hu => goTo_other _ _ (nocfg i y hy u hu)⟩
  · intro u
    by_cases h : u = t
    · subst h; exact hheld
    · refine (hR.held u).frame (goTo_other _ _ h) ?_ ?_
      · intro i y hy hu
        have hi : i ≠ l := by
          rintro rfl
          rw [hx] at hy; cases hy
          rcases hown with h2 | ⟨h2, -⟩
          · rw [h2] at hu; cases hu; exact h rfl
          · rw [h2] at hu; cases hu
        exact ⟨y, by simpa [State.goTo, State.setCell, List.getElem?_set_ne (Ne.symm hi)] using hy, hu⟩
      · intro i y hy hu
        exact ⟨y, hy, hu⟩
  · rw [hd]; exact hR.done

/-- A step of thread `t` on configuration `c`, whose lock it has or takes. -/
theorem cfg_step {f : State A B H} {g g' : RootConc.State (A × B) H} (hR : R f g) {t c : Nat} {x x' : Cfg A B H}
    {th : Thread A B} {v' : RootConc.Cfg (A × B) H} (hx : f.cfgs[c]? = some x)
    (hown : x.lock = some t ∨ x.lock = none ∧ (f.thr t).stage = .outside)
    (hpc : ∀ u, strip (g'.pc u) = if u = t then th.pc else (f.thr u).pc)
    (hlen : g'.cfgs.length = g.cfgs.length)
    (hcl : ∀ i : Nat, i ≠ c → g'.cfgs[i]? = g.cfgs[i]?) (hv : g'.cfgs[c]? = some v')
    (hcf : g'.cells = g.cells) {more : List (RootConc.Done (A × B) H)} (hd : g'.done = g.done ++ more)
    (hh : x'.handlers = v'.handlers)
    (hok : CfgOk ((f.setCfg c x').goTo t th).thr c x' v'.filter)
    (hheld : Held ((f.setCfg c x').goTo t th) t) :
    R { (f.setCfg c x').goTo t th with done := f.done ++ more.map toDone } g' := by
  have hl := (List.getElem?_eq_some_iff.1 hx).1
  have nocfg (i : Nat) (hi : i ≠ c) (y : Cfg A B H) (hy : f.cfgs[i]? = some y) (u : Nat) (hu : y.lock = some u) : u ≠ t := by
    rintro rfl
    have h1 := hR.owner_cfg hy hu
    rcases hown with h2 | ⟨-, h2⟩
    · have h3 := hR.owner_cfg hx h2
      rw [h3.1] at h1
      simp only [Option.some.injEq, Lock.config.injEq] at h1
      exact hi h1.1.symm
    · rw [h2] at h1; exact absurd h1.2 (by simp [Stage.inside])
  have nocell (i : Nat) (y : Cell) (hy : f.cells[i]? = some y) (u : Nat) (hu : y.lock = some u) : u ≠ t := by
    rintro rfl
    have h1 := hR.owner_cell hy hu
    rcases hown with h2 | ⟨-, h2⟩
    · have h3 := hR.owner_cfg hx h2
      rw [h3.1] at h1
      simp at h1
    · rw [h2] at h1; exact absurd h1.2 (by simp [Stage.inside])
  refine ⟨?_, ?_, ?_, ?_, ?_, ?_, ?_⟩
  · intro u
    rw [hpc]
    show _ = (((f.setCfg c x').goTo t th).thr u).pc
    by_cases h : u = t
    · subst h; rw [goTo_same, if_pos rfl]
    · rw [goTo_other _ _ h, if_neg h]; rfl
  · rw [hcf]; exact hR.cellsLen
  · intro i y w hy hw
    rw [hcf] at hw
    exact (hR.cells i y w hy hw).frame fun u hu => goTo_other _ _ (nocell i y hy u hu)
  · simpa [State.goTo, State.setCfg, hlen] using hR.cfgsLen
  · intro i y w hy hw
    by_cases hi : i = c
    · subst hi
      rw [hv] at hw; cases hw
      simp only [State.goTo, State.setCfg, List.getElem?_set_self hl] at hy
      cases hy
      exact ⟨hh, hok⟩
    · simp only [State.goTo, State.setCfg, List.getElem?_set_ne (Ne.symm hi)] at hy
      rw [hcl i hi] at hw
      have := hR.cfgs i y w hy hw
      exact ⟨this.1, this.2.frame fun u hu => goTo_other _ _ (nocfg i hi y hy u hu)⟩
  · intro u
    by_cases h : u = t
    · subst h; exact hheld
    · refine (hR.held u).frame (goTo_other _ _ h) ?_ ?_
      · intro i y hy hu
        exact ⟨y, hy, hu⟩
      · intro i y hy hu
        have hi : i ≠ c := by
          rintro rfl
          rw [hx] at hy; cases hy
          rcases hown with h2 | ⟨h2, -⟩
          · rw [h2] at hu; cases hu; exact h rfl
          · rw [h2] at hu; cases hu
        exact ⟨y, by simpa [State.goTo, State.setCfg, List.getElem?_set_ne (Ne.symm hi)] using hy, hu⟩
  · rw [hd, List.map_append, hR.done]

/-- Counts do not matter for what a state looks like. -/
theorem R.recount {f : State A B H} {g : RootConc.State (A × B) H} (hR : R f g) (k : Nat) (h : Nat → Nat) :
    R (f.recount k h) g := by
  unfold State.recount
  cases hk : f.cfgs[k]? with
  | none => exact hR
  | some x =>
    have hl := (List.getElem?_eq_some_iff.1 hk).1
    have get (i : Nat) (y : Cfg A B H) (hy : (f.cfgs.set k { x with count := h x.count })[i]? = some y) :
        ∃ z, f.cfgs[i]? = some z ∧ z.lock = y.lock ∧ z.handlers = y.handlers ∧ z.fa = y.fa ∧ z.fb = y.fb := by
      by_cases hi : i = k
      · subst hi; rw [List.getElem?_set_self hl] at hy; cases hy; exact ⟨x, hk, rfl, rfl, rfl, rfl⟩
      · rw [List.getElem?_set_ne (Ne.symm hi)] at hy; exact ⟨y, hy, rfl, rfl, rfl, rfl⟩
    have put (i : Nat) (y : Cfg A B H) (hy : f.cfgs[i]? = some y) :
        ∃ z, (f.cfgs.set k { x with count := h x.count })[i]? = some z ∧ z.lock = y.lock := by
      by_cases hi : i = k
      · subst hi; rw [hk] at hy; cases hy; exact ⟨_, List.getElem?_set_self hl, rfl⟩
      · exact ⟨y, by rw [List.getElem?_set_ne (Ne.symm hi)]; exact hy, rfl⟩
    refine ⟨hR.pc, hR.cellsLen, hR.cells, ?_, ?_, ?_, hR.done⟩
    · simpa [State.setCfg] using hR.cfgsLen
    · intro c y w hy hw
      obtain ⟨z, h1, h2, h3, h4, h5⟩ := get c y hy
      have := hR.cfgs c z w h1 hw
      refine ⟨h3 ▸ this.1, ?_⟩
      have h6 := this.2
      unfold CfgOk at h6 ⊢
      rw [h2] at h6
      rw [← h4, ← h5]
      split at h6
      · assumption
      · next u hu =>
        show FilterOk _ _ _ (access (f.thr u).pc) (f.thr u).stage
        unfold FilterOk at h6 ⊢
        split at h6 <;> first | exact h6.elim | simpa [h4, h5] using h6
    · intro u
      refine (hR.held u).frame rfl (fun i y hy hu => ⟨y, hy, hu⟩) ?_
      intro i y hy hu
      obtain ⟨z, h1, h2⟩ := put i y hy
      exact ⟨z, h1, h2.trans hu⟩

end Blackhole.Spin
