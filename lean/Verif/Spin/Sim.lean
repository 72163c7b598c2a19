import Verif.Spin.Lemmas

namespace Blackhole.Spin

open RootConc (Pc)

variable {A B H : Type}

theorem access_of_strip {p q : Pc (A × B)} (h : strip p = q) : access p = access q := by
  subst h; cases p <;> rfl

/-- The program counters after a step of `t` that does not show. -/
theorem R.pc_same {f : State A B H} {g : RootConc.State (A × B) H} (hR : R f g) {t : Nat} (u : Nat) :
    strip (g.pc u) = if u = t then (f.thr t).pc else (f.thr u).pc := by
  split
  · next h => rw [h]; exact hR.pc t
  · exact hR.pc u

theorem R.pc_set {f : State A B H} {g : RootConc.State (A × B) H} (hR : R f g) {t : Nat} {p q : Pc (A × B)}
    (h : strip q = p) (u : Nat) : strip ((g.setPc t q).pc u) = if u = t then p else (f.thr u).pc := by
  simp only [RootConc.State.setPc]
  split
  · exact h
  · exact hR.pc u

/-- The pointer of a logger is set, or left, and the step shows. -/
theorem getElem?_set_of {α : Type} {a : List α} {l : Nat} {v w : α} (h : a[l]? = some v) : (a.set l w)[l]? = some w :=
  List.getElem?_set_self (List.getElem?_eq_some_iff.1 h).1

/-- A thread that steps from `.outside` or in a section of logger `l`. -/
theorem pointer_sim {f f' : State A B H} {g : RootConc.State (A × B) H} (hR : R f g) {t l : Nat} {new : Option Nat}
    (ha : access (f.thr t).pc = match new with | none => .load l | some c => .store l c)
    (h : f.pointerStep t l new = some f') : R f' g ∨ ∃ g', g.act (.step t) = some g' ∧ R f' g' := by
  unfold State.pointerStep at h
  split at h
  · simp at h
  · next x hx =>
    obtain ⟨v, hv⟩ := getElem?_some_of_len hR.cellsLen hx
    have hcell := hR.cells l x v hx hv
    have heldAt (st : Stage A B) (hst : ∀ c, st ≠ .ending c) (y : Cell) (hy : y.lock = some t) :
        Held ((f.setCell l y).goTo t ⟨(f.thr t).pc, st⟩) t := by
      refine ⟨fun c hc => ?_, fun _ => ?_⟩
      · rw [goTo_same] at hc; exact absurd hc (hst c)
      · rw [goTo_same]
        simp only [ha]
        have : ((f.setCell l y).goTo t ⟨(f.thr t).pc, st⟩).cells[l]? = some y := getElem?_set_of hx
        cases new <;> exact ⟨y, this, hy⟩
    have own (hs : (f.thr t).stage.inside = true) : x.lock = some t := by
      have := (hR.held t).2 hs
      rw [ha] at this
      cases new <;> (obtain ⟨y, h1, h2⟩ := this; rw [hx] at h1; cases h1; exact h2)
    have ok (hs : (f.thr t).stage.inside = true) : PointerOk l v x (access (f.thr t).pc) (f.thr t).stage := by
      unfold CellOk at hcell
      rw [own hs] at hcell
      exact hcell
    split at h
    · next hst =>
      split at h
      · cases h; exact .inl hR
      · next hlock =>
        cases h
        left
        refine cell_step hR hx (.inr ⟨hlock, hst⟩) (hR.pc_same) rfl (fun _ _ => rfl) hv rfl rfl ?_ (heldAt _ (by simp) _ rfl)
        unfold CellOk at hcell ⊢
        rw [hlock] at hcell
        simp only [goTo_same, ha]
        cases new <;> exact ⟨rfl, hcell⟩
    · next hst =>
      cases h
      have ho := own (by rw [hst]; rfl)
      have hk := ok (by rw [hst]; rfl)
      left
      refine cell_step hR hx (.inl ho) (hR.pc_same) rfl (fun _ _ => rfl) hv rfl rfl ?_ (heldAt _ (by simp) _ ho)
      rw [ha, hst] at hk
      unfold CellOk
      simp only [ho, goTo_same, ha]
      cases new <;> simp_all [PointerOk]
    · next o hst =>
      cases h
      have ho := own (by rw [hst]; rfl)
      have hk := ok (by rw [hst]; rfl)
      left
      refine cell_step hR hx (.inl ho) (hR.pc_same) rfl (fun _ _ => rfl) hv rfl rfl ?_ (heldAt _ (by simp) _ ho)
      rw [ha, hst] at hk
      unfold CellOk
      simp only [ho, goTo_same, ha]
      cases new <;> simp_all [PointerOk]
    · next o k hst =>
      have ho := own (by rw [hst]; rfl)
      have hk := ok (by rw [hst]; rfl)
      rw [ha, hst] at hk
      have hset : f.setCell l x = f := by
        unfold State.setCell
        have : f.cells.set l x = f.cells := by
          apply List.ext_getElem?
          intro i
          by_cases hi : i = l
          · subst hi; rw [getElem?_set_of hx, hx]
          · rw [List.getElem?_set_ne (Ne.symm hi)]
        rw [this]
      left
      have key (r : Nat → Nat) (b : Bool) : R ((f.recount k r).goTo t ⟨(f.thr t).pc, .ready o k b⟩) g := by
        have h1 : R (f.goTo t ⟨(f.thr t).pc, .ready o k b⟩) g := by
          have := cell_step (x' := x) (th := ⟨(f.thr t).pc, .ready o k b⟩) hR hx (.inl ho) (hR.pc_same) rfl (fun _ _ => rfl) hv
            rfl rfl (by
              unfold CellOk
              simp only [ho, goTo_same, ha]
              cases new <;> simp_all [PointerOk]) (heldAt _ (by simp) _ ho)
          rw [hset] at this
          exact this
        have h2 := h1.recount k r
        have h3 : (f.goTo t ⟨(f.thr t).pc, .ready o k b⟩).recount k r = (f.recount k r).goTo t ⟨(f.thr t).pc, .ready o k b⟩ := by
          unfold State.recount
          simp only [State.goTo]
          split <;> rfl
        rw [h3] at h2
        exact h2
      cases new with
      | none => simp only at h; cases h; exact key _ _
      | some c => simp only at h; cases h; exact key _ _
    · next o k d hst =>
      have ho := own (by rw [hst]; rfl)
      have hk := ok (by rw [hst]; rfl)
      rw [hst] at hk
      right
      have hg := hR.pc t
      simp only at h
      have free (th : Thread A B) (g' : RootConc.State (A × B) H) (w : Nat) (hpc : ∀ u, strip (g'.pc u) = if u = t then th.pc else (f.thr u).pc)
          (hlen : g'.cells.length = g.cells.length)
          (hcl : ∀ i : Nat, i ≠ l → g'.cells[i]? = g.cells[i]?) (hw : g'.cells[l]? = some w)
          (hcf : g'.cfgs = g.cfgs) (hd : g'.done = g.done) (hth : th.stage = .outside ∨ (∃ c, th.stage = .ending c) ∧ th.pc = .idle)
          (h1 : x.obj = w ∧ x.ctl = w) : R ((f.setCell l { x with lock := none }).goTo t th) g' := by
        refine cell_step hR hx (.inl ho) hpc hlen hcl hw hcf hd ?_ ?_
        · unfold CellOk; exact h1
        · refine ⟨fun c hc => ?_, fun hi => ?_⟩
          · rw [goTo_same] at hc ⊢
            rcases hth with h2 | h2
            · rw [h2] at hc; cases hc
            · exact h2.2
          · rw [goTo_same] at hi
            rcases hth with h2 | ⟨⟨c, h2⟩, -⟩ <;> rw [h2] at hi <;> simp [Stage.inside] at hi
      have load (hn : new = none) : x.obj = v ∧ x.ctl = v ∧ o = v ∧ k = v := by
        subst hn; rw [ha] at hk; exact hk.2
      have store (c : Nat) (hn : new = some c) : x.obj = c ∧ x.ctl = c := by
        subst hn; rw [ha] at hk; exact ⟨hk.2.1, hk.2.2.1⟩
      split at h
      · next l' b hp =>
        cases h
        cases new with
        | some c => rw [hp] at ha; simp [access] at ha
        | none =>
          have e : l' = l := by rw [hp] at ha; simpa [access] using ha
          subst e
          obtain ⟨a1, a2, a3, a4⟩ := load rfl
          cases hq : g.pc t with
          | log l2 b2 =>
            rw [hq, hp] at hg
            simp only [strip, Pc.log.injEq] at hg
            obtain ⟨rfl, rfl⟩ := hg
            refine ⟨g.setPc t (.logLoaded l2 b2 v), by simp [RootConc.State.act, RootConc.State.advance, hq, hv], ?_⟩
            exact free _ _ v (hR.pc_set (by simp [strip, a3])) rfl (fun _ _ => rfl) hv rfl rfl (.inl rfl) ⟨a1, a2⟩
          | _ => rw [hq, hp] at hg; simp [strip] at hg
      · next l' fn hp =>
        cases h
        cases new with
        | some c => rw [hp] at ha; simp [access] at ha
        | none =>
          have e : l' = l := by rw [hp] at ha; simpa [access] using ha
          subst e
          obtain ⟨a1, a2, a3, a4⟩ := load rfl
          cases hq : g.pc t with
          | filter l2 b2 =>
            rw [hq, hp] at hg
            simp only [strip, Pc.filter.injEq] at hg
            obtain ⟨rfl, rfl⟩ := hg
            refine ⟨g.setPc t (.filterLoaded l2 b2 v), by simp [RootConc.State.act, RootConc.State.advance, hq, hv], ?_⟩
            exact free _ _ v (hR.pc_set (by simp [strip, a3])) rfl (fun _ _ => rfl) hv rfl rfl (.inl rfl) ⟨a1, a2⟩
          | _ => rw [hq, hp] at hg; simp [strip] at hg
      · next dst src hp =>
        cases h
        cases new with
        | some c => rw [hp] at ha; simp [access] at ha
        | none =>
          have e : src = l := by rw [hp] at ha; simpa [access] using ha
          subst e
          obtain ⟨a1, a2, a3, a4⟩ := load rfl
          cases hq : g.pc t with
          | assign l2 b2 =>
            rw [hq, hp] at hg
            simp only [strip, Pc.assign.injEq] at hg
            obtain ⟨rfl, rfl⟩ := hg
            refine ⟨g.setPc t (.assignLoaded l2 v), by simp [RootConc.State.act, RootConc.State.advance, hq, hv], ?_⟩
            exact free _ _ v (hR.pc_set (by simp [strip, a3])) rfl (fun _ _ => rfl) hv rfl rfl (.inl rfl) ⟨a1, a2⟩
          | _ => rw [hq, hp] at hg; simp [strip] at hg
      · next src hp =>
        cases h
        cases new with
        | some c => rw [hp] at ha; simp [access] at ha
        | none =>
          have e : src = l := by rw [hp] at ha; simpa [access] using ha
          subst e
          obtain ⟨a1, a2, a3, a4⟩ := load rfl
          cases hq : g.pc t with
          | move l2 =>
            rw [hq, hp] at hg
            simp only [strip, Pc.move.injEq] at hg
            subst hg
            refine ⟨_, by simp [RootConc.State.act, RootConc.State.advance, hq, hv]; rfl, ?_⟩
            have h1 := free ⟨.idle, .outside⟩ (g.setPc t .idle) v (hR.pc_set rfl) rfl (fun _ _ => rfl) hv rfl rfl (.inl rfl) ⟨a1, a2⟩
            subst a3 a4
            refine ⟨h1.pc, ?_, ?_, h1.cfgsLen, h1.cfgs, ?_, h1.done⟩
            · have := h1.cellsLen
              simp only [RootConc.State.setPc] at this
              simpa [State.goTo] using this
            · intro i y w hy hw
              have hlen := h1.cellsLen
              simp only [RootConc.State.setPc] at hlen hw
              simp only [State.goTo] at hlen hy
              rw [List.getElem?_append] at hy hw
              rw [hlen] at hy
              split at hy
              · next hi =>
                rw [if_pos hi] at hw
                exact h1.cells i y w hy hw
              · next hi =>
                rw [if_neg hi] at hw
                cases hj : i - g.cells.length with
                | zero => rw [hj] at hy hw; simp at hy hw; subst hy hw; exact ⟨rfl, rfl⟩
                | succ j => rw [hj] at hy; simp at hy
            · intro u
              refine (h1.held u).frame rfl ?_ (fun i y hy hu => ⟨y, hy, hu⟩)
              intro i y hy hu
              refine ⟨y, ?_, hu⟩
              have := (List.getElem?_eq_some_iff.1 hy).1
              simp only [State.goTo] at this hy ⊢
              rw [List.getElem?_append_left this]
              exact hy
          | _ => rw [hq, hp] at hg; simp [strip] at hg
      · next l' c hp =>
        cases h
        cases new with
        | none => rw [hp] at ha; simp [access] at ha
        | some c' =>
          have e : l' = l ∧ c = c' := by rw [hp] at ha; simpa [access] using ha
          obtain ⟨rfl, rfl⟩ := e
          obtain ⟨a1, a2⟩ := store c rfl
          cases hq : g.pc t with
          | filterSet l2 c2 =>
            rw [hq, hp] at hg
            simp only [strip, Pc.filterSet.injEq] at hg
            obtain ⟨rfl, rfl⟩ := hg
            refine ⟨_, by simp [RootConc.State.act, RootConc.State.advance, hq]; rfl, ?_⟩
            exact free _ _ c2 (hR.pc_set rfl) (by simp) (fun i hi => by simp [List.getElem?_set_ne (Ne.symm hi), RootConc.State.setPc])
              (getElem?_set_of hv) rfl rfl (.inl rfl) ⟨a1, a2⟩
          | _ => rw [hq, hp] at hg; simp [strip] at hg
      · next l' c hp =>
        cases h
        cases new with
        | none => rw [hp] at ha; simp [access] at ha
        | some c' =>
          have e : l' = l ∧ c = c' := by rw [hp] at ha; simpa [access] using ha
          obtain ⟨rfl, rfl⟩ := e
          obtain ⟨a1, a2⟩ := store c rfl
          cases hq : g.pc t with
          | assignLoaded l2 c2 =>
            rw [hq, hp] at hg
            simp only [strip, Pc.assignLoaded.injEq] at hg
            obtain ⟨rfl, rfl⟩ := hg
            refine ⟨_, by simp [RootConc.State.act, RootConc.State.advance, hq]; rfl, ?_⟩
            exact free _ _ c2 (hR.pc_set rfl) (by simp) (fun i hi => by simp [List.getElem?_set_ne (Ne.symm hi), RootConc.State.setPc])
              (getElem?_set_of hv) rfl rfl (.inr ⟨⟨_, rfl⟩, rfl⟩) ⟨a1, a2⟩
          | _ => rw [hq, hp] at hg; simp [strip] at hg
      · cases h
    · cases h

theorem cfg_quiet {f : State A B H} {g : RootConc.State (A × B) H} (hR : R f g) {t c : Nat} {x x' : Cfg A B H}
    {th : Thread A B} {v : RootConc.Cfg (A × B) H} (hx : f.cfgs[c]? = some x)
    (hown : x.lock = some t ∨ x.lock = none ∧ (f.thr t).stage = .outside)
    (hpc : ∀ u, strip (g.pc u) = if u = t then th.pc else (f.thr u).pc) (hv : g.cfgs[c]? = some v)
    (hh : x'.handlers = v.handlers) (hok : CfgOk ((f.setCfg c x').goTo t th).thr c x' v.filter)
    (hheld : Held ((f.setCfg c x').goTo t th) t) : R ((f.setCfg c x').goTo t th) g := by
  have := cfg_step hR hx hown hpc rfl (fun _ _ => rfl) hv rfl (more := []) (by simp) hh hok hheld
  rw [List.map_nil, List.append_nil] at this
  exact this

/-- A thread that steps from `.outside` or in a section of configuration `c`. -/
theorem filter_sim {f f' : State A B H} {g : RootConc.State (A × B) H} (hR : R f g) {t c : Nat} {new : Option (A × B)}
    (ha : access (f.thr t).pc = match new with | none => .read c | some fn => .write c fn)
    (h : f.filterStep t c new = some f') : R f' g ∨ ∃ g', g.act (.step t) = some g' ∧ R f' g' := by
  unfold State.filterStep at h
  split at h
  · simp at h
  · next x hx =>
    obtain ⟨v, hv⟩ := getElem?_some_of_len hR.cfgsLen hx
    obtain ⟨hh, hcfg⟩ := hR.cfgs c x v hx hv
    have heldAt (st : Stage A B) (hst : ∀ c, st ≠ .ending c) (y : Cfg A B H) (hy : y.lock = some t) :
        Held ((f.setCfg c y).goTo t ⟨(f.thr t).pc, st⟩) t := by
      refine ⟨fun c hc => ?_, fun _ => ?_⟩
      · rw [goTo_same] at hc; exact absurd hc (hst c)
      · rw [goTo_same]
        simp only [ha]
        have : ((f.setCfg c y).goTo t ⟨(f.thr t).pc, st⟩).cfgs[c]? = some y := getElem?_set_of hx
        cases new <;> exact ⟨y, this, hy⟩
    have own (hs : (f.thr t).stage.inside = true) : x.lock = some t := by
      have := (hR.held t).2 hs
      rw [ha] at this
      cases new <;> (obtain ⟨y, h1, h2⟩ := this; rw [hx] at h1; cases h1; exact h2)
    have ok (hs : (f.thr t).stage.inside = true) : FilterOk c v.filter x (access (f.thr t).pc) (f.thr t).stage := by
      unfold CfgOk at hcfg
      rw [own hs] at hcfg
      exact hcfg
    split at h
    · next hst =>
      split at h
      · cases h; exact .inl hR
      · next hlock =>
        cases h
        left
        refine cfg_quiet hR hx (.inr ⟨hlock, hst⟩) (hR.pc_same) hv hh ?_ (heldAt _ (by simp) _ rfl)
        unfold CfgOk at hcfg ⊢
        rw [hlock] at hcfg
        simp only [goTo_same, ha]
        cases new <;> exact ⟨rfl, hcfg⟩
    · next hst =>
      cases h
      have ho := own (by rw [hst]; rfl)
      have hk := ok (by rw [hst]; rfl)
      left
      refine cfg_quiet hR hx (.inl ho) (hR.pc_same) hv hh ?_ (heldAt _ (by simp) _ ho)
      rw [ha, hst] at hk
      unfold CfgOk
      simp only [ho, goTo_same, ha]
      cases new <;> simp_all [FilterOk]
    · next a hst =>
      cases h
      have ho := own (by rw [hst]; rfl)
      have hk := ok (by rw [hst]; rfl)
      left
      refine cfg_quiet hR hx (.inl ho) (hR.pc_same) hv hh ?_ (heldAt _ (by simp) _ ho)
      rw [ha, hst] at hk
      unfold CfgOk
      simp only [ho, goTo_same, ha]
      cases new <;> simp_all [FilterOk]
    · next a b hst =>
      have ho := own (by rw [hst]; rfl)
      have hk := ok (by rw [hst]; rfl)
      rw [hst] at hk
      right
      have hg := hR.pc t
      simp only at h
      have out (th : Thread A B) (hth : th.stage = .outside ∨ (∃ c, th.stage = .ending c) ∧ th.pc = .idle) (y : Cfg A B H) :
          Held ((f.setCfg c y).goTo t th) t := by
        refine ⟨fun c hc => ?_, fun hi => ?_⟩
        · rw [goTo_same] at hc ⊢
          rcases hth with h2 | h2
          · rw [h2] at hc; cases hc
          · exact h2.2
        · rw [goTo_same] at hi
          rcases hth with h2 | ⟨⟨c, h2⟩, -⟩ <;> rw [h2] at hi <;> simp [Stage.inside] at hi
      split at h
      · next l b' c' hp =>
        cases h
        cases new with
        | some fn => rw [hp] at ha; simp [access] at ha
        | none =>
          have e : c' = c := by rw [hp] at ha; simpa [access] using ha
          subst e
          rw [ha] at hk
          obtain ⟨-, a1, a2, rfl, rfl⟩ := hk
          cases hq : g.pc t with
          | logLoaded l2 b2 c2 =>
            rw [hq, hp] at hg
            simp only [strip, Pc.logLoaded.injEq] at hg
            obtain ⟨rfl, rfl, rfl⟩ := hg
            refine ⟨_, by simp [RootConc.State.act, RootConc.State.advance, hq, hv]; rfl, ?_⟩
            have := cfg_step (g' := { g.setPc t .idle with done := g.done ++ [⟨l2, b2, g.time, v.filter, v.handlers⟩] })
              (x' := { x with lock := none }) (th := ⟨.idle, .ending c2⟩) hR hx (.inl ho)
              (hR.pc_set rfl) rfl (fun _ _ => rfl) hv rfl rfl hh (by unfold CfgOk; exact ⟨a1, a2⟩)
              (out _ (.inr ⟨⟨_, rfl⟩, rfl⟩) _)
            simpa [toDone, hh] using this
          | _ => rw [hq, hp] at hg; simp [strip] at hg
      · next l fn c' hp =>
        cases h
        cases new with
        | none => rw [hp] at ha; simp [access] at ha
        | some fn' =>
          have e : c' = c ∧ fn = fn' := by rw [hp] at ha; simpa [access] using ha
          obtain ⟨rfl, rfl⟩ := e
          rw [ha] at hk
          obtain ⟨-, a1, a2⟩ := hk
          cases hq : g.pc t with
          | filterLoaded l2 fn2 c2 =>
            rw [hq, hp] at hg
            simp only [strip, Pc.filterLoaded.injEq] at hg
            obtain ⟨rfl, rfl, rfl⟩ := hg
            refine ⟨_, by simp [RootConc.State.act, RootConc.State.advance, hq, hv]; rfl, ?_⟩
            have := cfg_step (g' := { g.setPc t (.filterSet l2 c2) with cfgs := g.cfgs.set c2 { v with filter := fn2 } })
              (x' := { x with lock := none }) (th := ⟨.filterSet l2 c2, .outside⟩) (more := []) hR hx (.inl ho)
              (hR.pc_set rfl) (by simp) (fun i hi => by simp [List.getElem?_set_ne (Ne.symm hi)]) (getElem?_set_of hv) rfl
              (by simp [RootConc.State.setPc]) (v' := { v with filter := fn2 }) hh (by unfold CfgOk; exact ⟨a1, a2⟩)
              (out _ (.inl rfl) _)
            rw [List.map_nil, List.append_nil] at this
            exact this
          | _ => rw [hq, hp] at hg; simp [strip] at hg
      · cases h
    · cases h

/-- A thread outside of all sections moves to another place outside of them. -/
theorem goTo_sim {f : State A B H} {g g' : RootConc.State (A × B) H} (hR : R f g) {t : Nat} {p : Pc (A × B)}
    (hs : (f.thr t).stage.inside = false) (hpc : ∀ u, strip (g'.pc u) = if u = t then p else (f.thr u).pc)
    (h1 : g'.cells = g.cells) (h2 : g'.cfgs = g.cfgs) (h3 : g'.done = g.done) : R (f.goTo t ⟨p, .outside⟩) g' := by
  refine ⟨?_, ?_, ?_, ?_, ?_, ?_, ?_⟩
  · intro u
    rw [hpc]
    by_cases h : u = t
    · subst h; rw [goTo_same, if_pos rfl]
    · rw [goTo_other _ _ h, if_neg h]
  · rw [h1]; exact hR.cellsLen
  · intro l x v hx hv
    rw [h1] at hv
    refine (hR.cells l x v hx hv).frame fun u hu => goTo_other _ _ ?_
    rintro rfl
    have := (hR.owner_cell hx hu).2
    rw [hs] at this; cases this
  · rw [h2]; exact hR.cfgsLen
  · intro c x v hx hv
    rw [h2] at hv
    have := hR.cfgs c x v hx hv
    refine ⟨this.1, this.2.frame fun u hu => goTo_other _ _ ?_⟩
    rintro rfl
    have := (hR.owner_cfg hx hu).2
    rw [hs] at this; cases this
  · intro u
    by_cases h : u = t
    · subst h
      refine ⟨fun c hc => ?_, fun hi => ?_⟩
      · rw [goTo_same] at hc; cases hc
      · rw [goTo_same] at hi; cases hi
    · exact (hR.held u).frame (goTo_other _ _ h) (fun i y hy hu => ⟨y, hy, hu⟩) (fun i y hy hu => ⟨y, hy, hu⟩)
  · rw [h3]; exact hR.done

theorem strip_idle {F : Type} {p : Pc F} (h : strip p = .idle) : p = .idle := by cases p <;> simp_all [strip]

theorem call_some {f f' : State A B H} {t : Nat} {p : Pc (A × B)} (h : f.call t p = some f') :
    f.thr t = ⟨.idle, .outside⟩ ∧ f' = f.goTo t ⟨p, .outside⟩ := by
  unfold State.call at h
  split at h
  · next hp => exact ⟨hp, by simpa using h.symm⟩
  · cases h

theorem call_sim {f f' : State A B H} {g : RootConc.State (A × B) H} (hR : R f g) {t : Nat} {p q : Pc (A × B)}
    (hq : strip q = p) (h : f.call t p = some f') : ∃ g', g.call t q = some g' ∧ R f' g' := by
  obtain ⟨h1, rfl⟩ := call_some h
  have hg : g.pc t = .idle := strip_idle (by rw [hR.pc t, h1])
  refine ⟨g.setPc t q, by simp [RootConc.State.call, hg], ?_⟩
  exact goTo_sim hR (by rw [h1]; rfl) (hR.pc_set hq) rfl rfl rfl

/-- One step of the fine machine is none or one of the coarse machine. -/
theorem act_sim {f f' : State A B H} {g : RootConc.State (A × B) H} (hR : R f g) {c : RootConc.Cmd (A × B) H}
    (h : f.act c = some f') : (R f' g ∧ ∃ t, c = .step t) ∨ ∃ g', g.act c = some g' ∧ R f' g' := by
  cases c with
  | construct t fn hs =>
    right
    simp only [State.act] at h
    split at h
    · next hp =>
      cases h
      have hg : g.pc t = .idle := strip_idle (by rw [hR.pc t, hp])
      refine ⟨_, by simp [RootConc.State.act, hg]; rfl, ?_⟩
      refine ⟨hR.pc, by simp [hR.cellsLen], ?_, by simp [hR.cfgsLen], ?_, ?_, hR.done⟩
      · intro i y w hy hw
        have hlen := hR.cellsLen
        simp only at hy hw
        rw [List.getElem?_append] at hy hw
        rw [hlen] at hy
        split at hy
        · next hi => rw [if_pos hi] at hw; exact hR.cells i y w hy hw
        · next hi =>
          rw [if_neg hi] at hw
          cases hj : i - g.cells.length with
          | zero =>
            rw [hj] at hy hw
            simp at hy hw
            subst hy hw
            exact ⟨hR.cfgsLen, hR.cfgsLen⟩
          | succ j => rw [hj] at hy; simp at hy
      · intro i y w hy hw
        have hlen := hR.cfgsLen
        simp only at hy hw
        rw [List.getElem?_append] at hy hw
        rw [hlen] at hy
        split at hy
        · next hi => rw [if_pos hi] at hw; exact hR.cfgs i y w hy hw
        · next hi =>
          rw [if_neg hi] at hw
          cases hj : i - g.cfgs.length with
          | zero =>
            rw [hj] at hy hw
            simp at hy hw
            subst hy hw
            exact ⟨rfl, rfl, rfl⟩
          | succ j => rw [hj] at hy; simp at hy
      · intro u
        refine (hR.held u).frame rfl ?_ ?_
        · intro i y hy hu
          refine ⟨y, ?_, hu⟩
          simp only
          rw [List.getElem?_append_left (List.getElem?_eq_some_iff.1 hy).1]
          exact hy
        · intro i y hy hu
          refine ⟨y, ?_, hu⟩
          simp only
          rw [List.getElem?_append_left (List.getElem?_eq_some_iff.1 hy).1]
          exact hy
    · cases h
  | log t l => right; exact call_sim hR rfl h
  | filter t l fn => right; exact call_sim hR rfl h
  | assign t dst src =>
    right
    simp only [State.act] at h
    split at h
    · next e => cases h; exact ⟨g, by simp [RootConc.State.act, e], hR⟩
    · next e =>
      obtain ⟨g', h1, h2⟩ := call_sim hR (q := .assign dst src) rfl h
      exact ⟨g', by simp [RootConc.State.act, e, h1], h2⟩
  | move t src => right; exact call_sim hR rfl h
  | step t =>
    suffices R f' g ∨ ∃ g', g.act (.step t) = some g' ∧ R f' g' from this.imp (fun h => ⟨h, t, rfl⟩) id
    simp only [State.act, State.advance] at h
    split at h
    · next c hst =>
      cases h
      left
      have hi : (f.thr t).pc = .idle := (hR.held t).1 c hst
      have h1 := hR.recount c (· - 1)
      have h2 : (f.recount c (· - 1)).thr = f.thr := by unfold State.recount; split <;> rfl
      refine goTo_sim h1 (by rw [h2, hst]; rfl) ?_ rfl rfl rfl
      intro u
      rw [h2]
      split
      · next e => rw [e, hR.pc t, hi]
      · exact hR.pc u
    · split at h
      · cases h
      · next l ha => exact pointer_sim hR (new := none) ha h
      · next l c ha => exact pointer_sim hR (new := some c) ha h
      · next c ha => exact filter_sim hR (new := none) ha h
      · next c fn ha => exact filter_sim hR (new := some fn) ha h

theorem R.time {f : State A B H} {g : RootConc.State (A × B) H} (hR : R f g) (n : Nat) : R f { g with time := n } :=
  ⟨hR.pc, hR.cellsLen, hR.cells, hR.cfgsLen, hR.cfgs, hR.held, hR.done⟩

theorem run_sim {cs : List (RootConc.Cmd (A × B) H)} : ∀ {f f' : State A B H} {g : RootConc.State (A × B) H}, R f g →
    f.run cs = some f' → ∃ cs' g', Thinned cs cs' ∧ g.run cs' = some g' ∧ R f' g' := by
  induction cs with
  | nil => intro f f' g hR h; cases h; exact ⟨[], g, .nil, rfl, hR⟩
  | cons c cs ih =>
    intro f f' g hR h
    simp only [State.run, Option.bind_eq_some_iff] at h
    obtain ⟨m, h1, h2⟩ := h
    rcases act_sim hR h1 with ⟨hm, t, rfl⟩ | ⟨g1, hg, hm⟩
    · obtain ⟨cs', g', h3, h4, h5⟩ := ih hm h2
      exact ⟨cs', g', .drop t h3, h4, h5⟩
    · obtain ⟨cs', g', h3, h4, h5⟩ := ih (hm.time (g1.time + 1)) h2
      exact ⟨c :: cs', g', .keep c h3, by simp [RootConc.State.run, RootConc.State.next, hg, h4], h5⟩

theorem R.init : R (State.init : State A B H) RootConc.State.init := by
  refine ⟨fun _ => rfl, rfl, ?_, rfl, ?_, ?_, rfl⟩
  · intro l x v hx; simp [State.init] at hx
  · intro l x v hx; simp [State.init] at hx
  · intro t; exact ⟨fun c hc => (by cases hc), fun hi => (by cases hi)⟩

/-- Every reachable state looks like one of the coarse machine. -/
theorem reach {cs : List (RootConc.Cmd (A × B) H)} {s : State A B H} (h : State.init.run cs = some s) :
    ∃ cs' g, Thinned cs cs' ∧ RootConc.State.init.run cs' = some g ∧ R s g := run_sim R.init h

end Blackhole.Spin
