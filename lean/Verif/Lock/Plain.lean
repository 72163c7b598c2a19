import Verif.Lock.Progress

/-! # Programs in which nothing fails -/

set_option linter.unusedSectionVars false

namespace Blackhole.Lock

variable {K L W R : Type} [DecidableEq K] [DecidableEq L]

/-- A task without what is to be done if it fails. -/
def Task.plain (x : Task K L W R) : Task K L W R := { x with rescue := [] }

def plain (p : List (List (Task K L W R))) : List (List (Task K L W R)) := p.map fun g => g.map Task.plain

theorem plain_occurs {programs : Nat → List (List (Task K L W R))} {op : Op K L W R}
    (h : Occurs (fun t => plain (programs t)) op) : ∃ t, ∃ g ∈ programs t, ∃ x ∈ g, op = x.toOp := by
  obtain ⟨t, g, hg, x, hx, e⟩ := h
  obtain ⟨g', hg', rfl⟩ := List.mem_map.1 hg
  obtain ⟨x', hx', rfl⟩ := List.mem_map.1 hx
  rcases e with e | e
  · exact ⟨t, g', hg', x', hx', e⟩
  · cases e

/-- The two machines do the same. -/
structure Alike (s s' : State K L W R) : Prop where
  todo : ∀ t, (s'.threads t).todo = plain (s.threads t).todo
  doing : ∀ t, (s'.threads t).doing = (s.threads t).doing
  holder : s'.holder = s.holder
  res : s'.res = s.res
  done : s'.done = s.done

theorem Alike.step {s s' : State K L W R} (h : Alike s s') (t : Nat)
    (hok : ∀ d ∈ (s'.step t).done, d.2.2 = false) : Alike (s.step t) (s'.step t) := by
  have h1 := h.todo t
  have h2 := h.doing t
  unfold State.step at hok ⊢
  cases htodo : (s.threads t).todo with
  | nil =>
    rw [htodo] at h1
    rw [show (s'.threads t).todo = [] from h1]
    exact h
  | cons g groups =>
    rw [htodo] at h1
    cases g with
    | nil =>
      rw [show (s'.threads t).todo = [] :: plain groups from h1]
      refine ⟨fun u => ?_, fun u => ?_, h.holder, h.res, h.done⟩
      · by_cases hu : u = t
        · subst hu; simp only [upd_same]
        · simp only [upd_other _ _ hu]; exact h.todo u
      · by_cases hu : u = t
        · subst hu; simp only [upd_same]
        · simp only [upd_other _ _ hu]; exact h.doing u
    | cons x ops =>
      have h1' : (s'.threads t).todo = (x.plain :: ops.map Task.plain) :: plain groups := h1
      rw [h1'] at hok ⊢
      rw [h2] at hok ⊢
      cases hdoing : (s.threads t).doing with
      | none =>
        simp only
        have hfree : s'.free x.plain.lock = s.free x.lock := by
          unfold State.free
          rw [h.holder]
          rfl
        rw [hfree]
        split
        · refine ⟨fun u => ?_, fun u => ?_, ?_, h.res, h.done⟩
          · by_cases hu : u = t
            · subst hu; simp only [upd_same]; rfl
            · simp only [upd_other _ _ hu]; exact h.todo u
          · by_cases hu : u = t
            · subst hu; simp only [upd_same]; rfl
            · simp only [upd_other _ _ hu]; exact h.doing u
          · simp only [State.lock, h.holder]; rfl
        · exact h
      | some fs =>
        rw [hdoing] at hok
        cases fs with
        | nil =>
          simp only at hok ⊢
          have hres : s'.res x.plain.res = s.res x.res := by rw [h.res]; rfl
          have hfail : x.failed (s.res x.res) = false := by
            have := hok (t, x.plain.toOp, x.plain.failed (s'.res x.plain.res)) (by simp)
            rw [hres] at this
            exact this
          have hfail' : x.plain.failed (s'.res x.plain.res) = false := by rw [hres]; exact hfail
          refine ⟨fun u => ?_, fun u => ?_, ?_, h.res, ?_⟩
          · by_cases hu : u = t
            · subst hu; simp only [upd_same, hfail, hfail', Bool.false_eq_true, if_false]; rfl
            · simp only [upd_other _ _ hu]; exact h.todo u
          · by_cases hu : u = t
            · subst hu; simp only [upd_same]
            · simp only [upd_other _ _ hu]; exact h.doing u
          · simp only [State.lock, h.holder]; rfl
          · simp only [h.done, hfail, hfail']; rfl
        | cons f fs =>
          simp only
          refine ⟨fun u => ?_, fun u => ?_, h.holder, ?_, h.done⟩
          · by_cases hu : u = t
            · subst hu; simp only [upd_same]; rfl
            · simp only [upd_other _ _ hu]; exact h.todo u
          · by_cases hu : u = t
            · subst hu; simp only [upd_same]
            · simp only [upd_other _ _ hu]; exact h.doing u
          · simp only [h.res]; rfl

theorem plain_run (programs : Nat → List (List (Task K L W R))) (init : K → R) (schedule : List Nat)
    (hok : ∀ d ∈ ((State.init (fun t => plain (programs t)) init).run schedule).done, d.2.2 = false) :
    Alike ((State.init programs init).run schedule) ((State.init (fun t => plain (programs t)) init).run schedule) := by
  induction schedule using snoc_induction with
  | nil => exact ⟨fun _ => rfl, fun _ => rfl, rfl, rfl, rfl⟩
  | snoc schedule t ih =>
    have split : ∀ s : State K L W R, s.run (schedule ++ [t]) = (s.run schedule).step t := by
      intro s; simp [State.run]
    rw [split, split]
    rw [split] at hok
    refine Alike.step (ih fun d hd => hok d ?_) t hok
    obtain ⟨more, e⟩ := done_grows ((State.init (fun t => plain (programs t)) init).run schedule) [t]
    have e' : (((State.init (fun t => plain (programs t)) init).run schedule).step t).done
        = ((State.init (fun t => plain (programs t)) init).run schedule).done ++ more := e
    rw [e']
    exact List.mem_append_left _ hd

/-- What is done if nothing fails. -/
theorem Complete.plain {p : List (List (Task K L W R))} {d : List (Op K L W R × Bool)} (h : Complete (Lock.plain p) d)
    (hok : ∀ x ∈ d, x.2 = false) : d = p.flatten.map fun x => (x.toOp, false) := by
  generalize hq : Lock.plain p = q at h
  induction h generalizing p with
  | nil =>
    cases p with
    | nil => rfl
    | cons g p => cases hq
  | next _ ih =>
    cases p with
    | nil => cases hq
    | cons g p =>
      injection hq with h1 h2
      cases g with
      | nil => exact ih (p := p) hok h2
      | cons x g => cases h1
  | @ok op ops groups d _ ih =>
    cases p with
    | nil => cases hq
    | cons g p =>
      injection hq with h1 h2
      cases g with
      | nil => cases h1
      | cons x g =>
        injection h1 with h1 h3
        have := ih (p := g :: p) (fun y hy => hok y (List.mem_cons_of_mem _ hy)) (by rw [← h2, ← h3]; rfl)
        rw [this, ← h1]
        rfl
  | failed _ _ => exact absurd (hok _ List.mem_cons_self) (by simp)

end Blackhole.Lock
