import Verif.Scope.Lemmas

/-!
# Exactly when programs without moves are defined (C04)

`SRun` (Verif/Scope/Spec.lean) says what the library promises. Here loggers may be destroyed while scopes are open on
them, and it is shown that nothing else is defined: a program without moves has no undefined behaviour if and only if
every scope is closed by the thread that opened it, as its newest one on a logger that still exists.
-/

namespace Blackhole.Scope

/-- What a program without moves may do. -/
inductive Allowed : SState → Op → SState → Option (List AttrList) → Prop where
  | construct {s l} (h : s.status l = .absent) :
      Allowed s (.construct l) { s with status := fun l' => if l' = l then .live else s.status l' } none
  | open {s t l x} (h : s.status l = .live) :
      Allowed s (.open t l x) { s.setStack l t ((s.opened, x) :: s.stack l t) with opened := s.opened + 1 } none
  | close {s t l a x rest} (h : s.stack l t = (a, x) :: rest) : Allowed s (.close t a) (s.setStack l t rest) none
  | log {s t l} (h : s.status l = .live) : Allowed s (.log t l) s (some ((s.stack l t).map Prod.snd))
  /-- The scopes that are open on the logger can never be closed. -/
  | destroy {s l} (h : s.status l = .live) :
      Allowed s (.destroy l)
        { status := fun l' => if l' = l then .absent else s.status l'
          stack := fun l' t => if l' = l then [] else s.stack l' t
          opened := s.opened } none

inductive ARun : SState → List Op → SState → List (List AttrList) → Prop where
  | nil {s} : ARun s [] s []
  | cons {s op s' out ops s'' outs} (h : Allowed s op s' out) (t : ARun s' ops s'' outs) :
      ARun s (op :: ops) s'' (out.toList ++ outs)

/-- The program has no moves, and its names stand for objects: a logger is constructed under a name that no other has at
that moment, and destroyed while it exists. -/
def Sensible (exists_ : LoggerId → Bool) : List Op → Prop
  | [] => True
  | .construct l :: ops => exists_ l = false ∧ Sensible (upd exists_ l true) ops
  | .destroy l :: ops => exists_ l = true ∧ Sensible (upd exists_ l false) ops
  | .moveConstruct .. :: _ | .moveAssign .. :: _ => False
  | _ :: ops => Sensible exists_ ops

theorem forget {w : World} {s : SState} {l} (h : Inv w s) :
    Inv (w.destroy l)
      { status := fun l' => if l' = l then .absent else s.status l'
        stack := fun l' t => if l' = l then [] else s.stack l' t
        opened := s.opened } := by
  constructor
  · exact h.next
  · intro l' hl'
    by_cases hne : l' = l
    · subst hne; exact ⟨by simp [World.destroy, upd], by simp⟩
    · simp only [hne, if_false] at hl'
      have := h.absent l' hl'
      simp [World.destroy, upd, this.1, this.2]
  · intro l' hl'
    by_cases hne : l' = l
    · simp [hne] at hl'
    · simp only [hne, if_false] at hl'
      obtain ⟨m, hm, hc⟩ := h.live l' hl'
      exact ⟨m, by simp [World.destroy, upd, hne, hm], by simpa [hne, World.destroy] using hc⟩
  · intro l' t hl'
    by_cases hne : l' = l
    · simp [hne] at hl'
    · simp only [hne, if_false] at hl'
      obtain ⟨h1, m, hm, h2⟩ := h.moved l' t hl'
      exact ⟨by simpa [hne] using h1, m, by simp [World.destroy, upd, hne, hm], h2⟩
  · intro l' t e he
    by_cases hne : l' = l
    · simp [hne] at he
    · simp only [hne, if_false] at he; exact h.bound _ _ _ he
  · intro l1 t1 l2 t2 e e' h1 h2
    by_cases hne : l1 = l
    · simp [hne] at h1
    · by_cases hne' : l2 = l
      · simp [hne'] at h2
      · simp only [hne, hne', if_false] at h1 h2
        exact h.disj _ _ _ _ _ _ h1 h2

theorem allowed_refines {w : World} {s s' : SState} {op out} (h : Inv w s) (hs : Allowed s op s' out) :
    ∃ w', w.step op = .ok (w', out) ∧ Inv w' s' := by
  cases hs with
  | construct ha => exact step_refines h (.construct ha)
  | «open» hl => exact step_refines h (.open hl)
  | close hst => exact step_refines h (.close hst)
  | log hl => exact step_refines h (.log hl)
  | destroy hl => exact ⟨_, rfl, forget h⟩

/-- Loggers exist in the specification if and only if they have a manager, and none is moved from. -/
structure Same (e : LoggerId → Bool) (s : SState) : Prop where
  status : ∀ l, s.status l = if e l then .live else .absent

theorem allowed_complete {w w' : World} {s : SState} {op out} {e : LoggerId → Bool} {ops : List Op} (h : Inv w s) (he : Same e s)
    (hs : Sensible e (op :: ops)) (hw : w.step op = .ok (w', out)) :
    ∃ s' e', Allowed s op s' out ∧ Same e' s' ∧ Sensible e' ops := by
  have live : ∀ l m, w.managers l = some m → s.status l = .live := by
    intro l m hm
    have := he.status l
    cases hl : e l with
    | true => rw [hl] at this; exact this
    | false =>
      rw [hl] at this
      have := (h.absent l this).1
      rw [hm] at this
      cases this
  cases op with
  | construct l =>
    obtain ⟨h1, h2⟩ := hs
    cases hw
    refine ⟨_, _, .construct (by have := he.status l; rw [h1] at this; exact this), ⟨fun l' => ?_⟩, h2⟩
    by_cases hl : l' = l
    · simp [upd, hl]
    · simp [upd, hl, he.status l']
  | «open» t l x =>
    cases hm : w.managers l with
    | none => simp [World.step, World.openScope, World.get, hm, bind, Except.bind] at hw
    | some m =>
      have hl := live l m hm
      obtain ⟨w1, h1, h2⟩ := step_refines h (SStep.open (t := t) (x := x) hl)
      rw [h1] at hw
      cases hw
      exact ⟨_, e, .open hl, ⟨he.status⟩, hs⟩
  | close t a =>
    cases hx : w.watchers a with
    | none => simp [World.step, World.closeScope, hx, bind, Except.bind] at hw
    | some x =>
      cases hm : w.managers x.manager with
      | none => simp [World.step, World.closeScope, World.get, hx, hm, bind, Except.bind] at hw
      | some m =>
        by_cases hc : m t = some a
        · have hl := live _ m hm
          have hch := h.chain_of (t := t) hl hm
          rw [hc] at hch
          obtain ⟨y, rest, hst⟩ := hch.some_iff
          obtain ⟨w1, h1, h2⟩ := step_refines h (SStep.close hst)
          rw [h1] at hw
          cases hw
          exact ⟨_, e, .close hst, ⟨he.status⟩, hs⟩
        · simp [World.step, World.closeScope, World.get, hx, hm, hc, bind, Except.bind] at hw
  | log t l =>
    cases hm : w.managers l with
    | none => simp [World.step, World.scoped, World.get, hm, bind, Except.bind] at hw
    | some m =>
      have hl := live l m hm
      obtain ⟨w1, h1, h2⟩ := step_refines h (SStep.log (t := t) hl)
      rw [h1] at hw
      cases hw
      exact ⟨_, e, .log hl, he, hs⟩
  | destroy l =>
    obtain ⟨h1, h2⟩ := hs
    cases hw
    refine ⟨_, _, .destroy (by have := he.status l; rw [h1] at this; exact this), ⟨fun l' => ?_⟩, h2⟩
    by_cases hl : l' = l
    · simp [upd, hl]
    · simp [upd, hl, he.status l']
  | moveConstruct t d s => exact hs.elim
  | moveAssign t d s => exact hs.elim

theorem arun_refines {w : World} {s s' : SState} {ops outs} (h : Inv w s) (hs : ARun s ops s' outs) :
    ∃ w', w.run ops = .ok (w', outs) ∧ Inv w' s' := by
  induction hs generalizing w with
  | nil => exact ⟨w, rfl, h⟩
  | cons hstep _ ih =>
    obtain ⟨w1, hw1, hi⟩ := allowed_refines h hstep
    obtain ⟨w2, hw2, hi2⟩ := ih hi
    exact ⟨w2, by simp [World.run, hw1, hw2, bind, Except.bind, pure, Except.pure], hi2⟩

theorem arun_complete {ops : List Op} : ∀ {w w' : World} {s : SState} {e : LoggerId → Bool} {outs}, Inv w s → Same e s →
    Sensible e ops → w.run ops = .ok (w', outs) → ∃ s', ARun s ops s' outs := by
  induction ops with
  | nil => intro w w' s e outs _ _ _ hw; cases hw; exact ⟨s, .nil⟩
  | cons op ops ih =>
    intro w w' s e outs h he hs hw
    simp only [World.run, bind, Except.bind] at hw
    cases hst : w.step op with
    | error x => rw [hst] at hw; cases hw
    | ok r =>
      obtain ⟨w1, out⟩ := r
      rw [hst] at hw
      simp only at hw
      cases hr : w1.run ops with
      | error x => rw [hr] at hw; cases hw
      | ok r =>
        obtain ⟨w2, outs'⟩ := r
        rw [hr] at hw
        cases hw
        obtain ⟨s1, e1, ha, he1, hs1⟩ := allowed_complete h he hs hst
        obtain ⟨w1', hw1', hi⟩ := allowed_refines h ha
        rw [hst] at hw1'
        cases hw1'
        obtain ⟨s2, hr2⟩ := ih hi he1 hs1 hr
        exact ⟨s2, .cons ha hr2⟩

/-- **C04, exactly.** A program without moves has no undefined behaviour, and its log calls carry the scopes `outs`, if and
only if it uses loggers while they exist and every scope is closed by the thread that opened it, as its newest one on a logger
that still exists; `outs` are then the open scopes of the calling thread at each call. -/
theorem C04_exact (ops : List Op) (hs : Sensible (fun _ => false) ops) (outs : List (List AttrList)) :
    (∃ w, World.init.run ops = .ok (w, outs)) ↔ ∃ s, ARun SState.init ops s outs :=
  ⟨fun ⟨_, hw⟩ => arun_complete Inv.init ⟨fun _ => rfl⟩ hs hw, fun ⟨_, h⟩ =>
    let ⟨w, hw, _⟩ := arun_refines Inv.init h
    ⟨w, hw⟩⟩

/-- The promise of `SRun` is part of it: what it allows without moves is allowed here. -/
theorem C04_promise_allowed (ops : List Op) (hs : Sensible (fun _ => false) ops) (s : SState) (outs : List (List AttrList))
    (h : SRun SState.init ops s outs) : ∃ s', ARun SState.init ops s' outs := by
  obtain ⟨w, hw, _⟩ := run_refines Inv.init h
  exact (C04_exact ops hs outs).mp ⟨w, hw⟩

/-- Out of order: not allowed, and indeed undefined. -/
example : Sensible (fun _ => false) [.construct 0, .open 1 0 [], .open 1 0 [], .close 1 0]
    ∧ World.init.run [.construct 0, .open 1 0 [], .open 1 0 [], .close 1 0] = .error .assertion := by
  exact ⟨⟨rfl, trivial⟩, rfl⟩

/-- In another thread. -/
example : World.init.run [.construct 0, .open 1 0 [], .close 2 0] = .error .assertion := rfl

/-- After the logger. -/
example : World.init.run [.construct 0, .open 1 0 [], .destroy 0, .close 1 0] = .error .dangling := rfl

/-- A logger destroyed under its scopes, then scopes of another logger: allowed. -/
example : Sensible (fun _ => false) [.construct 0, .construct 1, .open 1 0 [], .destroy 0, .open 1 1 [], .log 1 1, .close 1 1]
    ∧ ∃ w, World.init.run [.construct 0, .construct 1, .open 1 0 [], .destroy 0, .open 1 1 [], .log 1 1, .close 1 1]
      = .ok (w, [[[]]]) :=
  ⟨⟨rfl, rfl, rfl, trivial⟩, _, rfl⟩

end Blackhole.Scope
