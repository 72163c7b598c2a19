import Verif.Lock.Spec

/-! # Emits under a mutex happen one after the other -/

set_option linter.unusedSectionVars false

namespace Blackhole.Lock

variable {K L W R : Type} [DecidableEq K] [DecidableEq L]

theorem upd_same {α β : Type} [DecidableEq α] (f : α → β) (a : α) (b : β) : upd f a b a = b := by simp [upd]
theorem upd_other {α β : Type} [DecidableEq α] (f : α → β) {a x : α} (b : β) (h : x ≠ a) : upd f a b x = f x := by
  simp [upd, h]

theorem after_snoc (i : K) (done : List (Nat × Op K L W R × Bool)) (d : Nat × Op K L W R × Bool) (r : R) :
    after i (done ++ [d]) r = if d.2.1.res = i then d.2.1.apply (after i done r) else after i done r := by
  simp [after]

/-- An emit is somewhere in a program. -/
def In (p : List (List (Task K L W R))) (op : Op K L W R) : Prop := ∃ g ∈ p, ∃ x ∈ g, op = x.toOp ∨ op ∈ x.rescue

theorem Ran.sub {p : List (List (Task K L W R))} {d : List (Op K L W R × Bool)} {rest : List (List (Task K L W R))}
    (h : Ran p d rest) : ∀ op, In rest op → In p op := by
  induction h with
  | refl => exact fun _ h => h
  | next _ ih =>
    rintro op ⟨g, hg, hx⟩
    exact ih op ⟨g, by simp [hg], hx⟩
  | @ok _ x ops groups _ ih =>
    rintro o ⟨g, hg, y, hy, ho⟩
    rcases List.mem_cons.1 hg with rfl | hg
    · exact ih o ⟨x :: g, by simp, y, by simp [hy], ho⟩
    · exact ih o ⟨g, by simp [hg], y, hy, ho⟩
  | @failed _ x ops groups _ ih =>
    rintro o ⟨g, hg, y, hy, ho⟩
    rcases List.mem_cons.1 hg with rfl | hg
    · obtain ⟨z, hz, rfl⟩ := List.mem_map.1 hy
      refine ih o ⟨x :: ops, by simp, x, by simp, .inr ?_⟩
      rcases ho with rfl | ho
      · exact hz
      · simp [Op.alone] at ho
    · exact ih o ⟨g, by simp [hg], y, hy, ho⟩

/-- Where a thread is in an emit. -/
structure Inside (s : State K L W R) (t : Nat) (op : Op K L W R) (past rest : List (R → R)) : Prop where
  todo : ∃ x ops groups, (s.threads t).todo = (x :: ops) :: groups ∧ x.toOp = op
  doing : (s.threads t).doing = some rest
  steps : op.steps = past ++ rest

structure Inv (programs : Nat → List (List (Task K L W R))) (init : K → R) (s : State K L W R) : Prop where
  /-- The holder of a mutex is in an emit under it. -/
  held : ∀ l t, s.holder l = some t → ∃ op past rest, Inside s t op past rest ∧ op.lock = some l
  /-- Who is in an emit holds its mutex. -/
  holds : ∀ t rest, (s.threads t).doing = some rest →
    ∃ op past, Inside s t op past rest ∧ ∀ l, op.lock = some l → s.holder l = some t
  ran : ∀ t, Ran (programs t) (doneBy t s.done) (s.threads t).todo
  /-- An object that nobody works on. -/
  idle : ∀ i, Guarded programs i → (∀ t op past rest, Inside s t op past rest → op.res ≠ i) →
    s.res i = after i s.done (init i)
  /-- An object that somebody works on. -/
  busy : ∀ t op past rest, Inside s t op past rest → Guarded programs op.res →
    s.res op.res = past.foldl (fun r f => f r) (after op.res s.done (init op.res))
  truthful : ∀ i, Guarded programs i → Truthful i (init i) s.done
  /-- Every result comes from some object. -/
  result : ∀ d ∈ s.done, ∃ r, d.2.2 = d.2.1.failed r

theorem Inv.start (programs : Nat → List (List (Task K L W R))) (init : K → R) :
    Inv programs init (State.init programs init) where
  held := by intro l t h; cases h
  holds := by intro t rest h; cases h
  ran := fun _ => .refl
  idle := fun _ _ _ => rfl
  busy := by rintro t op past rest ⟨-, h, -⟩; cases h
  truthful := by intro i _ a d b h; simp [State.init] at h
  result := by intro d hd; cases hd

theorem Inside.unique {s : State K L W R} {t : Nat} {op op' : Op K L W R} {past past' rest rest' : List (R → R)}
    (h : Inside s t op past rest) (h' : Inside s t op' past' rest') : op = op' ∧ rest = rest' ∧ past = past' := by
  obtain ⟨⟨x, ops, groups, h1, rfl⟩, h2, h3⟩ := h
  obtain ⟨⟨x', ops', groups', h1', rfl⟩, h2', h3'⟩ := h'
  rw [h1] at h1'
  injection h1' with h1' _
  injection h1' with h1' _
  subst h1'
  rw [h2] at h2'
  injection h2' with h2'
  subst h2'
  rw [h3] at h3'
  exact ⟨rfl, rfl, List.append_cancel_right h3'⟩

theorem Inv.occurs {programs : Nat → List (List (Task K L W R))} {init : K → R} {s : State K L W R}
    (h : Inv programs init s) {t : Nat} {x : Task K L W R} {ops : List (Task K L W R)} {groups : List (List (Task K L W R))}
    (e : (s.threads t).todo = (x :: ops) :: groups) : Occurs programs x.toOp := by
  obtain ⟨g, hg, hx⟩ := (h.ran t).sub x.toOp ⟨x :: ops, by rw [e]; simp, x, by simp, .inl rfl⟩
  exact ⟨t, g, hg, hx⟩

/-- Two threads inside emits on the same guarded object are one. -/
theorem Inv.same {programs : Nat → List (List (Task K L W R))} {init : K → R} {s : State K L W R}
    (h : Inv programs init s) {t t' : Nat} {op op' : Op K L W R} {past past' rest rest' : List (R → R)}
    (h1 : Inside s t op past rest) (h2 : Inside s t' op' past' rest') (he : op.res = op'.res)
    (hg : Guarded programs op.res) : t = t' := by
  obtain ⟨l, hl⟩ := hg
  obtain ⟨o1, p1, i1, l1⟩ := h.holds t rest h1.doing
  obtain ⟨o2, p2, i2, l2⟩ := h.holds t' rest' h2.doing
  obtain ⟨rfl, -, -⟩ := h1.unique i1
  obtain ⟨rfl, -, -⟩ := h2.unique i2
  obtain ⟨x, ops, groups, e1, rfl⟩ := h1.todo
  obtain ⟨x', ops', groups', e2, rfl⟩ := h2.todo
  have a := l1 l (hl _ (h.occurs e1) rfl)
  have b := l2 l (hl _ (h.occurs e2) he.symm)
  rw [a] at b
  injection b

theorem truthful_snoc {i : K} {r : R} {done : List (Nat × Op K L W R × Bool)} (h : Truthful i r done)
    (d : Nat × Op K L W R × Bool) (hd : d.2.1.res = i → d.2.2 = d.2.1.failed (d.2.1.apply (after i done r))) :
    Truthful i r (done ++ [d]) := by
  intro a x b e
  rcases List.eq_nil_or_concat b with rfl | ⟨b', y, rfl⟩
  · have e' : done ++ [d] = a ++ [x] := e
    obtain ⟨rfl, h2⟩ := List.append_inj' e' rfl
    injection h2 with h2
    subst h2
    exact hd
  · have e' : done ++ [d] = (a ++ x :: b') ++ [y] := by simpa using e
    obtain ⟨rfl, -⟩ := List.append_inj' e' rfl
    exact h a x b' rfl

/-- Threads that are as they were are inside what they were inside. -/
theorem inside_congr {s s' : State K L W R} {t : Nat} (h : s'.threads t = s.threads t) {op : Op K L W R}
    {past rest : List (R → R)} : Inside s' t op past rest ↔ Inside s t op past rest := by
  constructor
  · rintro ⟨e1, e2, e3⟩
    rw [h] at e1 e2
    exact ⟨e1, e2, e3⟩
  · rintro ⟨e1, e2, e3⟩
    rw [← h] at e1 e2
    exact ⟨e1, e2, e3⟩

/-- The other threads' places and what they did. -/
theorem doneBy_other {t t' : Nat} (h : t' ≠ t) (done : List (Nat × Op K L W R × Bool)) (x : Op K L W R × Bool) :
    doneBy t' (done ++ [(t, x)]) = doneBy t' done := by simp [doneBy, Ne.symm h]

theorem doneBy_same (t : Nat) (done : List (Nat × Op K L W R × Bool)) (x : Op K L W R × Bool) :
    doneBy t (done ++ [(t, x)]) = doneBy t done ++ [x] := by simp [doneBy]

theorem Inv.step {programs : Nat → List (List (Task K L W R))} {init : K → R} {s : State K L W R}
    (h : Inv programs init s) (t : Nat) : Inv programs init (s.step t) := by
  unfold State.step
  cases htodo : (s.threads t).todo with
  | nil => exact h
  | cons g groups =>
    cases g with
    | nil =>
      simp only
      have hdoing : (s.threads t).doing = none := by
        cases hd : (s.threads t).doing with
        | none => rfl
        | some rest =>
          obtain ⟨op, past, ⟨⟨x, ops, gs, e, -⟩, -, -⟩, -⟩ := h.holds t rest hd
          rw [htodo] at e
          cases e
      generalize hs' : ({ s with threads := upd s.threads t { todo := groups, doing := none } } : State K L W R) = s'
      have hth : s'.threads = upd s.threads t { todo := groups, doing := none } := by rw [← hs']
      have hho : s'.holder = s.holder := by rw [← hs']
      have hre : s'.res = s.res := by rw [← hs']
      have hdo : s'.done = s.done := by rw [← hs']
      have conv : ∀ {t' op past rest}, Inside s' t' op past rest ↔ Inside s t' op past rest := by
        intro t' op past rest
        by_cases ht : t' = t
        · subst ht
          constructor
          · rintro ⟨-, e, -⟩
            rw [hth, upd_same] at e
            cases e
          · rintro ⟨-, e, -⟩
            rw [hdoing] at e
            cases e
        · exact inside_congr (by rw [hth, upd_other _ _ ht])
      exact {
        held := fun l t' hl => by
          rw [hho] at hl
          obtain ⟨op, past, rest, hi, e⟩ := h.held l t' hl
          exact ⟨op, past, rest, conv.2 hi, e⟩
        holds := fun t' rest hd => by
          by_cases ht : t' = t
          · subst ht; rw [hth, upd_same] at hd; cases hd
          · rw [hth, upd_other _ _ ht] at hd
            obtain ⟨op, past, hi, e⟩ := h.holds t' rest hd
            exact ⟨op, past, conv.2 hi, by rw [hho]; exact e⟩
        ran := fun t' => by
          rw [hdo]
          by_cases ht : t' = t
          · subst ht
            have := h.ran t'
            rw [htodo] at this
            rw [hth, upd_same]
            exact this.next
          · rw [hth, upd_other _ _ ht]
            exact h.ran t'
        idle := fun i hg hi => by
          rw [hre, hdo]
          exact h.idle i hg fun t' op past rest hin => hi t' op past rest (conv.2 hin)
        busy := fun t' op past rest hin hg => by
          rw [hre, hdo]
          exact h.busy t' op past rest (conv.1 hin) hg
        truthful := by rw [hdo]; exact h.truthful
        result := by rw [hdo]; exact h.result }
    | cons op ops =>
      simp only
      cases hdoing : (s.threads t).doing with
      | none =>
        simp only
        by_cases hfree : s.free op.lock = true
        · rw [if_pos hfree]
          have hfree' : ∀ l, op.lock = some l → s.holder l = none := by
            intro l hl
            rw [hl] at hfree
            simpa [State.free] using hfree
          generalize hs' : ({ s with holder := s.lock (some t) op.lock, threads := upd s.threads t { todo := (op :: ops) :: groups, doing := some op.steps } } : State K L W R) = s'
          have hth : s'.threads = upd s.threads t { todo := (op :: ops) :: groups, doing := some op.steps } := by rw [← hs']
          have hho : s'.holder = s.lock (some t) op.lock := by rw [← hs']
          have hre : s'.res = s.res := by rw [← hs']
          have hdo : s'.done = s.done := by rw [← hs']
          have hother : ∀ {t' o past rest}, t' ≠ t → (Inside s' t' o past rest ↔ Inside s t' o past rest) := by
            intro t' o past rest ht
            exact inside_congr (by rw [hth, upd_other _ _ ht])
          have hself : Inside s' t op.toOp [] op.steps :=
            ⟨⟨op, ops, groups, by rw [hth, upd_same], rfl⟩, by rw [hth, upd_same], rfl⟩
          have hnot : ∀ {o p r}, ¬ Inside s t o p r := by
            rintro o p r ⟨-, e, -⟩
            rw [hdoing] at e
            cases e
          have keep : ∀ l t', s.holder l = some t' → s'.holder l = some t' := by
            intro l t' hl
            rw [hho]
            cases hlk : op.lock with
            | none => exact hl
            | some l' =>
              have : l ≠ l' := by
                rintro rfl
                rw [hfree' l hlk] at hl
                cases hl
              simp only [State.lock, upd_other _ _ this]
              exact hl
          exact {
            held := fun l t' hl => by
              rw [hho] at hl
              cases hlk : op.lock with
              | none =>
                rw [hlk] at hl
                obtain ⟨o, past, rest, hi, e⟩ := h.held l t' hl
                have ht : t' ≠ t := by rintro rfl; exact hnot hi
                exact ⟨o, past, rest, (hother ht).2 hi, e⟩
              | some l' =>
                rw [hlk] at hl
                by_cases hll : l = l'
                · subst hll
                  simp only [State.lock, upd_same] at hl
                  injection hl with hl
                  subst hl
                  exact ⟨op.toOp, [], op.steps, hself, hlk⟩
                · simp only [State.lock, upd_other _ _ hll] at hl
                  obtain ⟨o, past, rest, hi, e⟩ := h.held l t' hl
                  have ht : t' ≠ t := by rintro rfl; exact hnot hi
                  exact ⟨o, past, rest, (hother ht).2 hi, e⟩
            holds := fun t' rest hd => by
              by_cases ht : t' = t
              · subst ht
                rw [hth, upd_same] at hd
                simp only [Option.some.injEq] at hd
                subst hd
                refine ⟨op.toOp, [], hself, ?_⟩
                intro l hl
                rw [hho, hl]
                simp only [State.lock, upd_same]
              · rw [hth, upd_other _ _ ht] at hd
                obtain ⟨o, past, hi, e⟩ := h.holds t' rest hd
                exact ⟨o, past, (hother ht).2 hi, fun l hl => keep l t' (e l hl)⟩
            ran := fun t' => by
              rw [hdo]
              by_cases ht : t' = t
              · subst ht
                have := h.ran t'
                rw [htodo] at this
                rw [hth, upd_same]
                exact this
              · rw [hth, upd_other _ _ ht]
                exact h.ran t'
            idle := fun i hg hi => by
              rw [hre, hdo]
              refine h.idle i hg fun t' o past rest hin => ?_
              by_cases ht : t' = t
              · subst ht
                exact absurd hin hnot
              · exact hi t' o past rest ((hother ht).2 hin)
            busy := fun t' o past rest hin hg => by
              rw [hre, hdo]
              by_cases ht : t' = t
              · subst ht
                obtain ⟨rfl, rfl, rfl⟩ := hself.unique hin
                refine h.idle _ hg fun u o past rest hi he => ?_
                obtain ⟨l, hl⟩ := hg
                obtain ⟨o', p', hi', hh⟩ := h.holds u rest hi.doing
                obtain ⟨rfl, -, -⟩ := hi.unique hi'
                obtain ⟨x, os, gs, e, rfl⟩ := hi.todo
                have a := hh l (hl _ (h.occurs e) he)
                rw [hfree' l (hl _ (h.occurs htodo) rfl)] at a
                cases a
              · exact h.busy t' o past rest ((hother ht).1 hin) hg
            truthful := by rw [hdo]; exact h.truthful
            result := by rw [hdo]; exact h.result }
        · rw [if_neg hfree]
          exact h
      | some rest =>
        obtain ⟨op', past, hin, hlock⟩ := h.holds t rest hdoing
        obtain ⟨x, os, gs, e, hx⟩ := hin.todo
        rw [htodo] at e
        injection e with e _
        injection e with e _
        subst e
        subst hx
        cases rest with
        | cons f fs =>
          simp only
          generalize hs' : ({ s with res := upd s.res op.res (f (s.res op.res)), threads := upd s.threads t { todo := (op :: ops) :: groups, doing := some fs } } : State K L W R) = s'
          have hth : s'.threads = upd s.threads t { todo := (op :: ops) :: groups, doing := some fs } := by rw [← hs']
          have hho : s'.holder = s.holder := by rw [← hs']
          have hre : s'.res = upd s.res op.res (f (s.res op.res)) := by rw [← hs']
          have hdo : s'.done = s.done := by rw [← hs']
          have hother : ∀ {t' o p r}, t' ≠ t → (Inside s' t' o p r ↔ Inside s t' o p r) := by
            intro t' o past rest ht
            exact inside_congr (by rw [hth, upd_other _ _ ht])
          have hself : Inside s' t op.toOp (past ++ [f]) fs :=
            ⟨⟨op, ops, groups, by rw [hth, upd_same], rfl⟩, by rw [hth, upd_same], by rw [hin.steps]; simp⟩
          exact {
            held := fun l t' hl => by
              rw [hho] at hl
              obtain ⟨o, p, r, hi, e⟩ := h.held l t' hl
              by_cases ht : t' = t
              · subst ht
                obtain ⟨rfl, -, -⟩ := hin.unique hi
                exact ⟨op.toOp, past ++ [f], fs, hself, e⟩
              · exact ⟨o, p, r, (hother ht).2 hi, e⟩
            holds := fun t' r hd => by
              rw [hho]
              by_cases ht : t' = t
              · subst ht
                rw [hth, upd_same] at hd
                simp only [Option.some.injEq] at hd
                subst hd
                exact ⟨op.toOp, past ++ [f], hself, hlock⟩
              · rw [hth, upd_other _ _ ht] at hd
                obtain ⟨o, p, hi, e⟩ := h.holds t' r hd
                exact ⟨o, p, (hother ht).2 hi, e⟩
            ran := fun t' => by
              rw [hdo]
              by_cases ht : t' = t
              · subst ht
                have := h.ran t'
                rw [htodo] at this
                rw [hth, upd_same]
                exact this
              · rw [hth, upd_other _ _ ht]
                exact h.ran t'
            idle := fun i hg hi => by
              have hne : i ≠ op.res := fun e => hi t op.toOp (past ++ [f]) fs hself e.symm
              rw [hre, hdo, upd_other _ _ hne]
              refine h.idle i hg fun t' o p r hi' => ?_
              by_cases ht : t' = t
              · subst ht
                obtain ⟨rfl, -, -⟩ := hin.unique hi'
                exact fun e => hne e.symm
              · exact hi t' o p r ((hother ht).2 hi')
            busy := fun t' o p r hi hg => by
              rw [hre, hdo]
              by_cases ht : t' = t
              · subst ht
                obtain ⟨rfl, rfl, rfl⟩ := hself.unique hi
                rw [upd_same, h.busy t' op.toOp past _ hin hg, List.foldl_append]
                rfl
              · have hi' := (hother ht).1 hi
                have hne : o.res ≠ op.res := fun e => ht (h.same hi' hin e hg)
                rw [upd_other _ _ hne]
                exact h.busy t' o p r hi' hg
            truthful := by rw [hdo]; exact h.truthful
            result := by rw [hdo]; exact h.result }
        | nil =>
          simp only
          generalize hrest : (if op.failed (s.res op.res) then op.rescue.map Op.alone else ops) = rest'
          generalize hs' : ({ s with holder := s.lock none op.lock, threads := upd s.threads t { todo := rest' :: groups, doing := none }, done := s.done ++ [(t, op.toOp, op.failed (s.res op.res))] } : State K L W R) = s'
          have hth : s'.threads = upd s.threads t { todo := rest' :: groups, doing := none } := by rw [← hs']
          have hho : s'.holder = s.lock none op.lock := by rw [← hs']
          have hre : s'.res = s.res := by rw [← hs']
          have hdo : s'.done = s.done ++ [(t, op.toOp, op.failed (s.res op.res))] := by rw [← hs']
          have hpast : op.steps = past := by rw [hin.steps]; simp
          have hres : Guarded programs op.res → s.res op.res = op.toOp.apply (after op.res s.done (init op.res)) := by
            intro hg
            rw [h.busy t op.toOp past [] hin hg, ← hpast]; rfl
          have hother : ∀ {t' o p r}, t' ≠ t → (Inside s' t' o p r ↔ Inside s t' o p r) := by
            intro t' o past rest ht
            exact inside_congr (by rw [hth, upd_other _ _ ht])
          have hnot : ∀ {o p r}, ¬ Inside s' t o p r := by
            rintro o p r ⟨-, e2, -⟩
            rw [hth, upd_same] at e2
            cases e2
          have sub : ∀ l t', s'.holder l = some t' → s.holder l = some t' ∧ op.lock ≠ some l := by
            intro l t' hl
            rw [hho] at hl
            cases hlk : op.lock with
            | none => rw [hlk] at hl; exact ⟨hl, by simp⟩
            | some l' =>
              rw [hlk] at hl
              by_cases hll : l = l'
              · subst hll; simp only [State.lock, upd_same] at hl; cases hl
              · simp only [State.lock, upd_other _ _ hll] at hl
                exact ⟨hl, by simp only [ne_eq, Option.some.injEq]; exact fun e => hll e.symm⟩
          have keep : ∀ l t', t' ≠ t → s.holder l = some t' → s'.holder l = some t' := by
            intro l t' ht hl
            rw [hho]
            cases hlk : op.lock with
            | none => exact hl
            | some l' =>
              have : l ≠ l' := by
                rintro rfl
                rw [hlock l hlk] at hl
                injection hl with hl
                exact ht hl.symm
              simp only [State.lock, upd_other _ _ this]
              exact hl
          exact {
            held := fun l t' hl => by
              obtain ⟨hl, hne⟩ := sub l t' hl
              obtain ⟨o, p, r, hi, e⟩ := h.held l t' hl
              have ht : t' ≠ t := by
                rintro rfl
                obtain ⟨rfl, -, -⟩ := hin.unique hi
                exact hne e
              exact ⟨o, p, r, (hother ht).2 hi, e⟩
            holds := fun t' r hd => by
              by_cases ht : t' = t
              · subst ht; rw [hth, upd_same] at hd; cases hd
              · rw [hth, upd_other _ _ ht] at hd
                obtain ⟨o, p, hi, e⟩ := h.holds t' r hd
                exact ⟨o, p, (hother ht).2 hi, fun l hl => keep l t' ht (e l hl)⟩
            ran := fun t' => by
              rw [hdo]
              by_cases ht : t' = t
              · subst ht
                have hr := h.ran t'
                rw [htodo] at hr
                rw [hth, upd_same, doneBy_same, ← hrest]
                cases op.failed (s.res op.res) with
                | false => exact hr.ok
                | true => exact hr.failed
              · rw [hth, upd_other _ _ ht, doneBy_other ht]
                exact h.ran t'
            idle := fun i hg hi => by
              rw [hre, hdo, after_snoc]
              by_cases he : op.res = i
              · subst he
                rw [if_pos rfl]
                exact hres hg
              · rw [if_neg he]
                refine h.idle i hg fun t' o p r hi' => ?_
                by_cases ht : t' = t
                · subst ht
                  obtain ⟨rfl, -, -⟩ := hin.unique hi'
                  exact he
                · exact hi t' o p r ((hother ht).2 hi')
            busy := fun t' o p r hi hg => by
              by_cases ht : t' = t
              · subst ht; exact absurd hi hnot
              · have hi' := (hother ht).1 hi
                have hne : op.res ≠ o.res := fun e => ht (h.same hi' hin e.symm hg)
                rw [hre, hdo, after_snoc, if_neg hne]
                exact h.busy t' o p r hi' hg
            truthful := fun i hg => by
              rw [hdo]
              refine truthful_snoc (h.truthful i hg) _ fun he => ?_
              have he : op.res = i := he
              subst he
              show op.failed (s.res op.res) = _
              rw [hres hg]
            result := by
              rw [hdo]
              intro d hd
              rcases List.mem_append.1 hd with hd | hd
              · exact h.result d hd
              · rw [List.mem_singleton.1 hd]
                exact ⟨_, rfl⟩ }

theorem Inv.run {programs : Nat → List (List (Task K L W R))} {init : K → R} {s : State K L W R}
    (h : Inv programs init s) (schedule : List Nat) : Inv programs init (s.run schedule) := by
  induction schedule generalizing s with
  | nil => exact h
  | cons t ts ih => exact ih (h.step t)

end Blackhole.Lock
