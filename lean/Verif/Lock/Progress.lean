import Verif.Lock.Lemmas

/-! # Threads that share mutexes get everything done -/

set_option linter.unusedSectionVars false

namespace Blackhole.Lock

variable {K L W R : Type} [DecidableEq K] [DecidableEq L]

def Thread.work (th : Thread K L W R) : Nat :=
  match th.todo, th.doing with
  | (op :: ops) :: groups, some rest => rest.length + 1 + costOf op.rescue + workOf (ops :: groups)
  | groups, _ => workOf groups

theorem workOf_nil (groups : List (List (Task K L W R))) : workOf ([] :: groups) = 1 + workOf groups := by
  simp [workOf]

theorem workOf_cons (op : Task K L W R) (ops : List (Task K L W R)) (groups : List (List (Task K L W R))) :
    workOf ((op :: ops) :: groups) = op.steps.length + 2 + costOf op.rescue + workOf (ops :: groups) := by
  simp [workOf]; omega

theorem workOf_group (ops : List (Task K L W R)) (groups : List (List (Task K L W R))) :
    workOf groups < workOf (ops :: groups) := by
  simp [workOf]

theorem workOf_rescue (ops : List (Op K L W R)) (groups : List (List (Task K L W R))) :
    workOf (ops.map Op.alone :: groups) = costOf ops + 1 + workOf groups := by
  simp [workOf, costOf, Op.alone, Function.comp_def]

theorem work_none (groups : List (List (Task K L W R))) :
    Thread.work { todo := groups, doing := none } = workOf groups := by
  unfold Thread.work
  split
  · rename_i h; cases h
  · rfl

/-- A step is idle, or it takes work off its thread and leaves the other threads alone. -/
theorem step_work (s : State K L W R) (t : Nat) :
    s.step t = s ∨ (((s.step t).threads t).work < (s.threads t).work ∧ ∀ u, u ≠ t → (s.step t).threads u = s.threads u) := by
  unfold State.step
  cases htodo : (s.threads t).todo with
  | nil => exact .inl rfl
  | cons g groups =>
    cases g with
    | nil =>
      right
      simp only [upd_same]
      refine ⟨?_, fun u hu => upd_other _ _ hu⟩
      have h1 : (s.threads t).work = workOf ([] :: groups) := by
        unfold Thread.work; rw [htodo]
      rw [h1, work_none, workOf_nil]
      omega
    | cons op ops =>
      simp only
      cases hdoing : (s.threads t).doing with
      | none =>
        simp only
        by_cases hfree : s.free op.lock = true
        · rw [if_pos hfree]
          right
          simp only [upd_same]
          refine ⟨?_, fun u hu => upd_other _ _ hu⟩
          have h1 : (s.threads t).work = workOf ((op :: ops) :: groups) := by
            unfold Thread.work; rw [htodo, hdoing]
          rw [h1, workOf_cons]
          simp only [Thread.work]
          omega
        · rw [if_neg hfree]
          exact .inl rfl
      | some rest =>
        cases rest with
        | cons f fs =>
          right
          simp only [upd_same]
          refine ⟨?_, fun u hu => upd_other _ _ hu⟩
          have h1 : (s.threads t).work = fs.length + 1 + 1 + costOf op.rescue + workOf (ops :: groups) := by
            unfold Thread.work; rw [htodo, hdoing]; rfl
          rw [h1]
          simp only [Thread.work]
          omega
        | nil =>
          right
          simp only [upd_same]
          refine ⟨?_, fun u hu => upd_other _ _ hu⟩
          have h1 : (s.threads t).work = 1 + costOf op.rescue + workOf (ops :: groups) := by
            unfold Thread.work; rw [htodo, hdoing]; simp
          rw [h1, work_none]
          have := workOf_group ops groups
          cases op.failed (s.res op.res) with
          | true =>
            simp only [if_true, workOf_rescue]
            omega
          | false =>
            simp only [Bool.false_eq_true, if_false]
            omega

/-- If anything is left to do then some thread does not wait. -/
theorem Inv.progress {programs : Nat → List (List (Task K L W R))} {init : K → R} {s : State K L W R}
    (h : Inv programs init s) {t : Nat} (ht : (s.threads t).todo ≠ []) : ∃ u, (s.threads u).todo ≠ [] ∧
      ((s.step u).threads u).work < (s.threads u).work := by
  have inside : ∀ u rest, (s.threads u).doing = some rest → (s.threads u).todo ≠ [] ∧
      ((s.step u).threads u).work < (s.threads u).work := by
    intro u rest hd
    obtain ⟨op, past, ⟨⟨x, ops, groups, e, -⟩, -, -⟩, -⟩ := h.holds u rest hd
    refine ⟨by rw [e]; simp, ?_⟩
    rcases step_work s u with hs | hs
    · exfalso
      have hth := congrArg (fun x => (x.threads u).doing) hs
      unfold State.step at hth
      rw [e] at hth
      simp only [hd] at hth
      cases rest with
      | nil => simp [upd_same] at hth
      | cons f fs =>
        simp only [upd_same, Option.some.injEq] at hth
        have := congrArg List.length hth
        simp at this
    · exact hs.1
  cases htodo : (s.threads t).todo with
  | nil => exact absurd htodo ht
  | cons g groups =>
    cases hd : (s.threads t).doing with
    | some rest => exact ⟨t, inside t rest hd⟩
    | none =>
      cases g with
      | nil =>
        refine ⟨t, ht, ?_⟩
        rcases step_work s t with hs | hs
        · exfalso
          have hth := congrArg (fun x => (x.threads t).todo.length) hs
          unfold State.step at hth
          rw [htodo] at hth
          simp only [upd_same, List.length_cons] at hth
          omega
        · exact hs.1
      | cons op ops =>
        by_cases hfree : s.free op.lock = true
        case neg =>
          cases hlk : op.lock with
          | none => rw [hlk] at hfree; exact absurd rfl hfree
          | some l =>
            rw [hlk] at hfree
            cases hh : s.holder l with
            | none => simp [State.free, hh] at hfree
            | some u =>
              obtain ⟨o, past, rest, hi, -⟩ := h.held _ u hh
              exact ⟨u, inside u rest hi.doing⟩
        case pos =>
          refine ⟨t, ht, ?_⟩
          rcases step_work s t with hs | hs
          · exfalso
            have hth := congrArg (fun x => (x.threads t).doing) hs
            unfold State.step at hth
            rw [htodo] at hth
            simp only [hd, hfree, if_true, upd_same] at hth
            cases hth
          · exact hs.1

/-- The work left for the first `n` threads. -/
def total (n : Nat) (s : State K L W R) : Nat := ((List.range n).map fun t => (s.threads t).work).sum

theorem sum_lt {f g : Nat → Nat} (l : List Nat) (hnd : l.Nodup) {t : Nat} (ht : t ∈ l) (hlt : g t < f t)
    (heq : ∀ u, u ≠ t → g u = f u) : (l.map g).sum < (l.map f).sum := by
  induction l with
  | nil => cases ht
  | cons a l ih =>
    simp only [List.map_cons, List.sum_cons]
    rw [List.nodup_cons] at hnd
    by_cases ha : a = t
    · subst ha
      have : l.map g = l.map f := List.map_congr_left fun u hu => heq u (by rintro rfl; exact hnd.1 hu)
      rw [this]
      omega
    · rcases List.mem_cons.1 ht with rfl | ht
      · exact absurd rfl ha
      · have := ih hnd.2 ht
        rw [heq a ha]
        omega

theorem total_step {n : Nat} {s : State K L W R} {t : Nat} (ht : t < n) : s.step t = s ∨ total n (s.step t) < total n s := by
  rcases step_work s t with h | ⟨h1, h2⟩
  · exact .inl h
  · exact .inr (sum_lt _ List.nodup_range (List.mem_range.2 ht) h1 fun u hu => by rw [h2 u hu])

theorem Ran.nothing {p rest : List (List (Task K L W R))} {d : List (Op K L W R × Bool)} (h : Ran p d rest) (hp : p = []) :
    rest = [] := by
  induction h with
  | refl => exact hp
  | next _ ih => cases ih
  | ok _ ih => cases ih
  | failed _ ih => cases ih

/-- Threads without a program stay so. -/
theorem Inv.nothing {programs : Nat → List (List (Task K L W R))} {init : K → R} {s : State K L W R}
    (h : Inv programs init s) {t : Nat} (ht : programs t = []) : (s.threads t).todo = [] := (h.ran t).nothing ht

theorem total_run {n : Nat} {s : State K L W R} (schedule : List Nat) (hs : ∀ t ∈ schedule, t < n) :
    s.run schedule = s ∧ (∀ t ∈ schedule, s.step t = s) ∨ total n (s.run schedule) < total n s := by
  induction schedule generalizing s with
  | nil => exact .inl ⟨rfl, by simp⟩
  | cons t ts ih =>
    have ih' := ih (s := s.step t) (fun u hu => hs u (List.mem_cons_of_mem _ hu))
    show (s.step t).run ts = s ∧ _ ∨ total n ((s.step t).run ts) < _
    rcases total_step (s := s) (hs t List.mem_cons_self) with h | h
    · rw [h] at ih' ⊢
      rcases ih' with ⟨h1, h2⟩ | h1
      · left
        refine ⟨h1, ?_⟩
        intro u hu
        rcases List.mem_cons.1 hu with rfl | hu
        · exact h
        · exact h2 u hu
      · exact .inr h1
    · right
      rcases ih' with ⟨h1, -⟩ | h1
      · rw [h1]; exact h
      · omega

/-- Each round in which all threads take a step does some work, until everything is done. -/
theorem Inv.round {programs : Nat → List (List (Task K L W R))} {init : K → R} {s : State K L W R} {n : Nat}
    (hn : ∀ t, n ≤ t → programs t = []) (h : Inv programs init s) (round : List Nat) (hr : ∀ t ∈ round, t < n)
    (hall : ∀ t < n, t ∈ round) : s.finished ∨ total n (s.run round) < total n s := by
  by_cases hf : s.finished
  · exact .inl hf
  · right
    unfold State.finished at hf
    obtain ⟨t, ht⟩ := Classical.not_forall.1 hf
    obtain ⟨u, hu, hlt⟩ := h.progress ht
    have hun : u < n := by
      rcases Nat.lt_or_ge u n with h1 | h1
      · exact h1
      · exact absurd (h.nothing (hn u h1)) hu
    rcases total_run (s := s) round hr with ⟨-, h2⟩ | h2
    · rw [h2 u (hall u hun)] at hlt
      exact absurd hlt (Nat.lt_irrefl _)
    · exact h2

theorem finished_step {s : State K L W R} (h : s.finished) (t : Nat) : s.step t = s := by
  unfold State.step
  rw [h t]

theorem finished_run {s : State K L W R} (h : s.finished) (schedule : List Nat) : s.run schedule = s := by
  induction schedule with
  | nil => rfl
  | cons t ts ih =>
    show (s.step t).run ts = s
    rw [finished_step h, ih]

theorem Inv.rounds {programs : Nat → List (List (Task K L W R))} {init : K → R} {n : Nat}
    (hn : ∀ t, n ≤ t → programs t = []) (rounds : List (List Nat)) (s : State K L W R)
    (h : Inv programs init s) (hr : ∀ r ∈ rounds, (∀ t ∈ r, t < n) ∧ ∀ t < n, t ∈ r)
    (hlen : total n s ≤ rounds.length) : (s.run rounds.flatten).finished := by
  induction rounds generalizing s with
  | nil =>
    by_cases hf : s.finished
    · exact hf
    · rcases h.round hn (List.range n) (by simp) (by simp) with h1 | h1
      · exact absurd h1 hf
      · simp only [List.length_nil] at hlen
        omega
  | cons r rs ih =>
    have hrun : s.run (r :: rs).flatten = (s.run r).run rs.flatten := by
      simp [State.run, List.foldl_append]
    rw [hrun]
    obtain ⟨h1, h2⟩ := hr r List.mem_cons_self
    rcases h.round hn r h1 h2 with hf | hf
    · rw [finished_run hf, finished_run hf]; exact hf
    · exact ih _ (h.run r) (fun x hx => hr x (List.mem_cons_of_mem _ hx)) (by simp at hlen; omega)

/-! ## Complete programs -/

theorem Ran.complete {p rest : List (List (Task K L W R))} {d : List (Op K L W R × Bool)} (h : Ran p d rest)
    {d' : List (Op K L W R × Bool)} (h' : Complete rest d') : Complete p (d ++ d') := by
  induction h generalizing d' with
  | refl => exact h'
  | next _ ih => exact ih h'.next
  | ok _ ih => rw [List.append_assoc]; exact ih h'.ok
  | failed _ ih => rw [List.append_assoc]; exact ih h'.failed

theorem Complete.append {a b : List (List (Task K L W R))} {d : List (Op K L W R × Bool)} (h : Complete (a ++ b) d) :
    ∃ d1 d2, d = d1 ++ d2 ∧ Complete a d1 ∧ Complete b d2 := by
  generalize hp : a ++ b = p at h
  induction h generalizing a with
  | nil =>
    obtain ⟨rfl, rfl⟩ := List.append_eq_nil_iff.1 hp
    exact ⟨[], [], rfl, .nil, .nil⟩
  | @next groups d h ih =>
    cases a with
    | nil => exact ⟨[], d, rfl, .nil, by rw [List.nil_append] at hp; rw [hp]; exact h.next⟩
    | cons g a =>
      injection hp with h1 h2
      subst h1
      obtain ⟨d1, d2, e, h3, h4⟩ := ih h2
      exact ⟨d1, d2, e, h3.next, h4⟩
  | @ok op ops groups d h ih =>
    cases a with
    | nil => exact ⟨[], _, rfl, .nil, by rw [List.nil_append] at hp; rw [hp]; exact h.ok⟩
    | cons g a =>
      injection hp with h1 h2
      subst h1
      obtain ⟨d1, d2, e, h3, h4⟩ := ih (a := ops :: a) (by rw [← h2]; rfl)
      exact ⟨(op.toOp, false) :: d1, d2, by rw [e]; rfl, h3.ok, h4⟩
  | @failed op ops groups d h ih =>
    cases a with
    | nil => exact ⟨[], _, rfl, .nil, by rw [List.nil_append] at hp; rw [hp]; exact h.failed⟩
    | cons g a =>
      injection hp with h1 h2
      subst h1
      obtain ⟨d1, d2, e, h3, h4⟩ := ih (a := op.rescue.map Op.alone :: a) (by rw [← h2]; rfl)
      exact ⟨(op.toOp, true) :: d1, d2, by rw [e]; rfl, h3.failed, h4⟩

/-- The rest of a complete program. -/
theorem Ran.rest {p rest : List (List (Task K L W R))} {d : List (Op K L W R × Bool)} (h : Ran p d rest)
    {e : List (Op K L W R × Bool)} (h' : Complete p (d ++ e)) : Complete rest e := by
  induction h generalizing e with
  | refl => exact h'
  | next _ ih => cases ih h' with | next h => exact h
  | ok _ ih =>
    rw [List.append_assoc] at h'
    cases ih h' with | ok h => exact h
  | failed _ ih =>
    rw [List.append_assoc] at h'
    cases ih h' with | failed h => exact h

theorem Ran.did {p rest : List (List (Task K L W R))} {d : List (Op K L W R × Bool)} (h : Ran p d rest) :
    ∀ x ∈ d, In p x.1 := by
  induction h with
  | refl => intro x hx; cases hx
  | next _ ih => exact ih
  | @ok d op ops groups h ih =>
    intro x hx
    rcases List.mem_append.1 hx with hx | hx
    · exact ih x hx
    · rw [List.mem_singleton.1 hx]
      exact h.sub _ ⟨op :: ops, by simp, op, by simp, .inl rfl⟩
  | @failed d op ops groups h ih =>
    intro x hx
    rcases List.mem_append.1 hx with hx | hx
    · exact ih x hx
    · rw [List.mem_singleton.1 hx]
      exact h.sub _ ⟨op :: ops, by simp, op, by simp, .inl rfl⟩

theorem Inv.did {programs : Nat → List (List (Task K L W R))} {init : K → R} {s : State K L W R}
    (h : Inv programs init s) {d : Nat × Op K L W R × Bool} (hd : d ∈ s.done) : Occurs programs d.2.1 := by
  have : d.2 ∈ doneBy d.1 s.done := by
    unfold doneBy
    exact List.mem_map.2 ⟨d, List.mem_filter.2 ⟨hd, by simp⟩, rfl⟩
  obtain ⟨g, hg, hx⟩ := (h.ran d.1).did d.2 this
  exact ⟨d.1, g, hg, hx⟩

theorem doneBy_append (t : Nat) (a b : List (Nat × Op K L W R × Bool)) : doneBy t (a ++ b) = doneBy t a ++ doneBy t b := by
  simp [doneBy]

/-- Everything can be finished from any state that can be reached. -/
theorem Inv.can_finish {programs : Nat → List (List (Task K L W R))} {init : K → R} {n : Nat}
    (hn : ∀ t, n ≤ t → programs t = []) {s : State K L W R} (h : Inv programs init s) :
    ∃ schedule, (s.run schedule).finished :=
  ⟨(List.replicate (total n s) (List.range n)).flatten, Inv.rounds hn _ s h
    (fun r hr => by rw [(List.mem_replicate.1 hr).2]; simp) (by simp)⟩

theorem done_grows (s : State K L W R) (schedule : List Nat) : ∃ more, (s.run schedule).done = s.done ++ more := by
  induction schedule generalizing s with
  | nil => exact ⟨[], by simp [State.run]⟩
  | cons t ts ih =>
    obtain ⟨more, h⟩ := ih (s.step t)
    have h1 : ∃ m, (s.step t).done = s.done ++ m := by
      unfold State.step
      split
      · exact ⟨[], by simp⟩
      · exact ⟨[], by simp⟩
      · split
        · split
          · exact ⟨[], by simp⟩
          · exact ⟨[], by simp⟩
        · exact ⟨[], by simp⟩
        · exact ⟨_, rfl⟩
    obtain ⟨m, hm⟩ := h1
    exact ⟨m ++ more, by show ((s.step t).run ts).done = _; rw [h, hm, List.append_assoc]⟩

end Blackhole.Lock
