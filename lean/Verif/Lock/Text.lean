import Verif.Lock.Plain

/-! # Threads that print texts to one stream -/

set_option linter.unusedSectionVars false

namespace Blackhole.Lock

variable {L : Type} [DecidableEq L]

/-- Printing a text, character by character, under a mutex. -/
def printTask (l : L) (text : Str) : Task Unit L Str Str :=
  { res := (), lock := some l, what := text, steps := text.map fun c printed => printed ++ [c], failed := fun _ => false,
    rescue := [] }

/-- Each thread prints its texts, one after the other. -/
def printRun (programs : Nat → List (L × Str)) (schedule : List Nat) : State Unit L Str Str :=
  (State.init (fun t => (programs t).map fun x => [printTask x.1 x.2]) (fun _ => [])).run schedule

theorem push_all (cs printed : Str) :
    (cs.map fun c (printed : Str) => printed ++ [c]).foldl (fun r f => f r) printed = printed ++ cs := by
  induction cs generalizing printed with
  | nil => simp
  | cons c cs ih =>
    rw [List.map_cons, List.foldl_cons, ih]
    simp

theorem map_split {α β : Type} (f : α → β) (l : List α) (a b : List β) (h : l.map f = a ++ b) :
    ∃ l1 l2, l = l1 ++ l2 ∧ a = l1.map f ∧ b = l2.map f := by
  induction a generalizing l with
  | nil => exact ⟨[], l, rfl, rfl, h.symm⟩
  | cons x a ih =>
    cases l with
    | nil => cases h
    | cons y l =>
      injection h with h1 h2
      obtain ⟨l1, l2, rfl, rfl, e⟩ := ih l h2
      exact ⟨y :: l1, l2, rfl, by rw [← h1]; rfl, e⟩

/-- Under one mutex texts are never mixed, and each thread's texts come in its order. -/
theorem whole_texts (l : L) (n : Nat) (programs : Nat → List Str) (hn : ∀ t, n ≤ t → programs t = []) (schedule : List Nat) :
    ∃ (printed : List (Nat × Str)) (current : Str),
      (printRun (fun t => (programs t).map (l, ·)) schedule).res () = printed.flatMap (·.2) ++ current
      ∧ (∀ t, byThread t printed <+: programs t)
      ∧ (current = [] ∨ ∃ t text, byThread t printed ++ [text] <+: programs t ∧ current <+: text)
      ∧ ((printRun (fun t => (programs t).map (l, ·)) schedule).finished →
          current = [] ∧ ∀ t, byThread t printed = programs t) := by
  unfold printRun
  generalize hP : (fun t => ((programs t).map (l, ·)).map fun x => [printTask x.1 x.2]) = P
  have hPt : ∀ t, P t = (programs t).map fun text => [printTask l text] := by
    intro t; rw [← hP]; simp
  have hocc : ∀ op, Occurs P op → ∃ text, op = (printTask l text).toOp := by
    rintro op ⟨t, g, hg, x, hx, e⟩
    rw [hPt] at hg
    obtain ⟨text, -, rfl⟩ := List.mem_map.1 hg
    rw [List.mem_singleton] at hx
    subst hx
    rcases e with e | e
    · exact ⟨text, e⟩
    · cases e
  have hguard : Guarded P () := ⟨l, fun op ho _ => by obtain ⟨text, rfl⟩ := hocc op ho; rfl⟩
  have hinv := (Inv.start P (fun _ : Unit => ([] : Str))).run schedule
  generalize (State.init P fun _ => []).run schedule = s at hinv ⊢
  have hnp : ∀ t, n ≤ t → P t = [] := by intro t ht; rw [hPt, hn t ht]; rfl
  obtain ⟨more, hfin⟩ := hinv.can_finish hnp
  have hinv' := hinv.run more
  obtain ⟨extra, hextra⟩ := done_grows s more
  have hcomplete : ∀ t, Complete (P t) (doneBy t (s.run more).done) := by
    intro t
    have := hinv'.ran t
    rw [hfin t] at this
    have := this.complete .nil
    rwa [List.append_nil] at this
  -- What is done is the texts of the program.
  have hdid : ∀ (texts : List Str) (d : List (Op Unit L Str Str × Bool)),
      Complete (texts.map fun text => [printTask l text]) d → (∀ x ∈ d, x.2 = false) → d.map (·.1.what) = texts := by
    intro texts
    induction texts with
    | nil => intro d h _; cases h; rfl
    | cons text texts ih =>
      intro d h hok
      cases h with
      | ok h =>
        cases h with
        | next h =>
          rw [List.map_cons, ih _ h fun x hx => hok x (List.mem_cons_of_mem _ hx)]
          rfl
      | failed h => exact absurd (hok _ List.mem_cons_self) (by simp)
  have hfalse : ∀ x ∈ (s.run more).done, x.2.2 = false := by
    intro x hx
    obtain ⟨r, hr⟩ := hinv'.result x hx
    obtain ⟨text, e⟩ := hocc _ (hinv'.did hx)
    rw [hr, e]
    rfl
  have hall : ∀ t, (doneBy t (s.run more).done).map (·.1.what) = programs t := by
    intro t
    refine hdid _ _ (hPt t ▸ hcomplete t) ?_
    intro x hx
    obtain ⟨d, hd, rfl⟩ := List.mem_map.1 hx
    exact hfalse d (List.mem_filter.1 hd).1
  have hby : ∀ (t : Nat) (done : List (Nat × Op Unit L Str Str × Bool)),
      byThread t (done.map fun d => (d.1, d.2.1.what)) = (doneBy t done).map (·.1.what) := by
    intro t done
    induction done with
    | nil => rfl
    | cons d done ih =>
      by_cases h : d.1 = t
      · simpa [byThread, doneBy, h] using ih
      · simpa [byThread, doneBy, h] using ih
  have hafter : ∀ done : List (Nat × Op Unit L Str Str × Bool), (∀ d ∈ done, ∃ text, d.2.1 = (printTask l text).toOp) →
      after () done [] = done.flatMap (·.2.1.what) := by
    intro done
    induction done using snoc_induction with
    | nil => intro _; rfl
    | snoc done d ih =>
      intro h
      obtain ⟨text, e⟩ := h d (by simp)
      rw [after_snoc, if_pos rfl, ih fun x hx => h x (by simp [hx])]
      simp only [List.flatMap_append, List.flatMap_cons, List.flatMap_nil, List.append_nil, e]
      exact push_all text _
  have hpre : ∀ t, byThread t (s.done.map fun d => (d.1, d.2.1.what)) <+: programs t := by
    intro t
    rw [← hall t, hextra, doneBy_append, List.map_append, hby]
    exact List.prefix_append _ _
  have hprinted : after () s.done [] = (s.done.map fun d => (d.1, d.2.1.what)).flatMap (·.2) := by
    rw [hafter s.done fun d hd => hocc _ (hinv.did hd), List.flatMap_map]
  by_cases hbusy : ∃ t op past rest, Inside s t op past rest
  · obtain ⟨t, op, past, rest, hin⟩ := hbusy
    have hb := hinv.busy t op past rest hin hguard
    obtain ⟨x, ops, groups, etodo, hx⟩ := hin.todo
    obtain ⟨text, eop⟩ := hocc op (hx ▸ hinv.occurs etodo)
    have hsteps := hin.steps
    rw [eop] at hsteps
    obtain ⟨l1, l2, e1, e2, e3⟩ := map_split _ _ _ _ hsteps
    have hb' : s.res () = past.foldl (fun r f => f r) (after () s.done []) := hb
    rw [e2, push_all, hprinted] at hb'
    refine ⟨_, l1, hb', hpre, .inr ⟨t, text, ?_, ⟨l2, e1.symm⟩⟩, ?_⟩
    · rw [← hall t, hby, hextra, doneBy_append, List.map_append]
      have hran := hinv.ran t
      rw [etodo] at hran
      have hc := hcomplete t
      rw [hextra, doneBy_append] at hc
      have hrest := hran.rest hc
      have : ∃ b m, doneBy t extra = (op, b) :: m := by
        rw [← hx]
        generalize doneBy t extra = e at hrest
        cases hrest with
        | ok _ => exact ⟨_, _, rfl⟩
        | failed _ => exact ⟨_, _, rfl⟩
      obtain ⟨b, m, e⟩ := this
      rw [e, eop]
      exact ⟨m.map (·.1.what), by simp [printTask]⟩
    · intro hf
      rw [hf t] at etodo
      cases etodo
  · have hidle := hinv.idle () hguard fun t op past rest hin _ => hbusy ⟨t, op, past, rest, hin⟩
    refine ⟨_, [], by rw [hidle, hprinted, List.append_nil], hpre, .inl rfl, ?_⟩
    intro hf
    refine ⟨rfl, fun t => ?_⟩
    rw [← hall t, hby, finished_run hf]

/-- A thread that is in a text prints as much of it as it gets steps. -/
theorem print_some (s : State Unit L Str Str) (t : Nat) (a : Str) (x : Task Unit L Str Str) (ops : List (Task Unit L Str Str))
    (groups : List (List (Task Unit L Str Str))) (fs : List (Str → Str))
    (h : s.threads t = { todo := (x :: ops) :: groups, doing := some ((a.map fun c printed => printed ++ [c]) ++ fs) }) :
    s.run (List.replicate a.length t) =
      { s with res := fun _ => s.res () ++ a, threads := upd s.threads t { todo := (x :: ops) :: groups, doing := some fs } } := by
  induction a generalizing s with
  | nil =>
    have h1 : s.res = fun _ => s.res () ++ [] := by funext u; simp
    have h2 : s.threads = upd s.threads t { todo := (x :: ops) :: groups, doing := some fs } := by
      funext u
      by_cases hu : u = t
      · subst hu; rw [upd_same, h]; rfl
      · rw [upd_other _ _ hu]
    show s = _
    rw [← h1, ← h2]
  | cons c a ih =>
    have hstep : s.step t = { s with res := upd s.res x.res (s.res x.res ++ [c]),
                                     threads := upd s.threads t
                                      { todo := (x :: ops) :: groups,
                                        doing := some ((a.map fun c printed => printed ++ [c]) ++ fs) } } := by
      unfold State.step
      rw [h]
      rfl
    have hrun : s.run (List.replicate (c :: a).length t) = (s.step t).run (List.replicate a.length t) := rfl
    rw [hrun, ih (s.step t) (by rw [hstep]; exact upd_same _ _ _), hstep]
    simp only [State.mk.injEq, true_and, and_true]
    refine ⟨?_, ?_⟩
    · funext u
      by_cases hu : u = t
      · subst hu; rw [upd_same, upd_same]
      · rw [upd_other _ _ hu, upd_other _ _ hu, upd_other _ _ hu]
    · funext u
      simp [upd]

theorem run_append (s : State Unit L Str Str) (a b : List Nat) : s.run (a ++ b) = (s.run a).run b := by
  simp [State.run]

/-- Under different mutexes a text can come into the middle of another one. -/
theorem mixed_texts (l1 l2 : L) (hne : l1 ≠ l2) (a b y : Str) (programs : Nat → List (L × Str))
    (h0 : programs 0 = [(l1, a ++ b)]) (h1 : programs 1 = [(l2, y)]) (hn : ∀ t, 2 ≤ t → programs t = []) :
    ∃ schedule, (printRun programs schedule).finished ∧ (printRun programs schedule).res () = a ++ y ++ b := by
  let push : Char → Str → Str := fun c printed => printed ++ [c]
  let x0 : Task Unit L Str Str := printTask l1 (a ++ b)
  let x1 : Task Unit L Str Str := printTask l2 y
  let P : Nat → List (List (Task Unit L Str Str)) := fun t => (programs t).map fun x => [printTask x.1 x.2]
  let s0 : State Unit L Str Str := State.init P fun _ => []
  have e0 : s0.threads 0 = { todo := [[x0]], doing := none } := by
    simp [s0, State.init, P, h0, x0]
  have e1 : s0.threads 1 = { todo := [[x1]], doing := none } := by
    simp [s0, State.init, P, h1, x1]
  refine ⟨([0] ++ List.replicate a.length 0) ++ (([1] ++ List.replicate y.length 1) ++ ([1, 1] ++ (List.replicate b.length 0 ++ [0, 0]))), ?_⟩
  unfold printRun
  show State.finished (s0.run _) ∧ (s0.run _).res () = _
  -- Thread 0 locks and prints the beginning.
  obtain ⟨s1, hs1, t1, r1, k1⟩ : ∃ s1, s0.run ([0] ++ List.replicate a.length 0) = s1
      ∧ s1.threads = upd s0.threads 0 { todo := [[x0]], doing := some (b.map push) } ∧ s1.res = (fun _ => a)
      ∧ s1.holder = upd (fun _ => none) l1 (some 0) := by
    have hstep : s0.step 0 =
        { s0 with holder := upd s0.holder l1 (some 0), threads := upd s0.threads 0 ⟨[[x0]], some (a.map push ++ b.map push)⟩ } := by
      unfold State.step
      rw [e0]
      simp [State.free, State.lock, s0, State.init, x0, printTask, push]
    have hrun : s0.run ([0] ++ List.replicate a.length 0) = (s0.step 0).run (List.replicate a.length 0) := rfl
    rw [hrun, print_some (s0.step 0) 0 a x0 [] [] (b.map push) (by rw [hstep]; exact upd_same s0.threads 0 ⟨[[x0]], some (a.map push ++ b.map push)⟩), hstep]
    refine ⟨_, rfl, ?_, ?_, rfl⟩
    · funext u
      by_cases hu : u = 0
      · subst hu; simp only [upd_same]
      · simp only [upd_other _ _ hu]
    · rfl
  -- Thread 1 locks and prints all.
  obtain ⟨s2, hs2, t2, r2, k2⟩ : ∃ s2, s1.run ([1] ++ List.replicate y.length 1) = s2
      ∧ s2.threads = upd s1.threads 1 { todo := [[x1]], doing := some [] } ∧ s2.res = (fun _ => a ++ y)
      ∧ s2.holder = upd s1.holder l2 (some 1) := by
    have hth : s1.threads 1 = { todo := [[x1]], doing := none } := by rw [t1, upd_other _ _ (by decide), e1]
    have hstep : s1.step 1 =
        { s1 with holder := upd s1.holder l2 (some 1), threads := upd s1.threads 1 ⟨[[x1]], some (y.map push ++ [])⟩ } := by
      unfold State.step
      rw [hth]
      have hfree : s1.free x1.lock = true := by
        simp only [State.free, x1, printTask, k1]
        rw [upd_other _ _ (Ne.symm hne)]
        rfl
      simp only [hfree, if_true]
      simp [State.lock, x1, printTask, push]
    have hrun : s1.run ([1] ++ List.replicate y.length 1) = (s1.step 1).run (List.replicate y.length 1) := rfl
    rw [hrun, print_some (s1.step 1) 1 y x1 [] [] [] (by rw [hstep]; exact upd_same s1.threads 1 ⟨[[x1]], some (y.map push ++ [])⟩), hstep]
    refine ⟨_, rfl, ?_, ?_, rfl⟩
    · funext u
      by_cases hu : u = 1
      · subst hu; simp only [upd_same]
      · simp only [upd_other _ _ hu]
    · funext u; rw [r1]
  -- It unlocks and ends.
  obtain ⟨s3, hs3, t3, r3⟩ : ∃ s3, s2.run [1, 1] = s3 ∧ s3.threads = upd s1.threads 1 { todo := [], doing := none }
      ∧ s3.res = (fun _ => a ++ y) := by
    have hth : s2.threads 1 = { todo := [[x1]], doing := some [] } := by rw [t2, upd_same]
    have hstep : (s2.step 1).threads = upd s2.threads 1 { todo := [[]], doing := none } ∧ (s2.step 1).res = s2.res := by
      unfold State.step
      rw [hth]
      exact ⟨rfl, rfl⟩
    have hstep2 : ((s2.step 1).step 1).threads = upd (s2.step 1).threads 1 { todo := [], doing := none }
        ∧ ((s2.step 1).step 1).res = (s2.step 1).res := by
      have hth2 : (s2.step 1).threads 1 = { todo := [[]], doing := none } := by rw [hstep.1, upd_same]
      generalize s2.step 1 = s at hth2 ⊢
      unfold State.step
      rw [hth2]
      exact ⟨rfl, rfl⟩
    refine ⟨_, rfl, ?_, ?_⟩
    · show ((s2.step 1).step 1).threads = _
      rw [hstep2.1, hstep.1, t2]
      funext u
      by_cases hu : u = 1
      · subst hu; simp only [upd_same]
      · simp only [upd_other _ _ hu]
    · show ((s2.step 1).step 1).res = _
      rw [hstep2.2, hstep.2, r2]
  -- Thread 0 goes on.
  obtain ⟨s4, hs4, t4, r4⟩ : ∃ s4, s3.run (List.replicate b.length 0) = s4
      ∧ s4.threads = upd s3.threads 0 { todo := [[x0]], doing := some [] } ∧ s4.res = (fun _ => a ++ y ++ b) := by
    have hth : s3.threads 0 = { todo := [[x0]], doing := some (b.map push ++ []) } := by
      rw [t3, upd_other _ _ (by decide), t1, upd_same, List.append_nil]
    rw [print_some s3 0 b x0 [] [] [] hth]
    refine ⟨_, rfl, rfl, ?_⟩
    funext u; rw [r3]
  have hth4 : s4.threads 0 = { todo := [[x0]], doing := some [] } := by rw [t4, upd_same]
  have hstep : (s4.step 0).threads = upd s4.threads 0 { todo := [[]], doing := none } ∧ (s4.step 0).res = s4.res := by
    unfold State.step
    rw [hth4]
    exact ⟨rfl, rfl⟩
  have hstep2 : ((s4.step 0).step 0).threads = upd (s4.step 0).threads 0 { todo := [], doing := none }
      ∧ ((s4.step 0).step 0).res = (s4.step 0).res := by
    have hth2 : (s4.step 0).threads 0 = { todo := [[]], doing := none } := by rw [hstep.1, upd_same]
    generalize s4.step 0 = s at hth2 ⊢
    unfold State.step
    rw [hth2]
    exact ⟨rfl, rfl⟩
  rw [run_append, hs1, run_append, hs2, run_append, hs3, run_append, hs4]
  show State.finished ((s4.step 0).step 0) ∧ ((s4.step 0).step 0).res () = _
  refine ⟨fun u => ?_, by rw [hstep2.2, hstep.2, r4]⟩
  rw [hstep2.1, hstep.1, t4, t3, t1]
  match u with
  | 0 => rw [upd_same]
  | 1 => rfl
  | u + 2 =>
    simp only [upd_other _ _ (show u + 2 ≠ 0 by omega), upd_other _ _ (show u + 2 ≠ 1 by omega)]
    show P (u + 2) = []
    simp [P, hn (u + 2) (by omega)]

end Blackhole.Lock
