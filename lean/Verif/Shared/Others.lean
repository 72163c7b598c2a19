import Verif.Shared.Props

/-! # Sinks on sockets, the system log and queues, called by several threads: C67 -/

namespace Blackhole.Shared

open Pipeline (Process Call Handler Reply Given)
open Lock (Complete In Inv doneBy after Occurs byThread)

theorem emittedAt_append (k : Place) (a b : List (Nat × Emit × Bool)) :
    emittedAt k (a ++ b) = emittedAt k a ++ emittedAt k b := by
  simp [emittedAt]

theorem after_others {i j : Nat} (done : List (Nat × Emit × Bool))
    (h : ∀ d ∈ done, d.2.1.res = .sink i j → ∃ rep sev text, d.2.1 = (otherEmit i j rep sev text).toOp) (given : List Str) :
    after (.sink i j) done (.other given) = .other (given ++ (emittedAt (.sink i j) done).map (·.2.2.2)) := by
  induction done using snoc_induction with
  | nil => simp [after, emittedAt]
  | snoc done d ih =>
    rw [Lock.after_snoc, ih fun x hx => h x (by simp [hx]), emittedAt_append]
    by_cases hd : d.2.1.res = .sink i j
    · obtain ⟨rep, sev, text, e⟩ := h d (by simp) hd
      rw [if_pos hd]
      simp [emittedAt, e, otherEmit, Lock.Op.apply, take]
    · rw [if_neg hd]
      simp [emittedAt, hd]

theorem others_of (hs : List Handler) (n : Nat) (programs : Nat → List (List Task)) (hnp : ∀ t, n ≤ t → programs t = [])
    (hp : ∀ t op, In (programs t) op → Kind hs op) (schedule : List Nat)
    (i j : Nat) (h : Handler) (hi : hs[i]? = some h) (kind : Essentials.Sink) (earlier : List Str)
    (hj : h.sinks[j]? = some (.other kind earlier)) (G : Nat → List (Option (Reply × Int × Str)) → Prop)
    (hG : ∀ t d, Complete (programs t) d → Honest d → ∃ gl, G t gl ∧ emitsAt (.sink i j) d = gl.flatMap Option.toList) :
    ∃ (emitted : List (Nat × Reply × Int × Str)) (gs : Nat → List (Option (Reply × Int × Str))),
      (run programs hs schedule).res (.sink i j) = .other (emitted.map (·.2.2.2))
      ∧ (∀ t, G t (gs t))
      ∧ (∀ t, byThread t emitted <+: (gs t).flatMap Option.toList)
      ∧ ((run programs hs schedule).finished → ∀ t, byThread t emitted = (gs t).flatMap Option.toList) := by
  have hinv : Inv programs (start hs) (run programs hs schedule) := (Inv.start programs (start hs)).run schedule
  generalize run programs hs schedule = s at hinv ⊢
  have hstart : start hs (.sink i j) = .other [] := by simp only [start, hi, hj]
  obtain ⟨more, hfin⟩ := hinv.can_finish hnp
  have hinv' := hinv.run more
  obtain ⟨extra, hextra⟩ := Lock.done_grows s more
  have hcomplete : ∀ t, Complete (programs t) (doneBy t (s.run more).done) := by
    intro t
    have := hinv'.ran t
    rw [hfin t] at this
    have := this.complete .nil
    rwa [List.append_nil] at this
  have hhonest : ∀ t, Honest (doneBy t (s.run more).done) := by
    intro t x hx hf
    obtain ⟨d, hd, rfl⟩ := List.mem_map.1 hx
    exact honest_done hp hinv' (List.mem_filter.1 hd).1 hf
  have hgiven := fun t => hG t _ (hcomplete t) (hhonest t)
  have hother : ∀ op : Emit, Occurs programs op → op.res = .sink i j →
      ∃ rep sev text, op = (otherEmit i j rep sev text).toOp := by
    intro op ho he
    cases occurs_kind hp ho with
    | other _ _ => injection he with h1 h2; subst h1; subst h2; exact ⟨_, _, _, rfl⟩
    | console _ _ _ => cases he
    | file a b =>
      injection he with h1 h2
      subst h1; subst h2
      rw [hi] at a
      cases a
      rw [hj] at b
      cases b
    | report => cases he
  have hafter := after_others (i := i) (j := j) s.done (fun d hd he => hother d.2.1 (hinv.did hd) he) []
  rw [List.nil_append] at hafter
  have hpre : ∀ t, byThread t (emittedAt (.sink i j) s.done) <+: (hgiven t).choose.flatMap Option.toList := by
    intro t
    rw [← (hgiven t).choose_spec.2, hextra, Lock.doneBy_append, emitsAt_append, emitted_by]
    exact List.prefix_append _ _
  have hwhole : s.finished → ∀ t, byThread t (emittedAt (.sink i j) s.done) = (hgiven t).choose.flatMap Option.toList := by
    intro hf t
    rw [← (hgiven t).choose_spec.2, emitted_by, Lock.finished_run hf]
  by_cases hbusy : ∃ t op past rest, Lock.Inside s t op past rest ∧ op.res = .sink i j
  · obtain ⟨t, op, past, rest, hin, he⟩ := hbusy
    have hb := hinv.busy t op past rest hin (by rw [he]; exact guarded_sink hp i j)
    obtain ⟨x, ops, groups, etodo, hx⟩ := hin.todo
    obtain ⟨rep, sev, text, eop⟩ := hother op (hx ▸ hinv.occurs etodo) he
    rw [he, hstart, hafter] at hb
    have hsteps := hin.steps
    rw [eop] at hsteps
    have hnot : ¬ s.finished := by
      intro hf
      rw [hf t] at etodo
      cases etodo
    match past, hsteps, hb with
    | [], _, hb =>
      exact ⟨_, fun t => (hgiven t).choose, hb, fun t => (hgiven t).choose_spec.1, hpre, hwhole⟩
    | [step], hsteps, hb =>
      have hstep : step = take text := by
        simp only [otherEmit, List.cons_append, List.nil_append, List.cons.injEq] at hsteps
        exact hsteps.1.symm
      refine ⟨emittedAt (.sink i j) s.done ++ [(t, rep, sev, text)], fun t => (hgiven t).choose, ?_,
        fun t => (hgiven t).choose_spec.1, fun t' => ?_, fun hf => (hnot hf).elim⟩
      · rw [hb, hstep]
        simp [take]
      · by_cases ht : t' = t
        · subst ht
          have hcat : byThread t' (emittedAt (.sink i j) s.done ++ [(t', rep, sev, text)])
              = byThread t' (emittedAt (.sink i j) s.done) ++ [(rep, sev, text)] := by simp [byThread]
          rw [hcat, ← (hgiven t').choose_spec.2, emitted_by, hextra, Lock.doneBy_append, emitsAt_append]
          have hran := hinv.ran t'
          rw [etodo] at hran
          have hc := hcomplete t'
          rw [hextra, Lock.doneBy_append] at hc
          have hrest := hran.rest hc
          have : ∃ b l, doneBy t' extra = (op, b) :: l := by
            rw [← hx]
            generalize doneBy t' extra = e at hrest
            cases hrest with
            | ok _ => exact ⟨_, _, rfl⟩
            | failed _ => exact ⟨_, _, rfl⟩
          obtain ⟨b, l, e⟩ := this
          rw [e, emitsAt_cons, if_pos he, eop]
          exact ⟨emitsAt (.sink i j) l, by simp [otherEmit]⟩
        · have hcat : byThread t' (emittedAt (.sink i j) s.done ++ [(t, rep, sev, text)])
              = byThread t' (emittedAt (.sink i j) s.done) := by simp [byThread, Ne.symm ht]
          rw [hcat]
          exact hpre t'
    | _ :: _ :: _, hsteps, _ => simp [otherEmit] at hsteps
  · have hidle := hinv.idle (.sink i j) (guarded_sink hp i j) fun t op past rest hin he => hbusy ⟨t, op, past, rest, hin, he⟩
    rw [hstart, hafter] at hidle
    exact ⟨_, fun t => (hgiven t).choose, hidle, fun t => (hgiven t).choose_spec.1, hpre, hwhole⟩

/-- **C67, other sinks** (sockets, the system log, queues; what they do with a text is C39, C40, C12). Any number of threads log through the same logger under any schedule. A sink that takes a
text in one step gets, one after the other, the texts that the calls have to give to it: from each thread in the order of
its calls, and all of them when all threads are done. -/
theorem C67_others (p : Process) (hs : List Handler) (n : Nat) (calls : Nat → List Call) (hn : ∀ t, n ≤ t → calls t = [])
    (programs : Nat → List (List Task)) (hp : ∀ t, program p hs (calls t) = .ok (programs t)) (schedule : List Nat)
    (i j : Nat) (h : Handler) (hi : hs[i]? = some h) (kind : Essentials.Sink) (earlier : List Str)
    (hj : h.sinks[j]? = some (.other kind earlier)) :
    ∃ (emitted : List (Nat × Reply × Int × Str)) (gs : Nat → List (Option (Reply × Int × Str))),
      (run programs hs schedule).res (.sink i j) = .other (emitted.map (·.2.2.2))
      ∧ (∀ t, Both (Given p h i j) (calls t) (gs t))
      ∧ (∀ t, byThread t emitted <+: (gs t).flatMap Option.toList)
      ∧ ((run programs hs schedule).finished → ∀ t, byThread t emitted = (gs t).flatMap Option.toList) := by
  refine others_of hs n programs ?_ (fun t op => program_kind (hp t)) schedule i j h hi kind earlier hj
    (fun t => Both (Given p h i j) (calls t)) fun t d hc hh =>
      program_given (s0 := .other kind earlier) (hp t) hc hh hi trivial hj
  intro t ht
  have := hp t
  rw [hn t ht] at this
  injection this with this
  exact this.symm

end Blackhole.Shared
