import Verif.Scope.Lemmas

/-!
# Properties C04 and C05: scoped attributes

`Spec.lean` says, without pointers, which scopes a record must carry. The theorems below state that the
pointer implementation produces exactly those, without ever touching a dead object or failing its assertion,
for every history within the promise.
-/

namespace Blackhole.Scope

/-- Operations that are not moves or destructions. -/
def Op.plain : Op → Bool
  | .construct _ | .open .. | .close .. | .log .. => true
  | _ => false

/-- **C04.** For every interleaving, of any length, of scope openings, closings (newest first for each thread
and logger) and log calls by any number of threads on any number of loggers, the execution has no undefined
behaviour and every log call sees exactly the scopes that its thread has open on that logger, newest first. -/
theorem C04_scopes_follow_each_thread (ops : List Op) (_hplain : ∀ op ∈ ops, op.plain)
    (s : SState) (outs : List (List AttrList)) (h : SRun SState.init ops s outs) :
    ∃ w, World.init.run ops = .ok (w, outs) :=
  let ⟨w, hw, _⟩ := run_refines Inv.init h
  ⟨w, hw⟩

/-- **C04, state form.** After any such history, a further log call by any thread on any live logger sees that
thread's open scopes; no scope of another thread is ever visible. -/
theorem C04_next_log (ops : List Op) (s : SState) (outs : List (List AttrList))
    (h : SRun SState.init ops s outs) (t : Nat) (l : Nat) (hl : s.status l = .live) :
    ∃ w, World.init.run ops = .ok (w, outs) ∧ w.scoped t l = .ok ((s.stack l t).map Prod.snd) := by
  obtain ⟨w, hw, hi⟩ := run_refines Inv.init h
  obtain ⟨m, hm, hc⟩ := hi.live l hl
  exact ⟨w, hw, scoped_of_chain hm (hc t) fun e he => by rw [hi.next]; exact hi.bound _ _ e he⟩

/-- **C05, the part that holds.** The same with moves and destructions in the history: a move carries the
scopes of the moving thread to the destination, from where they are unwound; nothing dangles. What is
excluded (see `SStep.moveConstruct` and `SStep.moveAssign`): scopes of other threads open on the source, scopes
of the calling thread open on the destination, and use of the moved-from logger. -/
theorem C05_moves_carry_scopes_partial (ops : List Op) (s : SState) (outs : List (List AttrList))
    (h : SRun SState.init ops s outs) : ∃ w, World.init.run ops = .ok (w, outs) :=
  let ⟨w, hw, _⟩ := run_refines Inv.init h
  ⟨w, hw⟩

/-- **C05, one move in isolation.** Whatever history led here, right after a move construction a record logged
on the destination carries exactly the scopes the source had on this thread. -/
theorem C05_after_move_construct (ops : List Op) (s : SState) (outs : List (List AttrList))
    (h : SRun SState.init ops s outs) (t dst src : Nat) (hd : s.status dst = .absent)
    (hs : s.status src = .live) (ho : ∀ t', t' ≠ t → s.stack src t' = []) :
    ∃ w w', World.init.run ops = .ok (w, outs) ∧ w.moveConstruct t dst src = .ok w' ∧
      w.scoped t src = .ok ((s.stack src t).map Prod.snd) ∧ w'.scoped t dst = w.scoped t src := by
  obtain ⟨w, hw, hi⟩ := run_refines Inv.init h
  obtain ⟨m, hm, hc⟩ := hi.live src hs
  have h1 := scoped_of_chain hm (hc t) fun e he => by rw [hi.next]; exact hi.bound _ _ e he
  obtain ⟨w', hw', hi'⟩ := step_refines hi (SStep.moveConstruct (t := t) hd hs ho)
  have hst : w.moveConstruct t dst src = .ok w' := by
    cases hmc : w.moveConstruct t dst src with
    | error e => simp [World.step, hmc, bind, Except.bind] at hw'
    | ok v =>
      simp [World.step, hmc, bind, Except.bind, pure, Except.pure] at hw'
      rw [hw']
  obtain ⟨m', hm', hc'⟩ := hi'.live dst (by simp [SState.transfer])
  have h2 := scoped_of_chain hm' (hc' t) fun e he => by rw [hi'.next]; exact hi'.bound _ _ e he
  refine ⟨w, w', hw, hst, h1, ?_⟩
  rw [h2, h1]
  simp [SState.transfer]

/-! ## Negative results for C05: the excluded cases really fail in the code -/

private def attr (c : Char) : AttrList := [([c], .null)]

/-- What a program observes: the outputs of its log calls, or undefined behaviour. -/
def observe (ops : List Op) : Except UB (List (List AttrList)) :=
  match World.init.run ops with
  | .ok (_, outs) => .ok outs
  | .error e => .error e

/-- A scope of thread 2 is lost when thread 1 moves the logger: the destination does not show it. -/
theorem C05_fails_other_thread :
    observe [.construct 0, .open 2 0 (attr 'x'), .moveConstruct 1 1 0, .log 2 1] = .ok [[]] := rfl

/-- ... and if the source is then destroyed, closing that scope uses a destroyed manager. -/
theorem C05_fails_other_thread_close :
    observe [.construct 0, .open 2 0 (attr 'x'), .moveConstruct 1 1 0, .destroy 0, .close 2 0]
      = .error .dangling := rfl

/-- Move assignment drops the destination's own scopes: closing one later fails the assertion. -/
theorem C05_fails_assign_over_scope :
    observe [.construct 0, .construct 1, .open 1 0 (attr 'x'), .moveAssign 1 0 1, .close 1 0]
      = .error .assertion := rfl

/-- Logging through a moved-from logger after the scopes were closed reads a destroyed watcher. -/
theorem C05_fails_moved_from :
    observe [.construct 0, .open 1 0 (attr 'x'), .moveConstruct 1 1 0, .close 1 0, .log 1 0]
      = .error .dangling := rfl

/-! ## Witnesses: histories within the promise exist and are not trivial -/

/-- Two threads, nested scopes, a move construction, a move assignment and a destruction. -/
private def sample : List Op :=
  [.construct 0, .open 1 0 (attr 'a'), .open 2 0 (attr 'b'), .open 1 0 (attr 'c'), .log 1 0, .log 2 0,
   .close 2 1, .moveConstruct 1 5 0, .destroy 0, .log 1 5, .close 1 2, .construct 7, .open 2 7 (attr 'd'),
   .moveAssign 1 7 5, .log 1 7, .log 2 7, .close 1 0, .log 1 7]

private theorem run_cons {s s' : SState} {op ops outs} {out : Option (List AttrList)}
    (h : SStep s op s' out) (t : ∃ s'', SRun s' ops s'' outs) :
    ∃ s'', SRun s (op :: ops) s'' (out.toList ++ outs) :=
  let ⟨s'', t⟩ := t
  ⟨s'', .cons h t⟩

example : ∃ s, SRun SState.init sample s
    [[attr 'c', attr 'a'], [attr 'b'], [attr 'c', attr 'a'], [attr 'a'], [attr 'd'], []] := by
  unfold sample
  refine run_cons (out := none) (.construct rfl) ?_
  refine run_cons (out := none) (.open rfl) ?_
  refine run_cons (out := none) (.open rfl) ?_
  refine run_cons (out := none) (.open rfl) ?_
  refine run_cons (out := some [attr 'c', attr 'a']) (.log rfl) ?_
  refine run_cons (out := some [attr 'b']) (.log rfl) ?_
  refine run_cons (out := none) (.close (l := 0) rfl) ?_
  refine run_cons (out := none) (.moveConstruct rfl rfl ?_) ?_
  · intro t' h
    simp only [SState.setStack, SState.init, true_and]
    simp [h]
  refine run_cons (out := none) (.destroy (by decide) ?_) ?_
  · intro t; simp [SState.transfer]
  refine run_cons (out := some [attr 'c', attr 'a']) (.log rfl) ?_
  refine run_cons (out := none) (.close (l := 5) rfl) ?_
  refine run_cons (out := none) (.construct rfl) ?_
  refine run_cons (out := none) (.open rfl) ?_
  refine run_cons (out := none) (.moveAssign (by decide) (.inl ⟨rfl, rfl⟩) rfl ?_) ?_
  · intro t' h
    by_cases h2 : t' = 2 <;>
      simp [SState.setStack, SState.init, SState.transfer, h]
  refine run_cons (out := some [attr 'a']) (.log rfl) ?_
  refine run_cons (out := some [attr 'd']) (.log rfl) ?_
  refine run_cons (out := none) (.close (l := 7) rfl) ?_
  exact run_cons (out := some []) (.log rfl) ⟨_, .nil⟩

example : observe sample =
    .ok [[attr 'c', attr 'a'], [attr 'b'], [attr 'c', attr 'a'], [attr 'a'], [attr 'd'], []] := rfl

end Blackhole.Scope
