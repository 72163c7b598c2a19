import Verif.Lifetime.Progress

/-! # C77: handlers live as long as somebody logs through them, and no longer -/

namespace Blackhole.Lifetime

/-- In every execution, whoever looks at a filter or calls a handler does so before it is destroyed. -/
theorem C77_no_use_after_free {n : Nat} {cs : List Cmd} {s : State} (h : (State.init n).run cs = some s)
    {before after : List Ev} {t c : Nat} (hu : s.trace = before ++ .use t c :: after) : Ev.destroyed c ∉ before :=
  (inv_run h).good before t c after hu

/-- No configuration is destroyed twice. -/
theorem C77_destroyed_once {n : Nat} {cs : List Cmd} {s : State} (h : (State.init n).run cs = some s) (c : Nat) :
    s.trace.count (.destroyed c) ≤ 1 :=
  (inv_run h).once c

/-- At every moment of every execution a configuration that was made has been destroyed exactly if no logger has it and no
call is working with it: it lives as long as it is needed, and not longer. -/
theorem C77_lives_iff_in_use {n : Nat} {cs : List Cmd} {s : State} (h : (State.init n).run cs = some s) {c : Nat}
    (hc : c < s.cfgs.length) : Ev.destroyed c ∈ s.trace ↔ ¬ InUse s c := by
  have hi := inv_run h
  rw [hi.dead c, ← holders_pos_iff]
  have hget := List.getElem?_eq_getElem hc
  have hcount := hi.count c _ hget
  simp only [List.count_nil, Nat.add_zero] at hcount
  constructor
  · rintro ⟨cfg, h1, h2⟩
    rw [hget] at h1; cases h1
    omega
  · intro h1
    exact ⟨_, hget, by omega⟩

/-- Nothing is destroyed that was not made. -/
theorem C77_destroyed_made {n : Nat} {cs : List Cmd} {s : State} (h : (State.init n).run cs = some s) {c : Nat}
    (hd : Ev.destroyed c ∈ s.trace) : c < s.cfgs.length := by
  obtain ⟨cfg, h1, _⟩ := ((inv_run h).dead c).1 hd
  exact (List.getElem?_eq_some_iff.1 h1).1

/-- When all calls have returned, exactly the configurations that existing loggers have are left. In particular nothing is
left when all loggers are destroyed. -/
theorem C77_nothing_left {n : Nat} {cs : List Cmd} {s : State} (h : (State.init n).run cs = some s) (hq : Quiet s) {c : Nat}
    (hc : c < s.cfgs.length) : Ev.destroyed c ∈ s.trace ↔ ∀ l : Nat, s.loggers[l]? ≠ some (some c) := by
  rw [C77_lives_iff_in_use h hc]
  unfold InUse
  constructor
  · intro hn l hl
    exact hn (.inl ⟨l, hl⟩)
  · rintro hn (⟨l, hl⟩ | ⟨t, p, ht, hp⟩)
    · exact hn l hl
    · rw [hq t p ht] at hp
      cases hp

/-- No call waits for another one: in every situation a thread can return from its call by its own steps alone, whatever the
others were doing when they stopped. -/
theorem C77_calls_return {n t : Nat} {cs : List Cmd} {s : State} (h : (State.init n).run cs = some s) (ht : t < n) :
    ∃ k s', s.run (List.replicate k (.step t)) = some s' ∧ s'.threads[t]? = some .idle := by
  have hl := threads_run h
  exact return_any (inv_run h) (alive_run h) (List.getElem?_eq_getElem (by omega))

/-- An assignment that nobody comes between gives the logger the configuration of the other one, and changes no other
logger. -/
theorem C77_assigned {s s' : State} {t dst src c : Nat} {old : Option Nat} (hd : s.loggers[dst]? = some old)
    (hc : s.loggers[src]? = some (some c))
    (h : s.run (.assign t dst src :: if dst = src then [] else [.step t, .step t, .step t]) = some s') :
    s'.loggers = s.loggers.set dst (some c) ∧ (s.threads[t]? = some .idle → s'.threads[t]? = some .idle) := by
  have hg (x : State) (p : Pc) : (x.goTo t p).loggers = x.loggers := rfl
  have ha (x : State) (c : Nat) : (x.acquire c).loggers = x.loggers := by unfold State.acquire; split <;> rfl
  have hr (x : State) (c : Nat) : (x.release c).loggers = x.loggers := by unfold State.release; split <;> rfl
  have hat (x : State) (c : Nat) : (x.acquire c).threads = x.threads := by unfold State.acquire; split <;> rfl
  have hrt (x : State) (c : Nat) : (x.release c).threads = x.threads := by unfold State.release; split <;> rfl
  by_cases he : dst = src
  · subst he
    simp only [if_pos, State.run, State.act, Option.bind_some, Option.some.injEq] at h
    subst h
    refine ⟨?_, id⟩
    apply List.ext_getElem?
    intro i
    rw [List.getElem?_set]
    split
    · next hi => subst hi; rw [if_pos (List.getElem?_eq_some_iff.1 hc).1, hc]
    · rfl
  · rw [if_neg he] at h
    simp only [State.run, State.act, if_neg he, State.call, State.advance] at h
    split at h
    · next hi =>
      have hlt := (List.getElem?_eq_some_iff.1 hi.1).1
      have hget (x : List Pc) (p : Pc) (hx : t < x.length) : (x.set t p)[t]? = some p := by simp [hx]
      have hp : s.ptr src = some c := by simp [State.ptr, hc]
      cases old with
      | none => simp [Pc.inside, State.ptr, hd] at hi
      | some old =>
        have hp' : s.ptr dst = some old := by simp [State.ptr, hd]
        simp [State.goTo, State.ptr, hat, hrt, ha, hr, hlt, hc, hd] at h
        subst h
        simp [hat, hrt, ha, hr, hlt]
    · simp at h

example : ((State.init 1).run [.construct 0 2, .construct 0 1, .assign 0 0 1, .step 0, .step 0, .step 0]).map (·.loggers)
    = some [some 1, some 1] := by decide

/-- Two threads: while thread 0 is between two handlers of logger 0, thread 1 assigns another logger to it. The old
configuration is used for the rest of the call and destroyed when that ends; the logger that was moved from and the one that
was assigned to then share the other one, which goes with the second of them. -/
def replaced : List Cmd :=
  [.construct 0 2, .construct 1 1, .log 0 0, .step 0, .step 0, .step 0, .assign 1 0 1, .step 1, .step 1, .step 1, .step 0,
    .step 0, .step 0, .destroy 0 1, .destroy 1 0]

example : ((State.init 2).run replaced).map (·.trace) =
    some [.use 0 0, .use 0 0, .use 0 0, .destroyed 0, .destroyed 1] := by decide

/-- In the middle of it the old configuration is held by the call alone, and is not destroyed. -/
example : ((State.init 2).run (replaced.take 10)).map (fun s => (s.loggers, s.threads, s.trace)) =
    some ([some 1, some 1], [.calling 0 0 1, .idle], [.use 0 0, .use 0 0]) := by decide

end Blackhole.Lifetime
