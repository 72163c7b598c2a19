import Verif.Lifetime.Lemmas

/-! # Root loggers and reference counts: the loggers that calls are inside of exist, so the calls can go on -/

namespace Blackhole.Lifetime

def Alive (s : State) : Prop :=
  ∀ (t : Nat) (p : Pc), s.threads[t]? = some p → ∀ l ∈ p.inside, (s.ptr l).isSome

theorem release_loggers (s : State) (c : Nat) : (s.release c).loggers = s.loggers := by
  unfold State.release; split <;> rfl

theorem ptr_congr {s s' : State} (h : s'.loggers = s.loggers) (l : Nat) : s'.ptr l = s.ptr l := by
  unfold State.ptr; rw [h]

theorem ptr_set {s : State} {l m c : Nat} (h : (s.ptr m).isSome) :
    (State.ptr { s with loggers := s.loggers.set l (some c) } m).isSome := by
  unfold State.ptr at *
  simp only [List.getElem?_set]
  split
  · split
    · rfl
    · rename_i h1 h2
      subst h1
      rw [List.getElem?_eq_none (by omega)] at h
      cases h
  · exact h

theorem ptr_append {s : State} {c m : Nat} (h : (s.ptr m).isSome) :
    (State.ptr { s with loggers := s.loggers ++ [some c] } m).isSome := by
  unfold State.ptr at *
  simp only [List.getElem?_append]
  split
  · exact h
  · rw [List.getElem?_eq_none (by omega)] at h
    cases h

/-- A step of one thread that leaves loggers in place. -/
theorem Alive.go {s s' : State} {t : Nat} {q : Pc} (ha : Alive s) (ht : s'.threads = s.threads.set t q)
    (hl : ∀ l, (s.ptr l).isSome → (s'.ptr l).isSome) (hq : ∀ l ∈ q.inside, (s.ptr l).isSome) : Alive s' := by
  intro u p hu l hlp
  rw [ht, List.getElem?_set] at hu
  split at hu
  · split at hu
    · cases hu
      exact hl l (hq l hlp)
    · cases hu
  · exact hl l (ha u p hu l hlp)

theorem alive_act {s s' : State} (ha : Alive s) {cmd : Cmd} (h : s.act cmd = some s') : Alive s' := by
  have hcall : ∀ t p, s.call t p = some s' → Alive s' := by
    intro t p hc
    unfold State.call at hc
    split at hc
    · rename_i hh
      cases hc
      exact ha.go rfl (fun _ h => h) (by simpa using hh.2)
    · cases hc
  cases cmd with
  | construct t n =>
    simp only [State.act] at h
    split at h
    · cases h
      intro u p hu l hl
      exact ptr_append (s := s) (ha u p hu l hl)
    · cases h
  | log t l => exact hcall _ _ h
  | filter t l => exact hcall _ _ h
  | assign t dst src =>
    simp only [State.act] at h
    split at h
    · cases h; exact ha
    · exact hcall _ _ h
  | move t src => exact hcall _ _ h
  | destroy t l =>
    simp only [State.act] at h
    split at h
    · rename_i hh
      simp only [Option.map_eq_some_iff] at h
      obtain ⟨c, _, rfl⟩ := h
      intro u p hu m hm
      rw [release_threads] at hu
      rw [ptr_congr (release_loggers _ _)]
      have h1 := ha u p hu m hm
      have h2 := List.all_eq_true.1 hh.2 p (List.mem_of_getElem? hu)
      have hne : l ≠ m := by
        rintro rfl
        simp [hm] at h2
      unfold State.ptr at *
      simpa [List.getElem?_set, hne] using h1
    · cases h
  | step t =>
    simp only [State.act, State.advance] at h
    split at h
    · rename_i l hp
      simp only [Option.map_eq_some_iff] at h
      obtain ⟨c, _, rfl⟩ := h
      refine ha.go (t := t) (q := .loaded l c) (by simp [State.goTo, acquire_threads]) (fun m hm => ?_) (fun m hm => ha t _ hp m hm)
      rw [ptr_congr (s := s) (by simp [State.goTo, acquire_loggers])]; exact hm
    · rename_i l c hp
      cases h
      exact ha.go (t := t) (q := .calling l c 0) rfl (fun m hm => hm) (fun m hm => ha t _ hp m hm)
    · rename_i l c i hp
      split at h
      · split at h
        · cases h
          exact ha.go (t := t) (q := .calling l c (i + 1)) rfl (fun m hm => hm) (fun m hm => ha t _ hp m hm)
        · cases h
          exact ha.go (t := t) (q := .releasing l none c) rfl (fun m hm => hm) (fun m hm => ha t _ hp m hm)
      · cases h
    · rename_i c hp
      cases h
      refine ha.go (t := t) (q := .idle) (by simp [State.goTo, release_threads]) (fun m hm => ?_) (by simp [Pc.inside])
      rw [ptr_congr (s := s) (by simp [State.goTo, release_loggers])]; exact hm
    · rename_i l hp
      simp only [Option.map_eq_some_iff] at h
      obtain ⟨c, _, rfl⟩ := h
      refine ha.go (t := t) (q := .filterLoaded l c) (by simp [State.goTo, acquire_threads]) (fun m hm => ?_) (fun m hm => ha t _ hp m hm)
      rw [ptr_congr (s := s) (by simp [State.goTo, acquire_loggers])]; exact hm
    · rename_i l c hp
      cases h
      exact ha.go (t := t) (q := .filterSet l c) rfl (fun m hm => hm) (fun m hm => ha t _ hp m hm)
    · rename_i l c hp
      simp only [Option.map_eq_some_iff] at h
      obtain ⟨old, _, rfl⟩ := h
      refine ha.go (t := t) (q := .idle) (by simp [State.goTo, release_threads]) (fun m hm => ?_) (by simp [Pc.inside])
      rw [ptr_congr (s := { s with loggers := s.loggers.set l (some c) }) (by simp [State.goTo, release_loggers])]
      exact ptr_set hm
    · rename_i dst src hp
      simp only [Option.map_eq_some_iff] at h
      obtain ⟨c, _, rfl⟩ := h
      refine ha.go (t := t) (q := .assignLoaded dst src c) (by simp [State.goTo, acquire_threads]) (fun m hm => ?_) (fun m hm => ha t _ hp m hm)
      rw [ptr_congr (s := s) (by simp [State.goTo, acquire_loggers])]; exact hm
    · rename_i dst src c hp
      simp only [Option.map_eq_some_iff] at h
      obtain ⟨old, _, rfl⟩ := h
      refine ha.go (t := t) (q := .releasing dst (some src) c) (by simp [State.goTo, release_threads, acquire_threads]) (fun m hm => ?_)
        (fun m hm => ha t _ hp m hm)
      rw [ptr_congr (s := { s with loggers := s.loggers.set dst (some c) }) (by simp [State.goTo, release_loggers])]
      exact ptr_set hm
    · rename_i src hp
      simp only [Option.map_eq_some_iff] at h
      obtain ⟨c, _, rfl⟩ := h
      refine ha.go (t := t) (q := .idle) (by simp [State.goTo, acquire_threads]) (fun m hm => ?_) (by simp [Pc.inside])
      exact ptr_append (s := s) hm
    · cases h
    · cases h
  | leave t =>
    simp only [State.act] at h
    split at h
    · rename_i l c hp
      cases h
      exact ha.go (t := t) (q := .releasing l none c) rfl (fun m hm => hm) (fun m hm => ha t _ hp m hm)
    · cases h

theorem alive_run {n : Nat} {cs : List Cmd} {s : State} (h : (State.init n).run cs = some s) : Alive s := by
  have h0 : Alive (State.init n) := by
    intro t p ht l hl
    have := List.eq_of_mem_replicate (List.mem_of_getElem? ht)
    subst this
    simp [Pc.inside] at hl
  generalize State.init n = s0 at h h0
  induction cs generalizing s0 with
  | nil => cases h; exact h0
  | cons c cs ih =>
    simp only [State.run, Option.bind_eq_some_iff] at h
    obtain ⟨m, h1, h2⟩ := h
    exact ih _ h2 (alive_act h0 h1)

theorem threads_act {s s' : State} {cmd : Cmd} (h : s.act cmd = some s') : s'.threads.length = s.threads.length := by
  cases cmd <;> simp only [State.act, State.advance, State.call] at h
  all_goals (repeat' split at h)
  all_goals first | (cases h; done) | skip
  all_goals simp only [Option.some.injEq, Option.map_eq_some_iff] at h
  all_goals first | (obtain ⟨c, _, rfl⟩ := h) | subst h
  all_goals simp [State.goTo, acquire_threads, release_threads]

theorem threads_run {n : Nat} {cs : List Cmd} {s : State} (h : (State.init n).run cs = some s) : s.threads.length = n := by
  have h0 : (State.init n).threads.length = n := by simp [State.init]
  generalize State.init n = s0 at h h0
  induction cs generalizing s0 with
  | nil => cases h; exact h0
  | cons c cs ih =>
    simp only [State.run, Option.bind_eq_some_iff] at h
    obtain ⟨m, h1, h2⟩ := h
    exact ih _ h2 ((threads_act h1).trans h0)

/-- The thread can return from its call by its own steps. -/
def CanReturn (s : State) (t : Nat) : Prop :=
  ∃ k s', s.run (List.replicate k (.step t)) = some s' ∧ s'.threads[t]? = some .idle

theorem CanReturn.idle {s : State} {t : Nat} (h : s.threads[t]? = some .idle) : CanReturn s t := ⟨0, s, rfl, h⟩

theorem CanReturn.step {s s' : State} {t : Nat} (h : s.advance t = some s') (hr : CanReturn s' t) : CanReturn s t := by
  obtain ⟨k, u, h1, h2⟩ := hr
  refine ⟨k + 1, u, ?_, h2⟩
  simp [List.replicate_succ, State.run, State.act, h, h1]

theorem thread_at {s s' : State} {t : Nat} {p q : Pc} (hp : s.threads[t]? = some p) (h : s'.threads = s.threads.set t q) :
    s'.threads[t]? = some q := by
  rw [h, List.getElem?_set_self (List.getElem?_eq_some_iff.1 hp).1]

theorem return_releasing {s : State} {t l c : Nat} {k : Option Nat} (hp : s.threads[t]? = some (.releasing l k c)) :
    CanReturn s t := by
  refine CanReturn.step (s' := (s.release c).goTo t .idle) (by simp [State.advance, hp]) (.idle ?_)
  exact thread_at hp (by simp [State.goTo, release_threads])

theorem return_calling {s : State} {t l c i : Nat} {cfg : Cfg} (hp : s.threads[t]? = some (.calling l c i))
    (hc : s.cfgs[c]? = some cfg) : CanReturn s t := by
  obtain ⟨d, hd⟩ : ∃ d, cfg.handlers - i = d := ⟨_, rfl⟩
  induction d generalizing s i with
  | zero =>
    refine CanReturn.step (s' := s.goTo t (.releasing l none c)) (by simp [State.advance, hp, hc]; omega) ?_
    exact return_releasing (thread_at hp rfl)
  | succ d ih =>
    refine CanReturn.step (s' := { s.goTo t (.calling l c (i + 1)) with trace := s.trace ++ [.use t c] })
      (by simp [State.advance, hp, hc]; omega) ?_
    exact ih (thread_at hp rfl) hc (by omega)

theorem return_any {s : State} {t : Nat} {p : Pc} (hi : Inv s []) (ha : Alive s) (hp : s.threads[t]? = some p) :
    CanReturn s t := by
  have got : ∀ {s : State} {c : Nat}, 0 < holders s c → Inv s [] → ∃ cfg : Cfg, s.cfgs[c]? = some cfg := by
    intro s c h hi
    obtain ⟨cfg, h, -⟩ := hi.get (c := c) (by omega)
    exact ⟨cfg, h⟩
  have ptr : ∀ l ∈ p.inside, ∃ c, s.ptr l = some c := fun l hl => Option.isSome_iff_exists.1 (ha t p hp l hl)
  have loaded : ∀ {s : State} {l c : Nat}, Inv s [] → s.threads[t]? = some (.loaded l c) → CanReturn s t := by
    intro s l c hi hp
    obtain ⟨cfg, hc⟩ := got (holds_pos hp rfl) hi
    refine CanReturn.step (s' := { s.goTo t (.calling l c 0) with trace := s.trace ++ [.use t c] })
      (by simp [State.advance, hp]) ?_
    exact return_calling (thread_at hp rfl) hc
  have filterSet : ∀ {s : State} {l c : Nat}, (s.ptr l).isSome → s.threads[t]? = some (.filterSet l c) → CanReturn s t := by
    intro s l c hl hp
    obtain ⟨old, ho⟩ := Option.isSome_iff_exists.1 hl
    refine CanReturn.step (s' := ({ s with loggers := s.loggers.set l (some c) }.release old).goTo t .idle)
      (by simp [State.advance, hp, ho]) (.idle ?_)
    exact thread_at hp (by simp [State.goTo, release_threads])
  have filterLoaded : ∀ {s : State} {l c : Nat}, (s.ptr l).isSome → s.threads[t]? = some (.filterLoaded l c) →
      CanReturn s t := by
    intro s l c hl hp
    refine CanReturn.step (s' := { s.goTo t (.filterSet l c) with trace := s.trace ++ [.use t c] })
      (by simp [State.advance, hp]) ?_
    exact filterSet (by exact hl) (thread_at hp rfl)
  have assignLoaded : ∀ {s : State} {dst src c : Nat}, (s.ptr dst).isSome → s.threads[t]? = some (.assignLoaded dst src c) →
      CanReturn s t := by
    intro s dst src c hl hp
    obtain ⟨old, ho⟩ := Option.isSome_iff_exists.1 hl
    refine CanReturn.step
      (s' := ({ s.acquire c with loggers := s.loggers.set dst (some c) }.release old).goTo t (.releasing dst (some src) c))
      (by simp [State.advance, hp, ho]) ?_
    exact return_releasing (l := dst) (k := some src) (c := c) (thread_at hp (by simp [State.goTo, release_threads, acquire_threads]))
  cases p with
  | idle => exact .idle hp
  | log l =>
    obtain ⟨c, hc⟩ := ptr l (by simp [Pc.inside])
    have h1 : s.advance t = some ((s.acquire c).goTo t (.loaded l c)) := by simp [State.advance, hp, hc]
    exact CanReturn.step h1 (loaded (l := l) (c := c) (inv_act (cmd := .step t) hi h1) (thread_at hp (by simp [State.goTo, acquire_threads])))
  | loaded l c => exact loaded hi hp
  | calling l c i =>
    obtain ⟨cfg, hc⟩ := got (holds_pos hp rfl) hi
    exact return_calling hp hc
  | releasing l k c => exact return_releasing hp
  | filter l =>
    obtain ⟨c, hc⟩ := ptr l (by simp [Pc.inside])
    refine CanReturn.step (s' := (s.acquire c).goTo t (.filterLoaded l c)) (by simp [State.advance, hp, hc]) ?_
    refine filterLoaded (l := l) (c := c) ?_ (thread_at hp (by simp [State.goTo, acquire_threads]))
    rw [ptr_congr (s := s) (by simp [State.goTo, acquire_loggers]), hc]; rfl
  | filterLoaded l c => exact filterLoaded (ha t _ hp l (by simp [Pc.inside])) hp
  | filterSet l c => exact filterSet (ha t _ hp l (by simp [Pc.inside])) hp
  | assign dst src =>
    obtain ⟨c, hc⟩ := ptr src (by simp [Pc.inside])
    refine CanReturn.step (s' := (s.acquire c).goTo t (.assignLoaded dst src c)) (by simp [State.advance, hp, hc]) ?_
    refine assignLoaded (dst := dst) (src := src) (c := c) ?_ (thread_at hp (by simp [State.goTo, acquire_threads]))
    rw [ptr_congr (s := s) (by simp [State.goTo, acquire_loggers])]
    exact ha t _ hp dst (by simp [Pc.inside])
  | assignLoaded dst src c => exact assignLoaded (ha t _ hp dst (by simp [Pc.inside])) hp
  | move src =>
    obtain ⟨c, hc⟩ := ptr src (by simp [Pc.inside])
    refine CanReturn.step (s' := { (s.acquire c).goTo t .idle with loggers := s.loggers ++ [some c] })
      (by simp [State.advance, hp, hc]) (.idle ?_)
    exact thread_at hp (by simp [State.goTo, acquire_threads])

end Blackhole.Lifetime
