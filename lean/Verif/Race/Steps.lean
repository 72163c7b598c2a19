import Verif.Race.Lemmas

namespace Blackhole.Race

open Spin (Lock State Access Cell Cfg Thread Stage loggersOf access Held Good)
open RootConc (Pc Cmd)

variable {A B H : Type}

def at_ (t : Nat) (es : List Ev) : List Event := es.map fun e => ⟨t, e⟩

theorem plain_acquire (k : Lock) : Plain (.acquire k) := ⟨fun _ e => (by cases e), fun _ _ e => (by cases e)⟩
theorem plain_release (k : Lock) : Plain (.release k) := ⟨fun _ e => (by cases e), fun _ _ e => (by cases e)⟩
theorem plain_meet (l : Nat) : Plain (.meet l) := ⟨fun _ e => (by cases e), fun _ _ e => (by cases e)⟩

theorem goTo_recount_quiet {tr : List Event} {s : State A B H} (h : Ok tr s) {t k : Nat} {f : Nat → Nat} {th : Thread A B}
    (h3 : ∀ c' ∈ configsOf th, c' ∈ configsOf (s.thr t))
    (h4 : ∀ l' ∈ loggersOf th.pc, l' ∈ loggersOf (s.thr t).pc) : Ok tr ((s.recount k f).goTo t th) := by
  refine ok_quiet h (t := t) (th := th) ?_ ?_ ?_ ?_ h3 h4
  · unfold State.recount; split <;> rfl
  · unfold State.recount; split <;> rfl
  · unfold State.recount; split <;> simp [State.goTo, State.setCfg]
  · intro c y hy
    unfold State.recount at hy
    split at hy
    · next x hx =>
      by_cases e : c = k
      · subst e
        simp only [State.goTo, State.setCfg] at hy
        rw [List.getElem?_set_self (List.getElem?_eq_some_iff.mp hx).1] at hy
        cases hy
        exact ⟨x, hx, rfl⟩
      · simp only [State.goTo, State.setCfg] at hy
        rw [List.getElem?_set_ne (Ne.symm e)] at hy
        exact ⟨y, hy, rfl⟩
    · exact ⟨y, hy, rfl⟩

/-- What is known of a thread at a section of logger `l`. -/
theorem ok_pointerStep {tr : List Event} {s s' : State A B H} (h : Ok tr s) {t l : Nat} {new : Option Nat}
    (hheld : (s.thr t).stage.inside = true → ∃ x : Cell, s.cells[l]? = some x ∧ x.lock = some t)
    (hl : l ∈ loggersOf (s.thr t).pc)
    (hnew : ∀ c, new = some c → c ∈ configsOf (⟨(s.thr t).pc, .outside⟩ : Thread A B))
    (ha : s.pointerStep t l new = some s') :
    Ok (tr ++ at_ t (pointerEvents s t l new.isSome)) s' := by
  have inpc : ∀ c, c ∈ configsOf (⟨(s.thr t).pc, .outside⟩ : Thread A B) → c ∈ configsOf (s.thr t) := by
    intro c hc
    simp only [configsOf, List.append_nil] at hc ⊢
    exact List.mem_append_left _ hc
  unfold State.pointerStep at ha
  unfold pointerEvents
  split at ha
  · cases ha
  next x hx =>
  rw [hx]
  cases hst : (s.thr t).stage with
  | outside =>
    simp only [hst] at ha ⊢
    cases hlk : x.lock with
    | some u =>
      simp only [hlk] at ha
      cases ha
      simpa [at_, hlk] using h
    | none =>
      simp only [hlk] at ha
      cases ha
      simp only [if_pos, at_, List.map_cons, List.map_nil]
      refine ok_pointer h hx (.inl (plain_acquire _)) (fun _ _ e => by cases e) ?_ ?_ ?_ (fun _ h => h)
      · intro i hv
        rw [hlk] at hv
        exact Via.acquire hv (fun j u hj => h.thrL t l hl j u hj)
      · exact fun c hc => .inl hc
      · intro c hc
        exact .inl (inpc c (by simpa [configsOf] using hc))
  | locked =>
    obtain ⟨x', hx', hlk⟩ := hheld (by rw [hst]; rfl)
    rw [hx] at hx'
    cases hx'
    simp only [hst] at ha ⊢
    cases ha
    refine ok_pointer h hx (.inr ⟨_, .inl rfl⟩) (fun _ _ _ => ⟨hlk, hlk⟩) (fun i hv => hv.mono) ?_ ?_ (fun _ h => h)
    · intro c hc
      cases hn : new with
      | none => rw [hn] at hc; exact .inl hc
      | some d =>
        rw [hn] at hc
        rcases hc with rfl | hc
        · exact .inr ⟨inpc _ (hnew _ hn), hlk⟩
        · exact .inl (.inr hc)
    · intro c hc
      simp only [configsOf, List.mem_append, List.mem_singleton] at hc
      rcases hc with hc | rfl
      · exact .inl (inpc c (by simpa [configsOf] using hc))
      · exact .inr ⟨.inl rfl, hlk⟩
  | half o =>
    obtain ⟨x', hx', hlk⟩ := hheld (by rw [hst]; rfl)
    rw [hx] at hx'
    cases hx'
    simp only [hst] at ha ⊢
    cases ha
    have ho : o ∈ configsOf (s.thr t) := by simp [configsOf, hst]
    refine ok_pointer h hx (.inr ⟨_, .inr rfl⟩) (fun _ _ _ => ⟨hlk, hlk⟩) (fun i hv => hv.mono) ?_ ?_ (fun _ h => h)
    · intro c hc
      cases hn : new with
      | none => rw [hn] at hc; exact .inl hc
      | some d =>
        rw [hn] at hc
        rcases hc with hc | rfl
        · exact .inl (.inl hc)
        · exact .inr ⟨inpc _ (hnew _ hn), hlk⟩
    · intro c hc
      simp only [configsOf, List.mem_append, List.mem_cons, List.not_mem_nil, or_false] at hc
      rcases hc with hc | rfl | rfl
      · exact .inl (inpc c (by simpa [configsOf] using hc))
      · exact .inl ho
      · exact .inr ⟨.inr rfl, hlk⟩
  | full o k =>
    simp only [hst] at ha ⊢
    simp only [at_, List.map_nil, List.append_nil]
    have key : ∀ b, ∀ c ∈ configsOf (⟨(s.thr t).pc, .ready o k b⟩ : Thread A B), c ∈ configsOf (s.thr t) := by
      intro b c hc
      simp only [configsOf, hst] at hc ⊢
      exact hc
    cases hn : new with
    | none =>
      simp only [hn] at ha
      cases ha
      exact goTo_recount_quiet h (key _) (fun _ h => h)
    | some d =>
      simp only [hn] at ha
      cases ha
      exact goTo_recount_quiet h (key _) (fun _ h => h)
  | ready o k b =>
    obtain ⟨x', hx', hlk⟩ := hheld (by rw [hst]; rfl)
    rw [hx] at hx'
    cases hx'
    simp only [hst] at ha ⊢
    have hok : ∀ c, c = o ∨ c = k → c ∈ configsOf (s.thr t) := by
      rintro c (rfl | rfl) <;> simp [configsOf, hst]
    have rel : ∀ th : Thread A B, (∀ c ∈ configsOf th, c ∈ configsOf (s.thr t)) →
        (∀ l' ∈ loggersOf th.pc, l' ∈ loggersOf (s.thr t).pc) →
        Ok (tr ++ [⟨t, .release (.logger l)⟩]) ((s.setCell l { x with lock := none }).goTo t th) := by
      intro th hc hl'
      refine ok_pointer h hx (.inl (plain_release _)) (fun _ _ e => by cases e) ?_ (fun c hc => .inl hc)
        (fun c hc' => .inl (hc c hc')) hl'
      intro i hv
      rw [hlk] at hv
      exact Via.release hv
    cases hp : (s.thr t).pc with
    | move src =>
      simp only [hp] at ha ⊢
      cases ha
      have h1 := rel ⟨.idle, .outside⟩ (by simp [configsOf]) (by simp [loggersOf])
      have h2 := ok_newLogger h1 (t := t) (o := o) (k := k)
        ⟨by simpa [State.goTo, State.setCell] using (h.thrR t).1 o (hok o (.inl rfl)),
         by simpa [State.goTo, State.setCell] using (h.thrR t).1 k (hok k (.inr rfl))⟩
        (by
          intro c hc i u hi
          rcases get_snoc hi with hi' | ⟨_, _, e⟩
          · exact (h.thrC t c (hok c hc) i u hi').mono
          · cases e)
      simpa [at_, newLogger, State.goTo, State.setCell] using h2
    | log l' b' =>
      simp only [hp] at ha ⊢
      cases ha
      exact rel _ (by intro c hc; simp [configsOf] at hc; exact hok c (.inl hc)) (by simp [loggersOf])
    | filter l' fn =>
      simp only [hp] at ha ⊢
      cases ha
      exact rel _ (by intro c hc; simp [configsOf] at hc; exact hok c (.inl hc)) (by simp [loggersOf, hp])
    | assign dst src =>
      simp only [hp] at ha ⊢
      cases ha
      exact rel _ (by intro c hc; simp [configsOf] at hc; exact hok c (.inl hc)) (by simp [loggersOf, hp])
    | filterSet l' c' =>
      simp only [hp] at ha ⊢
      cases ha
      exact rel _ (by simp [configsOf]) (by simp [loggersOf])
    | assignLoaded dst c' =>
      simp only [hp] at ha ⊢
      cases ha
      exact rel _ (by simp [configsOf]) (by simp [loggersOf])
    | idle => simp only [hp] at ha; cases ha
    | logLoaded _ _ _ => simp only [hp] at ha; cases ha
    | filterLoaded _ _ _ => simp only [hp] at ha; cases ha
  | halfF a => simp only [hst] at ha; cases ha
  | fullF a b => simp only [hst] at ha; cases ha
  | ending c => simp only [hst] at ha; cases ha

theorem ok_done {tr : List Event} {s : State A B H} (h : Ok tr s) (d : List (Spin.Done A B H)) : Ok tr { s with done := d } :=
  ⟨h.ord, h.cellW, h.cellC, h.cfgW, h.thrC, h.thrL, h.newL, h.newC, h.cellR, h.thrR⟩

theorem ok_filterStep {tr : List Event} {s s' : State A B H} (h : Ok tr s) {t c : Nat} {new : Option (A × B)}
    (hheld : (s.thr t).stage.inside = true → ∃ x : Cfg A B H, s.cfgs[c]? = some x ∧ x.lock = some t)
    (hc : c ∈ configsOf (⟨(s.thr t).pc, .outside⟩ : Thread A B))
    (ha : s.filterStep t c new = some s') :
    Ok (tr ++ at_ t (filterEvents s t c new.isSome)) s' := by
  have inpc : ∀ c, c ∈ configsOf (⟨(s.thr t).pc, .outside⟩ : Thread A B) → c ∈ configsOf (s.thr t) := by
    intro c hc
    simp only [configsOf, List.append_nil] at hc ⊢
    exact List.mem_append_left _ hc
  have hmem := inpc c hc
  unfold State.filterStep at ha
  unfold filterEvents
  split at ha
  · cases ha
  next x hx =>
  rw [hx]
  cases hst : (s.thr t).stage with
  | outside =>
    simp only [hst] at ha ⊢
    cases hlk : x.lock with
    | some u =>
      simp only [hlk] at ha
      cases ha
      simpa [at_, hlk] using h
    | none =>
      simp only [hlk] at ha
      cases ha
      simp only [if_pos, at_, List.map_cons, List.map_nil]
      refine ok_filter h hx (.inl (plain_acquire _)) (fun _ _ e => by cases e) ?_ ?_ (fun _ h => h)
      · intro i hv
        rw [hlk] at hv
        exact Via.acquire hv (fun j u hj => h.thrC t c hmem j u hj)
      · intro c' hc'
        exact inpc c' (by simpa [configsOf] using hc')
  | locked =>
    obtain ⟨x', hx', hlk⟩ := hheld (by rw [hst]; rfl)
    rw [hx] at hx'
    cases hx'
    simp only [hst] at ha ⊢
    cases ha
    refine ok_filter h hx (.inr ⟨_, .inl rfl⟩) (fun _ _ _ => ⟨hlk, hlk⟩) (fun i hv => hv.mono) ?_ (fun _ h => h)
    intro c' hc'
    exact inpc c' (by simpa [configsOf] using hc')
  | halfF a =>
    obtain ⟨x', hx', hlk⟩ := hheld (by rw [hst]; rfl)
    rw [hx] at hx'
    cases hx'
    simp only [hst] at ha ⊢
    cases ha
    refine ok_filter h hx (.inr ⟨_, .inr rfl⟩) (fun _ _ _ => ⟨hlk, hlk⟩) (fun i hv => hv.mono) ?_ (fun _ h => h)
    intro c' hc'
    exact inpc c' (by simpa [configsOf] using hc')
  | fullF a b =>
    obtain ⟨x', hx', hlk⟩ := hheld (by rw [hst]; rfl)
    rw [hx] at hx'
    cases hx'
    simp only [hst] at ha ⊢
    have rel : ∀ th : Thread A B, (∀ c ∈ configsOf th, c ∈ configsOf (s.thr t)) →
        (∀ l' ∈ loggersOf th.pc, l' ∈ loggersOf (s.thr t).pc) →
        Ok (tr ++ [⟨t, .release (.config c)⟩]) ((s.setCfg c { x with lock := none }).goTo t th) := by
      intro th hc hl'
      refine ok_filter h hx (.inl (plain_release _)) (fun _ _ e => by cases e) ?_ hc hl'
      intro i hv
      rw [hlk] at hv
      exact Via.release hv
    cases hp : (s.thr t).pc with
    | logLoaded l' b' c' =>
      simp only [hp] at ha ⊢
      cases ha
      have h1 := rel ⟨.idle, .ending c⟩ (by simp [configsOf]) (by simp [loggersOf])
      have h2 := ok_handlers h1 (t := t) (c := c)
        (by simpa [State.goTo, State.setCfg] using (h.thrR t).1 c hmem)
        (by
          intro i u hi
          rcases get_snoc hi with hi' | ⟨_, _, e⟩
          · exact (h.thrC t c hmem i u hi').mono
          · cases e)
      have h3 := ok_done h2 (s.done ++ [⟨l', (a, b), x.handlers⟩])
      simpa [at_, State.goTo, State.setCfg] using h3
    | filterLoaded l' fn c' =>
      simp only [hp] at ha ⊢
      cases ha
      refine rel _ ?_ (by simp [loggersOf, hp])
      intro c'' hc''
      simp [configsOf] at hc''
      rw [hc'']
      exact hmem
    | idle => simp only [hp] at ha; cases ha
    | log _ _ => simp only [hp] at ha; cases ha
    | filter _ _ => simp only [hp] at ha; cases ha
    | filterSet _ _ => simp only [hp] at ha; cases ha
    | assign _ _ => simp only [hp] at ha; cases ha
    | assignLoaded _ _ => simp only [hp] at ha; cases ha
    | move _ => simp only [hp] at ha; cases ha
  | half o => simp only [hst] at ha; cases ha
  | full o k => simp only [hst] at ha; cases ha
  | ready o k b => simp only [hst] at ha; cases ha
  | ending c => simp only [hst] at ha; cases ha

theorem ok_advance {tr : List Event} {s s' : State A B H} (h : Ok tr s) {t : Nat} (hg : Held s t)
    (ha : s.advance t = some s') : Ok (tr ++ step s (.step t)) s' := by
  unfold State.advance at ha
  simp only [step, events]
  split at ha
  · next c hst =>
    cases ha
    have hp := hg.1 c hst
    simp only [hp, access, List.map_nil, List.append_nil]
    exact goTo_recount_quiet h (by simp [configsOf]) (by simp [loggersOf])
  · have hin := hg.2
    cases hp : (s.thr t).pc with
    | idle => simp only [hp, access] at ha; cases ha
    | log l b =>
      simp only [hp, access] at ha hin ⊢
      exact ok_pointerStep h hin (by simp [hp, loggersOf]) (by simp) ha
    | logLoaded l b c =>
      simp only [hp, access] at ha hin ⊢
      exact ok_filterStep h hin (by simp [hp, configsOf]) ha
    | filter l fn =>
      simp only [hp, access] at ha hin ⊢
      exact ok_pointerStep h hin (by simp [hp, loggersOf]) (by simp) ha
    | filterLoaded l fn c =>
      simp only [hp, access] at ha hin ⊢
      exact ok_filterStep h hin (by simp [hp, configsOf]) ha
    | filterSet l c =>
      simp only [hp, access] at ha hin ⊢
      exact ok_pointerStep h hin (by simp [hp, loggersOf]) (by simp [hp, configsOf]) ha
    | assign dst src =>
      simp only [hp, access] at ha hin ⊢
      exact ok_pointerStep h hin (by simp [hp, loggersOf]) (by simp) ha
    | assignLoaded dst c =>
      simp only [hp, access] at ha hin ⊢
      exact ok_pointerStep h hin (by simp [hp, loggersOf]) (by simp [hp, configsOf]) ha
    | move src =>
      simp only [hp, access] at ha hin ⊢
      exact ok_pointerStep h hin (by simp [hp, loggersOf]) (by simp) ha

theorem ok_call {tr : List Event} {s s' : State A B H} (h : Ok tr s) {t : Nat} {p : Pc (A × B)} {ls : List Nat}
    (hls : loggersOf p = ls) (hc : configsOf (⟨p, .outside⟩ : Thread A B) = []) (hr : ∀ l ∈ ls, l < s.cells.length)
    (ha : s.call t p = some s') : Ok (tr ++ at_ t (ls.map .meet)) s' := by
  unfold State.call at ha
  split at ha
  · cases ha
    suffices key : ∀ (ls : List Nat) (tr : List Event), Ok tr s → Ok (tr ++ at_ t (ls.map .meet)) s ∧
        ∀ l ∈ ls, ∀ (i u : Nat), (tr ++ at_ t (ls.map .meet))[i]? = some (⟨u, .make l⟩ : Event) →
          Known (tr ++ at_ t (ls.map .meet)) t i by
      obtain ⟨h1, h2⟩ := key ls tr h
      exact ok_enter h1 hc (fun l hl => ⟨hr l (by rw [← hls]; exact hl), h2 l (by rw [← hls]; exact hl)⟩)
    intro ls
    induction ls with
    | nil => intro tr h; exact ⟨by simpa [at_] using h, fun l hl => by cases hl⟩
    | cons a ls ih =>
      intro tr h
      have e : tr ++ at_ t ((a :: ls).map .meet) = (tr ++ [⟨t, .meet a⟩]) ++ at_ t (ls.map .meet) := by simp [at_]
      obtain ⟨h1, h2⟩ := ih (tr ++ [⟨t, .meet a⟩]) (ok_plain h (plain_meet a))
      rw [e]
      refine ⟨h1, fun l hl i u hi => ?_⟩
      rcases List.mem_cons.mp hl with rfl | hl
      · have nomake : ∀ (ls : List Nat) (tr : List Event), (tr ++ at_ t (ls.map .meet))[i]? = some (⟨u, .make l⟩ : Event) →
            tr[i]? = some (⟨u, .make l⟩ : Event) := by
          intro ls
          induction ls with
          | nil => intro tr h; simpa [at_] using h
          | cons b ls ih =>
            intro tr hi
            have e : tr ++ at_ t ((b :: ls).map .meet) = (tr ++ [⟨t, .meet b⟩]) ++ at_ t (ls.map .meet) := by simp [at_]
            rw [e] at hi
            rcases get_snoc (ih _ hi) with h' | ⟨_, _, h'⟩
            · exact h'
            · cases h'
        rcases get_snoc (nomake ls _ hi) with h' | ⟨_, _, h'⟩
        · exact (Known.meet h').mono
        · cases h'
      · exact h2 l hl i u hi
  · cases ha

theorem ok_act {tr : List Event} {s s' : State A B H} (h : Ok tr s) (hg : Good s) {c : Cmd (A × B) H}
    (hn : ∀ l ∈ named c, l < s.cells.length) (ha : s.act c = some s') : Ok (tr ++ step s c) s' := by
  cases c with
  | construct t f hs =>
    simp only [State.act] at ha
    split at ha
    · cases ha
      have h1 := ok_newConfig h (t := t) (y := ⟨f.1, f.2, hs, none, 1⟩) rfl
      have h2 := ok_newLogger h1 (t := t) (o := s.cfgs.length) (k := s.cfgs.length) (by simp)
        (by
          intro c hc i u hi
          have hc : c = s.cfgs.length := by rcases hc with hc | hc <;> exact hc
          rcases get_snoc3 hi with hi' | ⟨rfl, _⟩
          · exact absurd (h.newC i u c true (.inr (.inr hi'))) (by omega)
          · exact ⟨i, _, hi, .inl rfl⟩)
      simpa [step, events, newLogger] using h2
    · cases ha
  | log t l => exact ok_call h (ls := [l]) rfl rfl hn ha
  | filter t l f => exact ok_call h (ls := [l]) rfl rfl hn ha
  | assign t dst src =>
    simp only [State.act] at ha
    simp only [step, events]
    split at ha
    · next e => cases ha; simpa [e] using h
    · next e =>
      rw [if_neg e]
      exact ok_call h (ls := [dst, src]) rfl rfl hn ha
  | move t src => exact ok_call h (ls := [src]) rfl rfl hn ha
  | step t =>
    obtain ⟨g, hR, -⟩ := hg
    exact ok_advance h (hR.held t) ha

theorem ok_run {cs : List (Cmd (A × B) H)} : ∀ {tr : List Event} {s s' : State A B H}, Ok tr s → Good s →
    Constructed s cs → s.run cs = some s' → Ok (tr ++ trace s cs) s' := by
  induction cs with
  | nil =>
    intro tr s s' h _ _ hr
    cases hr
    simpa [trace] using h
  | cons c cs ih =>
    intro tr s s' h hg hc hr
    simp only [State.run, Option.bind_eq_some_iff] at hr
    obtain ⟨m, h1, h2⟩ := hr
    have := ih (ok_act h hg hc.1 h1) (hg.act h1) (hc.2 m h1) h2
    simpa [trace, h1, List.append_assoc] using this

end Blackhole.Race
