import Verif.Lifetime.Spec

/-! # The count is the number of holders -/

namespace Blackhole.Lifetime

/-- How many have the configuration. -/
def holders (s : State) (c : Nat) : Nat := s.loggers.count (some c) + (s.threads.map Pc.holds).count (some c)

/-- The invariant, with `x` the pointers that are on their way from one holder to another. -/
structure Inv (s : State) (x : List Nat) : Prop where
  count : ∀ (c : Nat) (cfg : Cfg), s.cfgs[c]? = some cfg → cfg.count = holders s c + x.count c
  bounded : ∀ c, 0 < holders s c + x.count c → c < s.cfgs.length
  dead : ∀ c, Ev.destroyed c ∈ s.trace ↔ ∃ cfg : Cfg, s.cfgs[c]? = some cfg ∧ cfg.count = 0
  good : ∀ a t c b, s.trace = a ++ .use t c :: b → Ev.destroyed c ∉ a
  once : ∀ c, s.trace.count (.destroyed c) ≤ 1

theorem Inv.get {s : State} {x : List Nat} (hi : Inv s x) {c : Nat} (h : 0 < holders s c + x.count c) :
    ∃ cfg : Cfg, s.cfgs[c]? = some cfg ∧ 0 < cfg.count := by
  have hb := hi.bounded c h
  exact ⟨s.cfgs[c], List.getElem?_eq_getElem hb, by rw [hi.count c _ (List.getElem?_eq_getElem hb)]; exact h⟩

theorem Inv.alive {s : State} {x : List Nat} (hi : Inv s x) {c : Nat} (h : 0 < holders s c + x.count c) :
    Ev.destroyed c ∉ s.trace := by
  rw [hi.dead]
  rintro ⟨cfg, h1, h2⟩
  rw [hi.count c cfg h1] at h2
  omega

theorem Inv.acquire {s : State} {x : List Nat} (hi : Inv s x) {c : Nat} (h : 0 < holders s c + x.count c) :
    Inv (s.acquire c) (c :: x) := by
  obtain ⟨cfg, hc, hpos⟩ := hi.get h
  have hlt := (List.getElem?_eq_some_iff.1 hc).1
  unfold State.acquire
  rw [hc]
  refine ⟨?_, ?_, ?_, hi.good, hi.once⟩
  · intro d cfg' hd
    simp only [List.getElem?_set] at hd
    by_cases hcd : c = d
    · subst hcd
      rw [if_pos rfl, if_pos hlt] at hd
      cases hd
      have := hi.count c cfg hc
      simp only [List.count_cons_self]
      show cfg.count + 1 = holders s c + _
      omega
    · rw [if_neg hcd] at hd
      have := hi.count d cfg' hd
      rw [List.count_cons_of_ne hcd]
      exact this
  · intro d hd
    simp only [List.length_set]
    by_cases hcd : c = d
    · exact hcd ▸ hlt
    · rw [List.count_cons_of_ne hcd] at hd
      exact hi.bounded d hd
  · intro d
    rw [hi.dead d]
    simp only [List.getElem?_set]
    by_cases hcd : c = d
    · subst hcd
      simp only [if_true, hlt]
      constructor
      · rintro ⟨cfg', h1, h2⟩
        rw [hc] at h1; cases h1; omega
      · rintro ⟨cfg', h1, h2⟩
        cases h1
        simp at h2
    · simp only [if_neg hcd]

theorem Inv.release {s : State} {x : List Nat} {c : Nat} (hi : Inv s (c :: x)) : Inv (s.release c) x := by
  obtain ⟨cfg, hc, hpos⟩ := hi.get (c := c) (by simp; omega)
  have hlt := (List.getElem?_eq_some_iff.1 hc).1
  have hal := hi.alive (c := c) (by simp; omega)
  have hcount := hi.count c cfg hc
  simp only [List.count_cons_self] at hcount
  unfold State.release
  rw [hc]
  refine ⟨?_, ?_, ?_, ?_, ?_⟩
  · intro d cfg' hd
    simp only [List.getElem?_set] at hd
    by_cases hcd : c = d
    · subst hcd
      rw [if_pos rfl, if_pos hlt] at hd
      cases hd
      show cfg.count - 1 = holders s c + _
      omega
    · rw [if_neg hcd] at hd
      have := hi.count d cfg' hd
      rw [List.count_cons_of_ne hcd] at this
      exact this
  · intro d hd
    simp only [List.length_set]
    by_cases hcd : c = d
    · exact hcd ▸ hlt
    · have := hi.bounded d
      rw [List.count_cons_of_ne hcd] at this
      exact this hd
  · intro d
    have hdead := hi.dead d
    simp only [List.getElem?_set]
    by_cases hcd : c = d
    · subst hcd
      simp only [if_true, hlt]
      by_cases h1 : cfg.count = 1
      · simp only [h1, if_true]
        simp
      · simp only [h1, if_false]
        constructor
        · intro h; exact absurd h hal
        · rintro ⟨cfg', h2, h3⟩
          cases h2
          simp at h3
          omega
    · simp only [if_neg hcd]
      rw [← hdead]
      by_cases h1 : cfg.count = 1
      · simp only [h1, if_true]
        simp only [List.mem_append, List.mem_singleton, Ev.destroyed.injEq]
        constructor
        · rintro (h | h)
          · exact h
          · exact absurd h.symm hcd
        · exact .inl
      · simp only [h1, if_false]
  · intro a t d b hab
    dsimp only at hab
    split at hab
    · rcases List.eq_nil_or_concat b with hb | ⟨b', y, hb⟩
      · subst hb
        have h1 := congrArg List.getLast? hab
        simp at h1
      · subst hb
        have : s.trace = a ++ .use t d :: b' := by
          rw [List.concat_eq_append, ← List.cons_append, ← List.append_assoc] at hab
          exact (List.append_inj' hab rfl).1
        exact hi.good a t d b' this
    · exact hi.good a t d b hab
  · intro d
    have := hi.once d
    dsimp only
    split
    · by_cases hcd : c = d
      · subst hcd
        rw [List.count_append, List.count_eq_zero.2 hal]
        simp
      · rw [List.count_append]
        have : List.count (Ev.destroyed d) [Ev.destroyed c] = 0 := by
          rw [List.count_eq_zero]; simp; exact fun h => hcd h.symm
        omega
    · exact this

/-- A thread moves on, and pointers go between it and `x`. -/
theorem Inv.goTo {s : State} {x y : List Nat} (hi : Inv s x) {t : Nat} {p q : Pc} (ht : s.threads[t]? = some p)
    (hxy : ∀ c, [p.holds].count (some c) + x.count c = [q.holds].count (some c) + y.count c) : Inv (s.goTo t q) y := by
  have hlt := (List.getElem?_eq_some_iff.1 ht).1
  have hH : ∀ c, holders (s.goTo t q) c + y.count c = holders s c + x.count c := by
    intro c
    have := hxy c
    have hp : (s.threads.map Pc.holds)[t]'(by simpa using hlt) = p.holds := by
      simp [(List.getElem?_eq_some_iff.1 ht).2]
    have hle : [p.holds].count (some c) ≤ (s.threads.map Pc.holds).count (some c) := by
      rw [List.count_singleton]
      split
      · rename_i hpc
        have : p.holds = some c := by simpa using hpc
        exact List.count_pos_iff.2 (List.mem_map.2 ⟨p, List.mem_of_getElem? ht, this⟩)
      · exact Nat.zero_le _
    unfold holders State.goTo
    simp only [List.map_set]
    rw [List.count_set (by simpa using hlt), hp]
    rw [List.count_singleton] at this hle
    rw [List.count_singleton] at this
    omega
  exact ⟨fun c cfg hc => by rw [hH]; exact hi.count c cfg hc, fun c hc => hi.bounded c (by rw [hH] at hc; exact hc),
    hi.dead, hi.good, hi.once⟩

/-- A logger gets another pointer. -/
theorem Inv.setLogger {s : State} {x y : List Nat} (hi : Inv s x) {l : Nat} {o o' : Option Nat} (hl : s.loggers[l]? = some o)
    (hxy : ∀ c, [o].count (some c) + x.count c = [o'].count (some c) + y.count c) :
    Inv { s with loggers := s.loggers.set l o' } y := by
  have hlt := (List.getElem?_eq_some_iff.1 hl).1
  have hH : ∀ c, holders { s with loggers := s.loggers.set l o' } c + y.count c = holders s c + x.count c := by
    intro c
    have := hxy c
    have hp : s.loggers[l]'hlt = o := (List.getElem?_eq_some_iff.1 hl).2
    have hle : [o].count (some c) ≤ s.loggers.count (some c) := by
      rw [List.count_singleton]
      split
      · rename_i hpc
        have : o = some c := by simpa using hpc
        exact List.count_pos_iff.2 (this ▸ List.mem_of_getElem? hl)
      · exact Nat.zero_le _
    unfold holders
    simp only
    rw [List.count_set hlt, hp]
    rw [List.count_singleton] at this hle
    rw [List.count_singleton] at this
    omega
  exact ⟨fun c cfg hc => by rw [hH]; exact hi.count c cfg hc, fun c hc => hi.bounded c (by rw [hH] at hc; exact hc),
    hi.dead, hi.good, hi.once⟩

/-- A new logger takes a pointer. -/
theorem Inv.addLogger {s : State} {x : List Nat} {c : Nat} (hi : Inv s (c :: x)) :
    Inv { s with loggers := s.loggers ++ [some c] } x := by
  have hH : ∀ d, holders { s with loggers := s.loggers ++ [some c] } d + x.count d = holders s d + (c :: x).count d := by
    intro d
    unfold holders
    simp only [List.count_append]
    rw [List.count_singleton, List.count_cons]
    have : ((some c == some d) = true) ↔ ((c == d) = true) := by simp
    by_cases h : c = d <;> simp [h] <;> omega
  exact ⟨fun d cfg hd => by rw [hH]; exact hi.count d cfg hd, fun d hd => hi.bounded d (by rw [hH] at hd; exact hd),
    hi.dead, hi.good, hi.once⟩

/-- Somebody who has a configuration looks into it. -/
theorem Inv.use {s : State} {x : List Nat} (hi : Inv s x) {t c : Nat} (h : 0 < holders s c + x.count c) :
    Inv { s with trace := s.trace ++ [.use t c] } x := by
  refine ⟨hi.count, hi.bounded, ?_, ?_, ?_⟩
  · intro d; rw [← hi.dead d]; simp
  · intro a u d b hab
    rcases List.eq_nil_or_concat b with hb | ⟨b', y, hb⟩
    · subst hb
      obtain ⟨h1, h2⟩ := List.append_inj' hab rfl
      cases h2
      rw [← h1]
      exact hi.alive h
    · subst hb
      have : s.trace = a ++ .use u d :: b' := by
        rw [List.concat_eq_append, ← List.cons_append, ← List.append_assoc] at hab
        exact (List.append_inj' hab rfl).1
      exact hi.good a u d b' this
  · intro d
    have := hi.once d
    simp [List.count_append]
    exact this

theorem holds_pos {s : State} {t : Nat} {p : Pc} {c : Nat} (ht : s.threads[t]? = some p) (hp : p.holds = some c) :
    0 < holders s c := by
  unfold holders
  have : 0 < (s.threads.map Pc.holds).count (some c) :=
    List.count_pos_iff.2 (List.mem_map.2 ⟨p, List.mem_of_getElem? ht, hp⟩)
  omega

theorem ptr_eq {s : State} {l c : Nat} (h : s.ptr l = some c) : s.loggers[l]? = some (some c) := by
  unfold State.ptr at h
  cases hl : s.loggers[l]? with
  | none => rw [hl] at h; cases h
  | some o => rw [hl] at h; cases h; rfl

theorem ptr_pos {s : State} {l c : Nat} (h : s.ptr l = some c) : 0 < holders s c := by
  unfold holders
  have : 0 < s.loggers.count (some c) := List.count_pos_iff.2 (List.mem_of_getElem? (ptr_eq h))
  omega

theorem acquire_threads (s : State) (c : Nat) : (s.acquire c).threads = s.threads := by
  unfold State.acquire; split <;> rfl

theorem acquire_loggers (s : State) (c : Nat) : (s.acquire c).loggers = s.loggers := by
  unfold State.acquire; split <;> rfl

theorem release_threads (s : State) (c : Nat) : (s.release c).threads = s.threads := by
  unfold State.release; split <;> rfl

theorem Inv.construct {s : State} (hi : Inv s []) (h : Nat) :
    Inv { s with cfgs := s.cfgs ++ [{ count := 1, handlers := h }], loggers := s.loggers ++ [some s.cfgs.length] } [] := by
  have h0 : holders s s.cfgs.length = 0 := by
    have := hi.bounded s.cfgs.length
    simp at this
    omega
  have hH : ∀ d, holders (State.mk (s.cfgs ++ [{ count := 1, handlers := h }]) (s.loggers ++ [some s.cfgs.length])
      s.threads s.trace) d = holders s d + if s.cfgs.length = d then 1 else 0 := by
    intro d
    unfold holders
    simp only [List.count_append, List.count_singleton]
    by_cases hd : s.cfgs.length = d <;> simp [hd] <;> omega
  refine ⟨?_, ?_, ?_, hi.good, hi.once⟩
  · intro d cfg hd
    rw [hH]
    rw [List.getElem?_append] at hd
    split at hd
    · rename_i hlt
      rw [if_neg (by omega)]
      have := hi.count d cfg hd
      simpa using this
    · rename_i hlt
      have hd' : d - s.cfgs.length = 0 := by
        have := (List.getElem?_eq_some_iff.1 hd).1
        simpa using this
      have : d = s.cfgs.length := by omega
      subst this
      simp at hd
      subst hd
      simp [h0]
  · intro d hd
    rw [hH] at hd
    simp only [List.length_append, List.length_singleton]
    by_cases hdd : s.cfgs.length = d
    · omega
    · rw [if_neg hdd] at hd
      have := hi.bounded d (by simpa using hd)
      omega
  · intro d
    rw [hi.dead d]
    rw [List.getElem?_append]
    split
    · rfl
    · rename_i hlt
      constructor
      · rintro ⟨cfg, h1, _⟩
        have := (List.getElem?_eq_some_iff.1 h1).1
        omega
      · rintro ⟨cfg, h1, h2⟩
        have hd' := (List.getElem?_eq_some_iff.1 h1).1
        have : d - s.cfgs.length = 0 := by simpa using hd'
        rw [this] at h1
        simp at h1
        subst h1
        simp at h2

theorem inv_act {s s' : State} (hi : Inv s []) {cmd : Cmd} (h : s.act cmd = some s') : Inv s' [] := by
  have hcall : ∀ t p, p.holds = none → s.call t p = some s' → Inv s' [] := by
    intro t p hp hc
    unfold State.call at hc
    split at hc
    · rename_i hh
      cases hc
      exact hi.goTo hh.1 (by intro c; rw [hp]; rfl)
    · cases hc
  cases cmd with
  | construct t n =>
    simp only [State.act] at h
    split at h
    · cases h; exact hi.construct n
    · cases h
  | log t l => exact hcall t _ rfl h
  | filter t l => exact hcall t _ rfl h
  | assign t dst src =>
    simp only [State.act] at h
    split at h
    · cases h; exact hi
    · exact hcall t _ rfl h
  | move t src => exact hcall t _ rfl h
  | destroy t l =>
    simp only [State.act] at h
    split at h
    · cases hp : s.ptr l with
      | none => rw [hp] at h; cases h
      | some c =>
        rw [hp] at h; cases h
        exact (hi.setLogger (y := [c]) (ptr_eq hp) (by intro d; simp [List.count_singleton])).release
    · cases h
  | leave t =>
    simp only [State.act] at h
    split at h
    · rename_i l c ht
      cases h
      exact hi.goTo ht (by intro d; rfl)
    · cases h
  | step t =>
    simp only [State.act, State.advance] at h
    split at h
    · rename_i l ht
      cases hp : s.ptr l with
      | none => rw [hp] at h; cases h
      | some c =>
        rw [hp] at h; cases h
        exact (hi.acquire (c := c) (by have := ptr_pos hp; simpa using this)).goTo (by rw [acquire_threads]; exact ht)
          (by intro d; simp [Pc.holds, List.count_singleton])
    · rename_i l c ht
      cases h
      have hi' := hi.goTo (q := .calling l c 0) (y := []) ht (by intro d; rfl)
      refine (hi'.use (t := t) (c := c) ?_)
      have := holds_pos (s := s.goTo t (.calling l c 0)) (t := t) (p := .calling l c 0) (c := c) (by
        have hlt := (List.getElem?_eq_some_iff.1 ht).1
        simp [State.goTo, List.getElem?_set, hlt]) rfl
      omega
    · rename_i l c i ht
      split at h
      · split at h
        · cases h
          have hi' := hi.goTo (q := .calling l c (i + 1)) (y := []) ht (by intro d; rfl)
          refine (hi'.use (t := t) (c := c) ?_)
          have := holds_pos (s := s.goTo t (.calling l c (i + 1))) (t := t) (p := .calling l c (i + 1)) (c := c) (by
            have hlt := (List.getElem?_eq_some_iff.1 ht).1
            simp [State.goTo, List.getElem?_set, hlt]) rfl
          omega
        · cases h
          exact hi.goTo ht (by intro d; rfl)
      · cases h
    · rename_i l k c ht
      cases h
      have hi' : Inv (s.goTo t .idle) [c] := hi.goTo ht (by intro d; simp [Pc.holds, List.count_singleton])
      have := hi'.release
      have he : (s.goTo t .idle).release c = (s.release c).goTo t .idle := by
        unfold State.release State.goTo; dsimp only; split <;> rfl
      rw [← he]; exact this
    · rename_i l ht
      cases hp : s.ptr l with
      | none => rw [hp] at h; cases h
      | some c =>
        rw [hp] at h; cases h
        exact (hi.acquire (c := c) (by have := ptr_pos hp; simpa using this)).goTo (by rw [acquire_threads]; exact ht)
          (by intro d; simp [Pc.holds, List.count_singleton])
    · rename_i l c ht
      cases h
      have hi' := hi.goTo (q := .filterSet l c) (y := []) ht (by intro d; rfl)
      refine (hi'.use (t := t) (c := c) ?_)
      have := holds_pos (s := s.goTo t (.filterSet l c)) (t := t) (p := .filterSet l c) (c := c) (by
        have hlt := (List.getElem?_eq_some_iff.1 ht).1
        simp [State.goTo, List.getElem?_set, hlt]) rfl
      omega
    · rename_i l c ht
      cases hp : s.ptr l with
      | none => rw [hp] at h; cases h
      | some old =>
        rw [hp] at h; cases h
        have h1 : Inv (s.goTo t .idle) [c] := hi.goTo ht (by intro d; simp [Pc.holds, List.count_singleton])
        have h2 := (h1.setLogger (l := l) (o := some old) (o' := some c) (y := [old]) (by
          simpa [State.goTo] using ptr_eq hp) (by intro d; simp [List.count_singleton]; omega)).release
        have he : ({ s.goTo t .idle with loggers := (s.goTo t .idle).loggers.set l (some c) } : State).release old =
            ({ s with loggers := s.loggers.set l (some c) }.release old).goTo t .idle := by
          unfold State.release State.goTo; dsimp only; split <;> rfl
        show Inv (({ s with loggers := s.loggers.set l (some c) }.release old).goTo t .idle) []
        rw [← he]; exact h2
    · rename_i dst src ht
      cases hp : s.ptr src with
      | none => rw [hp] at h; cases h
      | some c =>
        rw [hp] at h; cases h
        exact (hi.acquire (c := c) (by have := ptr_pos hp; simpa using this)).goTo (by rw [acquire_threads]; exact ht)
          (by intro d; simp [Pc.holds, List.count_singleton])
    · rename_i dst src c ht
      cases hp : s.ptr dst with
      | none => rw [hp] at h; cases h
      | some old =>
        rw [hp] at h; cases h
        have h1 : Inv (s.acquire c) [c] := hi.acquire (by have := holds_pos ht rfl; simpa using this)
        have h2 := (h1.setLogger (l := dst) (o := some old) (o' := some c) (y := [old]) (by
          rw [acquire_loggers]; exact ptr_eq hp) (by intro d; simp [List.count_singleton]; omega)).release
        rw [acquire_loggers] at h2
        refine h2.goTo (p := .assignLoaded dst src c) ?_ (by intro d; rfl)
        rw [release_threads]
        show (s.acquire c).threads[t]? = _
        rw [acquire_threads]; exact ht
    · rename_i src ht
      cases hp : s.ptr src with
      | none => rw [hp] at h; cases h
      | some c =>
        rw [hp] at h; cases h
        have h1 : Inv (s.acquire c) [c] := hi.acquire (by have := ptr_pos hp; simpa using this)
        have h2 : Inv ((s.acquire c).goTo t .idle) [c] := h1.goTo (by rw [acquire_threads]; exact ht) (by intro d; rfl)
        have h3 := h2.addLogger
        have he : ((s.acquire c).goTo t .idle).loggers = s.loggers := by
          show (s.acquire c).loggers = _
          exact acquire_loggers s c
        rw [he] at h3
        exact h3
    · cases h
    · cases h

theorem inv_run {n : Nat} {cs : List Cmd} {s : State} (h : (State.init n).run cs = some s) : Inv s [] := by
  have h0 : Inv (State.init n) [] := by
    refine ⟨by simp [State.init], ?_, by simp [State.init], by simp [State.init], by simp [State.init]⟩
    intro c hc
    simp [State.init, holders, List.count_eq_zero, List.map_replicate, List.count_replicate, Pc.holds] at hc
  generalize State.init n = s0 at h h0
  induction cs generalizing s0 with
  | nil => cases h; exact h0
  | cons c cs ih =>
    simp only [State.run] at h
    cases hc : s0.act c with
    | none => rw [hc] at h; cases h
    | some t => rw [hc] at h; exact ih t h (inv_act h0 hc)

theorem holders_pos_iff {s : State} {c : Nat} : 0 < holders s c ↔ InUse s c := by
  unfold holders InUse
  constructor
  · intro h
    by_cases h1 : 0 < s.loggers.count (some c)
    · left
      exact List.mem_iff_getElem?.1 (List.count_pos_iff.1 h1)
    · right
      have h2 : 0 < (s.threads.map Pc.holds).count (some c) := by omega
      obtain ⟨p, hp, hc⟩ := List.mem_map.1 (List.count_pos_iff.1 h2)
      obtain ⟨t, ht⟩ := List.mem_iff_getElem?.1 hp
      exact ⟨t, p, ht, hc⟩
  · rintro (⟨l, hl⟩ | ⟨t, p, ht, hp⟩)
    · have : 0 < s.loggers.count (some c) := List.count_pos_iff.2 (List.mem_of_getElem? hl)
      omega
    · have : 0 < (s.threads.map Pc.holds).count (some c) :=
        List.count_pos_iff.2 (List.mem_map.2 ⟨p, List.mem_of_getElem? ht, hp⟩)
      omega

end Blackhole.Lifetime
