import Verif.Reenter.Trace

/-! # Callbacks that use the library again: the calls of an execution -/

namespace Blackhole.Reenter

/-- The calls on a stack, newest first, with what each has to do; a call that runs user code has this first. -/
def pending : List Frame → List (Nat × List Instr)
  | [] => []
  | .usr w :: .lib n is :: rest => (n, .user w :: is) :: pending rest
  | .usr _ :: rest => pending rest
  | .lib n is :: rest => (n, is) :: pending rest

def ids (st : List Frame) : List Nat := (pending st).map Prod.fst

/-- Call `n` is going on and will be complete. -/
def Open (H : Nat → List HandlerKind) (s : State) (n : Nat) (is : List Instr) : Prop :=
  (∀ w ∈ history s n, w.isEnd = false) ∧
    ∃ a, ∀ fs, Future H is fs → Complete (fun c => (H c).length) a (history s n ++ fs)

structure Calls (H : Nat → List HandlerKind) (s : State) : Prop where
  handlers : ∀ c, (s.cfgs c).handlers = H c
  fresh : ∀ e ∈ s.trace, e.call < s.next
  below : ∀ t, ∀ n ∈ ids (s.stack t), n < s.next
  sorted : ∀ t, (ids (s.stack t)).Pairwise (· > ·)
  owner : ∀ t u n, n ∈ ids (s.stack t) → n ∈ ids (s.stack u) → t = u
  live : ∀ t n is, (n, is) ∈ pending (s.stack t) → Open H s n is
  dead : ∀ n, n < s.next → (∀ t, n ∉ ids (s.stack t)) → ∃ a, Complete (fun c => (H c).length) a (history s n)
  nested : ∀ a b t n x, s.trace = a ++ ⟨t, n, .called x⟩ :: b →
    (∃ e ∈ b, e.call = n ∧ e.what.isEnd = true) ∨ (n ∈ ids (s.stack t) ∧ ∀ e ∈ b, e.thread = t → n ≤ e.call)

variable {H : Nat → List HandlerKind}

theorem history_say {s s' : State} {t n m : Nat} {w : What} (h : s'.trace = s.trace ++ [⟨t, n, w⟩]) :
    history s' m = if m = n then history s m ++ [w] else history s m := by
  simp only [history, h, List.filter_append, List.map_append]
  by_cases hm : m = n
  · subst hm; simp
  · simp [hm, Ne.symm hm]

theorem history_same {s s' : State} (h : s'.trace = s.trace) (m : Nat) : history s' m = history s m := by
  simp [history, h]

theorem cut_snoc {α : Type} {l a b : List α} {x y : α} (h : l ++ [x] = a ++ y :: b) :
    (b = [] ∧ l = a ∧ x = y) ∨ ∃ b', b = b' ++ [x] ∧ l = a ++ y :: b' := by
  rcases List.eq_nil_or_concat b with rfl | ⟨b', z, rfl⟩
  · have := List.append_inj' h rfl
    simp at this
    exact .inl ⟨rfl, this.1, this.2⟩
  · right
    have h' : l ++ [x] = (a ++ y :: b') ++ [z] := by rw [h]; simp
    have := List.append_inj' h' rfl
    simp at this
    exact ⟨b', by simp [this.2], this.1⟩

/-- A step of the newest call of a thread that does not end it. -/
theorem calls_advance {s s' : State} {t n : Nat} {is is' : List Instr} {st' : List Frame} {ps : List (Nat × List Instr)}
    (hc : Calls H s) (hp : pending (s.stack t) = (n, is) :: ps) (hp' : pending st' = (n, is') :: ps)
    (hst : s'.stack = upd s.stack t st') (hn : s'.next = s.next) (hh : ∀ c, (s'.cfgs c).handlers = (s.cfgs c).handlers)
    (ws : List What) (hw : ∀ w ∈ ws, w.isEnd = false ∧ ∀ a, w ≠ .called a) (hl : ws.length ≤ 1)
    (htr : s'.trace = s.trace ++ ws.map (fun w => ⟨t, n, w⟩))
    (hf : ∀ fs, Future H is' fs → Future H is (ws ++ fs)) : Calls H s' := by
  have hids : ∀ u, ids (s'.stack u) = ids (s.stack u) := by
    intro u
    by_cases hu : u = t
    · subst hu; simp [ids, hst, hp, hp']
    · simp [hst, upd_ne _ _ hu]
  have hmem : n ∈ ids (s.stack t) := by simp [ids, hp]
  have hhist : ∀ m, history s' m = if m = n then history s m ++ ws else history s m := by
    intro m
    match ws, hl, htr with
    | [], _, htr => rw [history_same (s := s) (by simpa using htr)]; simp
    | [w], _, htr => exact history_say (by simpa using htr)
  refine ⟨fun c => (hh c).trans (hc.handlers c), ?_, ?_, ?_, ?_, ?_, ?_, ?_⟩
  · intro e he
    rw [htr, List.mem_append] at he
    rw [hn]
    rcases he with he | he
    · exact hc.fresh e he
    · obtain ⟨w, -, rfl⟩ := List.mem_map.1 he
      exact hc.below t n hmem
  · intro u m hm; rw [hids] at hm; rw [hn]; exact hc.below u m hm
  · intro u; rw [hids]; exact hc.sorted u
  · intro u v m h1 h2; rw [hids] at h1 h2; exact hc.owner u v m h1 h2
  · intro u m js hm
    have hother : ∀ js', (m, js') ∈ pending (s.stack u) → m ≠ n → Open H s' m js' := by
      intro js' h1 h2
      obtain ⟨o1, a, o2⟩ := hc.live u m js' h1
      exact ⟨by rw [hhist, if_neg h2]; exact o1, a, by rw [hhist, if_neg h2]; exact o2⟩
    by_cases hu : u = t
    · subst hu
      rw [hst, upd_same, hp'] at hm
      rcases List.mem_cons.1 hm with hm | hm
      · obtain ⟨rfl, rfl⟩ := Prod.mk.injEq .. ▸ hm
        obtain ⟨o1, a, o2⟩ := hc.live u m is (by rw [hp]; simp)
        refine ⟨?_, a, ?_⟩
        · rw [hhist, if_pos rfl]
          intro w hw'
          rcases List.mem_append.1 hw' with hw' | hw'
          · exact o1 w hw'
          · exact (hw w hw').1
        · intro fs h
          rw [hhist, if_pos rfl, List.append_assoc]
          exact o2 _ (hf fs h)
      · refine hother js (by rw [hp]; simp [hm]) ?_
        intro hmn
        have := hc.sorted u
        simp only [ids, hp, List.map_cons, List.pairwise_cons] at this
        have := this.1 m (List.mem_map.2 ⟨(m, js), hm, rfl⟩)
        omega
    · rw [hst, upd_ne _ _ hu] at hm
      refine hother js hm ?_
      rintro rfl
      exact hu (hc.owner u t m (List.mem_map.2 ⟨_, hm, rfl⟩) hmem)
  · intro m h1 h2
    rw [hn] at h1
    have h3 : ∀ u, m ∉ ids (s.stack u) := fun u => by rw [← hids]; exact h2 u
    have h4 : m ≠ n := by rintro rfl; exact h3 t hmem
    rw [hhist, if_neg h4]
    exact hc.dead m h1 h3
  · intro a b u m x hcut
    match ws, hl, hw, htr with
    | [], _, _, htr =>
      rw [htr] at hcut
      simpa only [hids] using hc.nested a b u m x (by simpa using hcut)
    | [w], _, hw, htr =>
      rw [htr] at hcut
      rcases cut_snoc (by simpa using hcut) with ⟨-, -, h⟩ | ⟨b', rfl, h⟩
      · simp only [Ev.mk.injEq] at h
        exact absurd h.2.2 ((hw w (by simp)).2 x)
      · rcases hc.nested a b' u m x h with ⟨e, he, h1⟩ | ⟨h1, h2⟩
        · exact .inl ⟨e, by simp [he], h1⟩
        · right
          refine ⟨by rw [hids]; exact h1, ?_⟩
          intro e he heu
          rcases List.mem_append.1 he with he | he
          · exact h2 e he heu
          · simp at he
            subst he
            simp only at heu ⊢
            subst heu
            have := hc.sorted t
            simp only [ids, hp, List.map_cons, List.pairwise_cons] at this h1
            rcases List.mem_cons.1 h1 with rfl | h1
            · exact Nat.le_refl _
            · exact Nat.le_of_lt (this.1 m h1)

/-- The end of the newest call of a thread. -/
theorem calls_end {s s' : State} {t n : Nat} {is : List Instr} {st' : List Frame} {ps : List (Nat × List Instr)} {w : What}
    (hc : Calls H s) (hp : pending (s.stack t) = (n, is) :: ps) (hp' : pending st' = ps)
    (hst : s'.stack = upd s.stack t st') (hn : s'.next = s.next) (hh : ∀ c, (s'.cfgs c).handlers = (s.cfgs c).handlers)
    (hw : w.isEnd = true) (htr : s'.trace = s.trace ++ [⟨t, n, w⟩]) (hf : Future H is [w]) : Calls H s' := by
  have hmem : n ∈ ids (s.stack t) := by simp [ids, hp]
  have hsort := hc.sorted t
  simp only [ids, hp, List.map_cons, List.pairwise_cons] at hsort
  have hids : ∀ u m, m ∈ ids (s'.stack u) ↔ m ∈ ids (s.stack u) ∧ m ≠ n := by
    intro u m
    by_cases hu : u = t
    · subst hu
      simp only [ids, hst, upd_same, hp', hp, List.map_cons, List.mem_cons]
      constructor
      · intro h
        exact ⟨.inr h, fun e => absurd (hsort.1 m h) (by omega)⟩
      · rintro ⟨rfl | h, h'⟩
        · exact absurd rfl h'
        · exact h
    · rw [hst, upd_ne _ _ hu]
      exact ⟨fun h => ⟨h, fun e => hu (hc.owner u t n (e ▸ h) hmem)⟩, fun h => h.1⟩
  have hhist : ∀ m, history s' m = if m = n then history s m ++ [w] else history s m := fun m => history_say htr
  refine ⟨fun c => (hh c).trans (hc.handlers c), ?_, ?_, ?_, ?_, ?_, ?_, ?_⟩
  · intro e he
    rw [htr, List.mem_append] at he
    rw [hn]
    rcases he with he | he
    · exact hc.fresh e he
    · simp at he; subst he; exact hc.below t n hmem
  · intro u m hm; rw [hn]; exact hc.below u m ((hids u m).1 hm).1
  · intro u
    by_cases hu : u = t
    · subst hu; simp only [ids, hst, upd_same, hp']; exact hsort.2
    · rw [hst, upd_ne _ _ hu]; exact hc.sorted u
  · intro u v m h1 h2; exact hc.owner u v m ((hids u m).1 h1).1 ((hids v m).1 h2).1
  · intro u m js hm
    have hne := ((hids u m).1 (List.mem_map.2 ⟨_, hm, rfl⟩)).2
    have hm' : (m, js) ∈ pending (s.stack u) := by
      by_cases hu : u = t
      · subst hu; rw [hst, upd_same, hp'] at hm; rw [hp]; simp [hm]
      · rwa [hst, upd_ne _ _ hu] at hm
    obtain ⟨o1, a, o2⟩ := hc.live u m js hm'
    exact ⟨by rw [hhist, if_neg hne]; exact o1, a, by rw [hhist, if_neg hne]; exact o2⟩
  · intro m h1 h2
    rw [hn] at h1
    by_cases hm : m = n
    · subst hm
      obtain ⟨-, a, o2⟩ := hc.live t m is (by rw [hp]; simp)
      exact ⟨a, by rw [hhist, if_pos rfl]; exact o2 _ hf⟩
    · rw [hhist, if_neg hm]
      refine hc.dead m h1 (fun u hu => h2 u ((hids u m).2 ⟨hu, hm⟩))
  · intro a b u m x hcut
    rw [htr] at hcut
    rcases cut_snoc hcut with ⟨-, -, h⟩ | ⟨b', rfl, h⟩
    · simp only [Ev.mk.injEq] at h
      rw [h.2.2] at hw
      simp [What.isEnd] at hw
    · by_cases hm : m = n
      · subst hm
        exact .inl ⟨⟨t, m, w⟩, by simp, rfl, hw⟩
      · rcases hc.nested a b' u m x h with ⟨e, he, h1⟩ | ⟨h1, h2⟩
        · exact .inl ⟨e, by simp [he], h1⟩
        · right
          refine ⟨(hids u m).2 ⟨h1, hm⟩, ?_⟩
          intro e he heu
          rcases List.mem_append.1 he with he | he
          · exact h2 e he heu
          · simp at he
            subst he
            simp only at heu ⊢
            subst heu
            simp only [ids, hp, List.map_cons] at h1
            rcases List.mem_cons.1 h1 with rfl | h1
            · exact Nat.le_refl _
            · exact Nat.le_of_lt (hsort.1 m h1)

theorem calls_init (cells : Nat → Nat) (cfgs : Nat → Cfg) :
    Calls (fun c => (cfgs c).handlers) (State.init cells cfgs) :=
  ⟨fun _ => rfl, by simp [State.init], by simp [State.init, ids, pending], by simp [State.init, ids, pending],
    by simp [State.init, ids, pending], by simp [State.init, pending], by simp [State.init], by simp [State.init]⟩

theorem calls_call {s : State} {t : Nat} {a : Api} (hc : Calls H s) : Calls H (s.call t a) := by
  simp only [State.call]
  split
  · rename_i w rest he
    generalize hs' : State.put _ t _ = s'
    have hst : s'.stack = upd s.stack t (.lib s.next a.code :: .usr w :: rest) := by rw [← hs']; rfl
    have htr : s'.trace = s.trace ++ [⟨t, s.next, .called a⟩] := by rw [← hs']; rfl
    have hn : s'.next = s.next + 1 := by rw [← hs']; rfl
    have hcf : s'.cfgs = s.cfgs := by rw [← hs']; rfl
    have hp : pending (s'.stack t) = (s.next, a.code) :: pending (s.stack t) := by rw [hst, upd_same, he]; rfl
    have hids : ∀ u m, m ∈ ids (s'.stack u) ↔ m ∈ ids (s.stack u) ∨ (u = t ∧ m = s.next) := by
      intro u m
      by_cases hu : u = t
      · subst hu; simp [ids, hp, or_comm]
      · rw [hst, upd_ne _ _ hu]; simp [hu]
    have hhist : ∀ m, history s' m = if m = s.next then history s m ++ [.called a] else history s m :=
      fun m => history_say htr
    have hnil : history s s.next = [] := by
      simp only [history, List.map_eq_nil_iff, List.filter_eq_nil_iff, decide_eq_true_eq]
      intro e he' h
      exact absurd (hc.fresh e he') (by omega)
    refine ⟨by rw [hcf]; exact hc.handlers, ?_, ?_, ?_, ?_, ?_, ?_, ?_⟩
    · intro e he'
      rw [htr, List.mem_append] at he'
      rw [hn]
      rcases he' with he' | he'
      · exact Nat.lt_succ_of_lt (hc.fresh e he')
      · simp at he'; subst he'; simp
    · intro u m hm
      rw [hn]
      rcases (hids u m).1 hm with h | ⟨-, rfl⟩
      · exact Nat.lt_succ_of_lt (hc.below u m h)
      · omega
    · intro u
      by_cases hu : u = t
      · subst hu
        simp only [ids, hp, List.map_cons, List.pairwise_cons]
        exact ⟨fun m hm => hc.below u m hm, hc.sorted u⟩
      · rw [hst, upd_ne _ _ hu]; exact hc.sorted u
    · intro u v m h1 h2
      rcases (hids u m).1 h1 with h1 | ⟨rfl, rfl⟩
      · rcases (hids v m).1 h2 with h2 | ⟨rfl, rfl⟩
        · exact hc.owner u v m h1 h2
        · exact absurd (hc.below _ _ h1) (by omega)
      · rcases (hids v s.next).1 h2 with h2 | ⟨rfl, -⟩
        · exact absurd (hc.below _ _ h2) (by omega)
        · rfl
    · intro u m js hm
      have hold : (m, js) ∈ pending (s.stack u) → Open H s' m js := by
        intro h
        have hlt := hc.below u m (List.mem_map.2 ⟨_, h, rfl⟩)
        obtain ⟨o1, a', o2⟩ := hc.live u m js h
        have hne : m ≠ s.next := by omega
        exact ⟨by rw [hhist, if_neg hne]; exact o1, a', by rw [hhist, if_neg hne]; exact o2⟩
      by_cases hu : u = t
      · subst hu
        rw [hp] at hm
        rcases List.mem_cons.1 hm with hm | hm
        · obtain ⟨rfl, rfl⟩ := Prod.mk.injEq .. ▸ hm
          refine ⟨by rw [hhist, if_pos rfl, hnil]; simp [What.isEnd], a, ?_⟩
          intro fs h
          rw [hhist, if_pos rfl, hnil]
          exact future_api a h
        · exact hold hm
      · rw [hst, upd_ne _ _ hu] at hm
        exact hold hm
    · intro m h1 h2
      have h3 : m ≠ s.next := fun e => h2 t ((hids t m).2 (.inr ⟨rfl, e⟩))
      rw [hhist, if_neg h3]
      exact hc.dead m (by omega) (fun u hu => h2 u ((hids u m).2 (.inl hu)))
    · intro p b u m x hcut
      rw [htr] at hcut
      rcases cut_snoc hcut with ⟨rfl, -, h⟩ | ⟨b', rfl, h⟩
      · simp only [Ev.mk.injEq] at h
        exact .inr ⟨(hids u m).2 (.inr ⟨h.1.symm, h.2.1.symm⟩), by simp⟩
      · rcases hc.nested p b' u m x h with ⟨e, he', h1⟩ | ⟨h1, h2⟩
        · exact .inl ⟨e, by simp [he'], h1⟩
        · right
          refine ⟨(hids u m).2 (.inl h1), ?_⟩
          intro e he' heu
          rcases List.mem_append.1 he' with he' | he'
          · exact h2 e he' heu
          · simp at he'
            subst he'
            exact Nat.le_of_lt (hc.below u m h1)
  · exact hc

theorem calls_ret {s : State} {t : Nat} {r : Reply} (hc : Calls H s) : Calls H (s.ret t r) := by
  simp only [State.ret]
  split
  · rename_i w n is rest he
    split
    · exact hc
    · rename_i hr
      have hr : r = .throws → w.mayThrow = true := by
        intro h; cases hm : w.mayThrow <;> simp_all
      have hp : pending (s.stack t) = (n, .user w :: is) :: pending rest := by rw [he]; rfl
      by_cases hw : ∃ f, w = .filter f
      · obtain ⟨f, rfl⟩ := hw
        exact calls_advance hc hp (st' := .lib n (resume r is) :: rest) rfl rfl rfl (fun _ => rfl) [.verdict f r]
          (by simp [What.isEnd]) (by simp) rfl (fun fs h => .filter h)
      · have hw : ∀ f, w ≠ .filter f := fun f h => hw ⟨f, h⟩
        have hnote : s.note t n r w = s := by cases w <;> first | rfl | exact absurd rfl (hw _)
        rw [hnote]
        exact calls_advance hc hp (st' := .lib n (resume r is) :: rest) rfl rfl rfl (fun _ => rfl) [] (by simp) (by simp)
          (by simp [State.put]) (fun fs h => .user hw hr h)
  · exact hc

theorem calls_exec {s : State} {t n : Nat} {fails : Bool} {i : Instr} {is : List Instr} {rest : List Frame} (hc : Calls H s)
    (he : s.stack t = .lib n (i :: is) :: rest) : Calls H (s.exec t n fails i is rest) := by
  have hp : pending (s.stack t) = (n, i :: is) :: pending rest := by rw [he]; rfl
  have silent : ∀ {s' : State} {js : List Instr}, s'.stack = upd s.stack t (.lib n js :: rest) → s'.next = s.next →
      s'.trace = s.trace → (∀ c, (s'.cfgs c).handlers = (s.cfgs c).handlers) →
      (∀ fs, Future H js fs → Future H (i :: is) fs) → Calls H s' := by
    intro s' js h1 h2 h3 h4 h5
    exact calls_advance hc hp rfl h1 h2 h4 [] (by simp) (by simp) (by simpa using h3) h5
  have loud : ∀ {s' : State} {js : List Instr} {w : What}, s'.stack = upd s.stack t (.lib n js :: rest) →
      s'.next = s.next → s'.trace = s.trace ++ [⟨t, n, w⟩] → (∀ c, (s'.cfgs c).handlers = (s.cfgs c).handlers) → w.isEnd = false → (∀ a, w ≠ .called a) →
      (∀ fs, Future H js fs → Future H (i :: is) (w :: fs)) → Calls H s' := by
    intro s' js w h1 h2 h3 h4 h5 h6 h7
    exact calls_advance hc hp rfl h1 h2 h4 [w] (by simpa using ⟨h5, h6⟩) (by simp) (by simpa using h3) h7
  cases i with
  | lock m =>
    simp only [State.exec]
    split
    · exact silent rfl rfl rfl (fun _ => rfl) (fun fs h => .lock h)
    · exact hc
  | unlock m =>
    simp only [State.exec]
    split
    · exact silent rfl rfl rfl (fun _ => rfl) (fun fs h => .unlock h)
    · exact silent rfl rfl rfl (fun _ => rfl) (fun fs h => .unlock h)
  | user w =>
    exact calls_advance hc hp (st' := .usr w :: .lib n is :: rest) (is' := .user w :: is) rfl rfl rfl (fun _ => rfl) []
      (by simp) (by simp) (by simp [State.exec, State.put]) (fun fs h => h)
  | io =>
    simp only [State.exec]
    split
    · exact silent rfl rfl rfl (fun _ => rfl) (fun fs h => .ioFails h)
    · exact silent rfl rfl rfl (fun _ => rfl) (fun fs h => .io h)
  | load l => exact loud rfl rfl rfl (fun _ => rfl) rfl (by simp) (fun fs h => .load h)
  | copy c => exact loud rfl rfl rfl (fun _ => rfl) rfl (by simp) (fun fs h => .copy (by rw [← hc.handlers c]; exact h))
  | ask f hs => exact silent rfl rfl rfl (fun _ => rfl) (fun fs h => .ask h)
  | deliver hs => exact silent rfl rfl rfl (fun _ => rfl) (fun fs h => .deliver h)
  | handle i => exact loud rfl rfl rfl (fun _ => rfl) rfl (by simp) (fun fs h => .handle h)
  | caught i => exact loud rfl rfl rfl (fun _ => rfl) rfl (by simp) (fun fs h => .caught h)
  | report i => exact loud rfl rfl rfl (fun _ => rfl) rfl (by simp) (fun fs h => .report h)
  | emit tty => exact silent rfl rfl rfl (fun _ => rfl) (fun fs h => .emit h)
  | loadFilter l f => exact loud rfl rfl rfl (fun _ => rfl) rfl (by simp) (fun fs h => .loadFilter h)
  | setFilter c f =>
    refine loud rfl rfl rfl ?_ rfl (by simp) (fun fs h => .setFilter h)
    intro c'
    simp only [State.exec, State.put, State.say, upd]
    split
    · rename_i h; subst h; rfl
    · rfl
  | loadAssign dst src => exact loud rfl rfl rfl (fun _ => rfl) rfl (by simp) (fun fs h => .loadAssign h)
  | store l c => exact loud rfl rfl rfl (fun _ => rfl) rfl (by simp) (fun fs h => .store h)
  | rethrow => exact calls_end hc hp rfl rfl rfl (fun _ => rfl) rfl rfl .rethrow

theorem calls_tick {s : State} {t : Nat} {fails : Bool} (hc : Calls H s) : Calls H (s.tick t fails) := by
  simp only [State.tick]
  split
  · rename_i n rest he
    exact calls_end hc (is := []) (ps := pending rest) (by rw [he]; rfl) rfl rfl rfl (fun _ => rfl) rfl rfl .done
  · rename_i n i is rest he
    exact calls_exec hc he
  · exact hc

theorem calls_run {s : State} (cs : List Cmd) (hc : Calls H s) : Calls H (s.run cs) := by
  induction cs generalizing s with
  | nil => exact hc
  | cons c cs ih =>
    refine ih ?_
    cases c with
    | call t a => exact calls_call hc
    | ret t r => exact calls_ret hc
    | tick t fails => exact calls_tick hc

end Blackhole.Reenter
