import Verif.Spin.Props

/-!
# C84: the counts of the pointers to a configuration are exact

`count` of a configuration is what `std::shared_ptr` keeps. Here it is compared with the pointers that exist: those of the
loggers, and those in the local variables, parameters and temporary objects of calls that have not returned.
-/

namespace Blackhole.Spin

open RootConc (Pc Cmd)

variable {A B H : Type}

/-- One pointer to `k`, as pointers to `c` are counted. -/
def one (k c : Nat) : Nat := if k = c then 1 else 0

/-- How many pointers to configuration `c` a thread has. In `load` it has none until the copy is counted; an assignment then has
two, its local variable and the parameter of `store`. In `store` it has its parameter until both words are exchanged, and the old
pointer of the logger from then on until that is given up; an assignment has its local variable as well. -/
def owns (p : Thread A B) (c : Nat) : Nat :=
  match p.stage with
  | .ending k => one k c
  | _ =>
    match p.pc with
    | .idle => 0
    | .log _ _ | .filter _ _ | .move _ =>
      match p.stage with
      | .ready _ k _ => one k c
      | _ => 0
    | .assign _ _ =>
      match p.stage with
      | .ready _ k _ => one k c + one k c
      | _ => 0
    | .logLoaded _ _ k => one k c
    | .filterLoaded _ _ k => one k c
    | .filterSet _ k =>
      match p.stage with
      | .full _ old => one old c
      | .ready _ _ _ => 0
      | _ => one k c
    | .assignLoaded _ k =>
      match p.stage with
      | .full _ old => one k c + one old c
      | .ready _ _ _ => one k c
      | _ => one k c + one k c

/-- The sum of `f` over the first `n` threads. -/
def total (f : Nat → Nat) : Nat → Nat
  | 0 => 0
  | n + 1 => total f n + f n

/-- How many loggers point to configuration `c`. -/
def loggersAt (s : State A B H) (c : Nat) : Nat := (s.cells.filter fun x => x.ctl = c).length

/-- The number of pointers to `c` that exist, if only the first `n` threads are used. -/
def pointers (s : State A B H) (n c : Nat) : Nat := loggersAt s c + total (fun u => owns (s.thr u) c) n

theorem total_congr {f g : Nat → Nat} : ∀ {n : Nat}, (∀ u, u < n → f u = g u) → total f n = total g n
  | 0, _ => rfl
  | n + 1, h => by
    simp only [total]
    rw [total_congr (n := n) fun u hu => h u (by omega), h n (by omega)]

theorem total_swap {f g : Nat → Nat} {t : Nat} (h : ∀ u, u ≠ t → g u = f u) : ∀ {n : Nat}, t < n →
    total g n + f t = total f n + g t
  | 0, hn => by omega
  | n + 1, hn => by
    simp only [total]
    by_cases he : t = n
    · subst he
      rw [total_congr (f := g) (g := f) fun u hu => h u (by omega)]
      omega
    · have := total_swap h (n := n) (by omega)
      rw [h n (by omega)]
      omega

theorem total_le {f : Nat → Nat} {t : Nat} : ∀ {n : Nat}, t < n → f t ≤ total f n
  | 0, hn => by omega
  | n + 1, hn => by
    simp only [total]
    by_cases he : t = n
    · subst he; omega
    · have := total_le (f := f) (n := n) (t := t) (by omega); omega

/-- How many of the loggers point to `c`, after one of them was set. -/
theorem set_count {l : Nat} {x x' : Cell} (c : Nat) : ∀ {cells : List Cell}, cells[l]? = some x →
    ((cells.set l x').filter fun y => y.ctl = c).length + one x.ctl c =
      (cells.filter fun y => y.ctl = c).length + one x'.ctl c := by
  intro cells
  induction cells generalizing l with
  | nil => intro h; simp at h
  | cons y ys ih =>
    intro h
    cases l with
    | zero =>
      simp at h; subst h
      simp only [List.set_cons_zero, List.filter_cons, one]
      by_cases h1 : y.ctl = c <;> by_cases h2 : x'.ctl = c <;> simp [h1, h2] <;> omega
    | succ l =>
      simp at h
      have := ih h
      simp only [List.set_cons_succ, List.filter_cons]
      by_cases h1 : y.ctl = c <;> simp [h1] at this ⊢ <;> omega

theorem countOf_set {s : State A B H} {k : Nat} {x x' : Cfg A B H} (hx : s.cfgs[k]? = some x) (c : Nat) :
    (s.setCfg k x').countOf c = if k = c then x'.count else s.countOf c := by
  unfold State.countOf State.setCfg
  simp only [List.getElem?_set]
  have hl : k < s.cfgs.length := (List.getElem?_eq_some_iff.1 hx).1
  by_cases h : k = c
  · subst h; simp [hl]
  · simp [h]

theorem countOf_recount {s : State A B H} {k : Nat} (hk : k < s.cfgs.length) (f : Nat → Nat) (c : Nat) :
    (s.recount k f).countOf c = if k = c then f (s.countOf c) else s.countOf c := by
  have hx : s.cfgs[k]? = some s.cfgs[k] := List.getElem?_eq_getElem hk
  unfold State.recount
  rw [hx]
  simp only
  rw [countOf_set hx]
  by_cases h : k = c
  · subst h; simp [State.countOf, hx]
  · simp [h]

/-- The counts are those of the pointers that exist. -/
def Counted (s : State A B H) (n : Nat) : Prop := ∀ c, s.countOf c = pointers s n c

/-- A step of one thread keeps the counts right if it changes the counts as it changes the pointers. -/
theorem Counted.step {s s' : State A B H} {n t : Nat} (h : Counted s n) (ht : t < n) (ho : ∀ u, u ≠ t → s'.thr u = s.thr u)
    (hb : ∀ c, s'.countOf c + loggersAt s c + owns (s.thr t) c = s.countOf c + loggersAt s' c + owns (s'.thr t) c) :
    Counted s' n := by
  intro c
  have h1 := h c
  have h2 := hb c
  have h3 := total_swap (f := fun u => owns (s.thr u) c) (g := fun u => owns (s'.thr u) c) (t := t)
    (fun u hu => by simp only [ho u hu]) ht
  simp only [pointers] at h1 ⊢
  omega

theorem countOf_goTo (s : State A B H) (t : Nat) (p : Thread A B) (c : Nat) : (s.goTo t p).countOf c = s.countOf c := rfl

theorem loggersAt_goTo (s : State A B H) (t : Nat) (p : Thread A B) (c : Nat) : loggersAt (s.goTo t p) c = loggersAt s c := rfl

theorem countOf_setCell (s : State A B H) (l : Nat) (x : Cell) (c : Nat) : (s.setCell l x).countOf c = s.countOf c := rfl

theorem one_self (k : Nat) : one k k = 1 := by simp [one]

theorem loggersAt_setCell {s : State A B H} {l : Nat} {x x' : Cell} (hx : s.cells[l]? = some x) (c : Nat) :
    loggersAt (s.setCell l x') c + one x.ctl c = loggersAt s c + one x'.ctl c := set_count c hx

theorem loggersAt_recount (s : State A B H) (k : Nat) (f : Nat → Nat) (c : Nat) : loggersAt (s.recount k f) c = loggersAt s c := by
  unfold loggersAt; rw [recount_cells]

theorem Counted.positive {s : State A B H} {n t c : Nat} (h : Counted s n) (ht : t < n) (ho : 0 < owns (s.thr t) c) :
    0 < s.countOf c := by
  have h1 := h c
  have h2 := total_le (f := fun u => owns (s.thr u) c) ht
  simp only [pointers] at h1 h2
  omega

theorem countOf_lt {s : State A B H} {c : Nat} (h : 0 < s.countOf c) : c < s.cfgs.length := by
  unfold State.countOf at h
  cases hx : s.cfgs[c]? with
  | none => rw [hx] at h; simp at h
  | some x => exact (List.getElem?_eq_some_iff.1 hx).1

/-- `owns` reads nothing but where the thread is. -/
theorem owns_eq {s : State A B H} {t : Nat} {pc : Pc (A × B)} {st : Stage A B} (hp : (s.thr t).pc = pc)
    (hst : (s.thr t).stage = st) (c : Nat) : owns (s.thr t) c = owns ⟨pc, st⟩ c := by
  subst hp; subst hst; rfl

/-- Steps that change words of a logger, but no count. -/
theorem Counted.cell {s : State A B H} {n t l : Nat} {x x' : Cell} {p : Thread A B} (hC : Counted s n) (ht : t < n)
    (hx : s.cells[l]? = some x) (hb : ∀ c, one x.ctl c + owns (s.thr t) c = one x'.ctl c + owns p c) :
    Counted ((s.setCell l x').goTo t p) n := by
  refine hC.step ht (fun u hu => goTo_other _ _ hu) fun c => ?_
  rw [countOf_goTo, loggersAt_goTo, goTo_same, countOf_setCell]
  have := loggersAt_setCell (x' := x') hx c
  have := hb c
  omega

theorem Counted.move {s : State A B H} {n t l : Nat} {x x' : Cell} {p : Thread A B} (hC : Counted s n) (ht : t < n)
    (hx : s.cells[l]? = some x) (e : x'.ctl = x.ctl) (y : Cell) (hb : ∀ c, owns (s.thr t) c = one y.ctl c + owns p c) :
    Counted { (s.setCell l x').goTo t p with cells := (s.setCell l x').cells ++ [y] } n := by
  refine hC.step ht (fun u hu => goTo_other _ _ hu) fun c => ?_
  have h1 := loggersAt_setCell (x' := x') hx c
  have h2 := hb c
  have h3 : loggersAt { (s.setCell l x').goTo t p with cells := (s.setCell l x').cells ++ [y] } c
      = loggersAt (s.setCell l x') c + one y.ctl c := by
    simp only [loggersAt, List.filter_append, List.length_append, one]
    by_cases h : y.ctl = c <;> simp [h]
  have h4 : State.countOf { (s.setCell l x').goTo t p with cells := (s.setCell l x').cells ++ [y] } c = s.countOf c := rfl
  have h5 : (({ (s.setCell l x').goTo t p with cells := (s.setCell l x').cells ++ [y] } : State A B H).thr t) = p :=
    goTo_same _ _ _
  rw [h3, h4, h5]
  rw [e] at h1
  omega

/-- Steps that count a pointer or give one up. -/
theorem Counted.counts {s : State A B H} {n t k : Nat} {f : Nat → Nat} {p : Thread A B} (hC : Counted s n) (ht : t < n)
    (hk : k < s.cfgs.length) (hb : ∀ c, c ≠ k → owns (s.thr t) c = owns p c)
    (he : f (s.countOf k) + owns (s.thr t) k = s.countOf k + owns p k) :
    Counted ((s.recount k f).goTo t p) n := by
  refine hC.step ht (fun u hu => by rw [goTo_other _ _ hu, recount_thr]) fun c => ?_
  rw [countOf_goTo, loggersAt_goTo, goTo_same, loggersAt_recount, countOf_recount hk]
  by_cases h : k = c
  · subst h; simp; omega
  · have := hb c (Ne.symm h)
    simp [h]; omega

theorem pointerStep_counted {s s' : State A B H} {n t l : Nat} (hG : Good s) (hC : Counted s n) (ht : t < n)
    {new : Option Nat} (hacc : access (s.thr t).pc = (match new with | none => .load l | some c => .store l c))
    (hs : s.pointerStep t l new = some s') : Counted s' n := by
  unfold State.pointerStep at hs
  split at hs
  · cases hs
  next x hx =>
  split at hs
  · next hst =>
    split at hs
    · cases hs; exact hC
    · cases hs
      refine hC.cell ht hx fun c => ?_
      cases hp : (s.thr t).pc <;> rw [owns_eq hp hst] <;> simp [owns]
  · next hst =>
    cases hs
    refine hC.cell ht hx fun c => ?_
    cases hp : (s.thr t).pc <;> rw [owns_eq hp hst] <;> simp [owns]
  · next o hst =>
    cases hs
    refine hC.cell ht hx fun c => ?_
    cases new <;> cases hp : (s.thr t).pc <;> simp [hp, access] at hacc <;> (obtain ⟨rfl, rfl⟩ := hacc) <;>
      rw [owns_eq hp hst] <;> simp [owns] <;> omega
  · next o k hst =>
    have ⟨_, hk⟩ := hG.pointer (.inl hst)
    subst o
    split at hs
    · cases hs
      refine hC.counts ht hk (fun c hc => ?_) ?_
      · cases hp : (s.thr t).pc <;> simp [hp, access] at hacc <;> rw [owns_eq hp hst] <;> simp [owns, one, Ne.symm hc]
      · cases hp : (s.thr t).pc <;> simp [hp, access] at hacc <;> rw [owns_eq hp hst] <;> simp [owns, one, copies]
    · cases hs
      refine hC.counts ht hk (fun c hc => ?_) ?_
      · cases hp : (s.thr t).pc <;> simp [hp, access] at hacc <;> rw [owns_eq hp hst] <;> simp [owns, one, Ne.symm hc]
      · have : 0 < owns (s.thr t) k := by
          cases hp : (s.thr t).pc <;> simp [hp, access] at hacc <;> rw [owns_eq hp hst] <;> simp [owns, one]
        have := hC.positive ht this
        cases hp : (s.thr t).pc <;> simp [hp, access] at hacc <;> rw [owns_eq hp hst] <;> simp [owns, one] <;> omega
  · next o k d hst =>
    have ⟨hok, hk⟩ := hG.pointer (.inr ⟨d, hst⟩)
    subst o
    simp only at hs
    split at hs <;> (try cases hs) <;> rename_i hp
    · exact hC.cell ht hx fun c => by rw [owns_eq hp hst]; simp [owns]
    · exact hC.cell ht hx fun c => by rw [owns_eq hp hst]; simp [owns]
    · exact hC.cell ht hx fun c => by rw [owns_eq hp hst]; simp [owns]
    · exact hC.move ht hx (x' := { x with lock := none }) rfl _ fun c => by rw [owns_eq hp hst]; simp [owns]
    · exact hC.cell ht hx fun c => by rw [owns_eq hp hst]; simp [owns]
    · exact hC.cell ht hx fun c => by rw [owns_eq hp hst]; simp [owns]
  · cases hs

/-- Steps that change a configuration, but not its count. -/
theorem Counted.cfg {s s' : State A B H} {n t k : Nat} {x x' : Cfg A B H} {p : Thread A B} (hC : Counted s n) (ht : t < n)
    (hx : s.cfgs[k]? = some x) (e1 : s'.cfgs = s.cfgs.set k x') (e2 : s'.cells = s.cells) (e3 : s'.thr = (s.goTo t p).thr)
    (e : x'.count = x.count) (hb : ∀ c, owns (s.thr t) c = owns p c) : Counted s' n := by
  refine hC.step ht (fun u hu => by rw [e3]; exact goTo_other _ _ hu) fun c => ?_
  have h1 : s'.countOf c = s.countOf c := by
    have := countOf_set (x' := x') hx c
    have h2 : s'.countOf c = (s.setCfg k x').countOf c := by simp only [State.countOf, State.setCfg, e1]
    rw [h2, this]
    split
    · next h => subst h; rw [e]; simp [State.countOf, hx]
    · rfl
  have h4 : loggersAt s' c = loggersAt s c := by simp only [loggersAt, e2]
  rw [h1, e3, goTo_same, h4, hb c]

theorem filterStep_counted {s s' : State A B H} {n t k : Nat} (hC : Counted s n) (ht : t < n)
    {new : Option (A × B)} (hacc : access (s.thr t).pc = (match new with | none => .read k | some f => .write k f))
    (hs : s.filterStep t k new = some s') : Counted s' n := by
  unfold State.filterStep at hs
  split at hs
  · cases hs
  next x hx =>
  split at hs
  · next hst =>
    split at hs
    · cases hs; exact hC
    · cases hs
      refine hC.cfg ht hx rfl rfl rfl rfl (fun c => ?_)
      cases hp : (s.thr t).pc <;> rw [owns_eq hp hst] <;> simp [owns]
  · next hst =>
    cases hs
    refine hC.cfg ht hx rfl rfl rfl rfl (fun c => ?_)
    cases hp : (s.thr t).pc <;> rw [owns_eq hp hst] <;> simp [owns]
  · next hst =>
    cases hs
    refine hC.cfg ht hx rfl rfl rfl rfl (fun c => ?_)
    cases hp : (s.thr t).pc <;> rw [owns_eq hp hst] <;> simp [owns]
  · next hst =>
    simp only at hs
    split at hs <;> (try cases hs) <;> rename_i hp
    · refine hC.cfg ht hx rfl rfl rfl rfl (fun c => ?_)
      cases new <;> simp [hp, access] at hacc
      rw [owns_eq hp hst]; simp [owns, hacc]
    · refine hC.cfg ht hx rfl rfl rfl rfl (fun c => ?_)
      cases new <;> simp [hp, access] at hacc
      rw [owns_eq hp hst]; simp [owns, hacc]
  · cases hs

theorem advance_counted {s s' : State A B H} {n t : Nat} (hG : Good s) (hC : Counted s n) (ht : t < n)
    (hs : s.advance t = some s') : Counted s' n := by
  unfold State.advance at hs
  split at hs
  · next k hst =>
    cases hs
    have h1 : ∀ c, owns (s.thr t) c = one k c := fun c => by simp [owns, hst]
    have h2 : 0 < s.countOf k := hC.positive ht (by rw [h1, one_self]; omega)
    refine hC.counts ht (countOf_lt h2) (fun c hc => ?_) ?_
    · rw [h1]; simp [owns, one, Ne.symm hc]
    · rw [h1, one_self]; simp only [owns]; omega
  · split at hs
    · cases hs
    · next l ha => exact pointerStep_counted hG hC ht (by rw [ha]) hs
    · next l c ha => exact pointerStep_counted hG hC ht (by rw [ha]) hs
    · next c ha => exact filterStep_counted hC ht (by rw [ha]) hs
    · next c f ha => exact filterStep_counted hC ht (by rw [ha]) hs

theorem act_counted {s s' : State A B H} {n : Nat} {x : Cmd (A × B) H} (hG : Good s) (hC : Counted s n) (ht : x.thread < n)
    (hs : s.act x = some s') : Counted s' n := by
  have hcall {t : Nat} {p : Pc (A × B)} (ht : t < n) (hp : ∀ c, owns (⟨p, .outside⟩ : Thread A B) c = 0)
      (h : s.call t p = some s') : Counted s' n := by
    obtain ⟨h1, rfl⟩ := call_some h
    refine hC.step ht (fun u hu => goTo_other _ _ hu) fun c => ?_
    rw [countOf_goTo, loggersAt_goTo, goTo_same, hp, h1]
    rfl
  cases x with
  | construct t f h =>
    simp only [State.act] at hs
    split at hs
    · cases hs
      intro c
      have h0 := hC c
      simp only [pointers, loggersAt, State.countOf, List.filter_append, List.length_append] at h0 ⊢
      by_cases hc : s.cfgs.length = c
      · subst hc
        simp at h0 ⊢
        omega
      · have : (s.cfgs ++ [(⟨f.1, f.2, h, none, 1⟩ : Cfg A B H)])[c]? = s.cfgs[c]? := by
          rw [List.getElem?_append]
          split
          · rfl
          · next hl =>
            rw [List.getElem?_eq_none (l := s.cfgs) (by omega)]
            exact List.getElem?_eq_none (by simp; omega)
        rw [this]
        simp [hc]
        simpa using h0
    · cases hs
  | log t l => exact hcall ht (fun _ => rfl) hs
  | filter t l f => exact hcall ht (fun _ => rfl) hs
  | move t l => exact hcall ht (fun _ => rfl) hs
  | assign t d r =>
    simp only [State.act] at hs
    split at hs
    · cases hs; exact hC
    · exact hcall ht (fun _ => rfl) hs
  | step t => exact advance_counted hG hC ht hs

theorem total_zero : ∀ n, total (fun _ => 0) n = 0
  | 0 => rfl
  | n + 1 => by simp [total, total_zero n]

/-- **C84.** After every step of every schedule, the count of each configuration is the number of pointers to it: those of the loggers
and those of the calls that have not returned. -/
theorem C84_counts {cs : List (Cmd (A × B) H)} {s : State A B H} {n : Nat} (hn : ∀ x ∈ cs, x.thread < n)
    (h : State.init.run cs = some s) (c : Nat) : s.countOf c = pointers s n c := by
  have key : ∀ (cs : List (Cmd (A × B) H)) (s1 : State A B H), Good s1 → Counted s1 n → (∀ x ∈ cs, x.thread < n) →
      s1.run cs = some s → Counted s n := by
    intro cs
    induction cs with
    | nil => intro s1 _ h1 _ h2; cases h2; exact h1
    | cons x cs ih =>
      intro s1 hG hC hn h
      simp only [State.run, Option.bind_eq_some_iff] at h
      obtain ⟨m, h1, h2⟩ := h
      exact ih m (hG.act h1) (act_counted hG hC (hn x (by simp)) h1) (fun y hy => hn y (by simp [hy])) h2
  refine key cs _ (good_run (cs := []) rfl) (fun c => ?_) hn h c
  have : total (fun u => owns ((State.init : State A B H).thr u) c) n = 0 := total_zero n
  simp only [pointers, this]
  simp [loggersAt, State.init, State.countOf]

theorem bound (cs : List (Cmd (A × B) H)) (t : Nat) : ∃ n, t < n ∧ ∀ x ∈ cs, x.thread < n := by
  induction cs with
  | nil => exact ⟨t + 1, by omega, by simp⟩
  | cons x cs ih =>
    obtain ⟨n, h1, h2⟩ := ih
    refine ⟨max n (x.thread + 1), by omega, fun y hy => ?_⟩
    rcases List.mem_cons.1 hy with rfl | hy
    · omega
    · have := h2 y hy; omega

/-- A configuration that a logger points to, or that a call works with, is not destroyed; one that nothing points to is. -/
theorem C84_alive {cs : List (Cmd (A × B) H)} {s : State A B H} (h : State.init.run cs = some s) (c : Nat) :
    0 < s.countOf c ↔ (∃ x ∈ s.cells, x.ctl = c) ∨ ∃ t, 0 < owns (s.thr t) c := by
  constructor
  · intro hpos
    obtain ⟨n, -, hn⟩ := bound cs 0
    rw [C84_counts hn h c, pointers] at hpos
    by_cases hl : 0 < loggersAt s c
    · left
      obtain ⟨x, hx⟩ := List.exists_mem_of_length_pos hl
      rw [List.mem_filter] at hx
      exact ⟨x, hx.1, by simpa using hx.2⟩
    · right
      have ht : 0 < total (fun u => owns (s.thr u) c) n := by omega
      clear hpos hl hn h
      induction n with
      | zero => simp [total] at ht
      | succ n ih =>
        simp only [total] at ht
        by_cases hz : 0 < owns (s.thr n) c
        · exact ⟨n, hz⟩
        · exact ih (by omega)
  · rintro (⟨x, hx, hc⟩ | ⟨t, ht⟩)
    · obtain ⟨n, -, hn⟩ := bound cs 0
      rw [C84_counts hn h c, pointers]
      have : 0 < loggersAt s c := List.length_pos_of_mem (a := x) (List.mem_filter.2 ⟨hx, by simpa using hc⟩)
      omega
    · obtain ⟨n, h1, hn⟩ := bound cs t
      exact Counted.positive (fun c => C84_counts hn h c) h1 ht

theorem run_then {cs ds : List (Cmd (A × B) H)} : ∀ {s m s' : State A B H}, s.run cs = some m → m.run ds = some s' →
    s.run (cs ++ ds) = some s' := by
  induction cs with
  | nil => intro s m s' h1 h2; cases h1; exact h2
  | cons c cs ih =>
    intro s m s' h1 h2
    simp only [State.run, List.cons_append, Option.bind_eq_some_iff] at h1 ⊢
    obtain ⟨x, h3, h4⟩ := h1
    exact ⟨x, h3, ih h4 h2⟩

/-- The pointer that `load` has read is still the one of the logger. -/
theorem Good.loaded {s : State A B H} (h : Good s) {t l o k : Nat} (ha : access (s.thr t).pc = .load l)
    (ht : (s.thr t).stage = .full o k) : ∃ x ∈ s.cells, x.ctl = k := by
  obtain ⟨g, hR, hV⟩ := h
  have hh := (hR.held t).2 (by rw [ht]; rfl)
  rw [ha] at hh
  obtain ⟨x, h1, h2⟩ := hh
  obtain ⟨v, hv⟩ := getElem?_some_of_len hR.cellsLen h1
  have h3 := hR.cells l x v h1 hv
  simp only [CellOk, h2, ha, ht, PointerOk] at h3
  exact ⟨x, List.mem_of_getElem? h1, by rw [h3.2.2.1, h3.2.2.2.2]⟩

/-- A configuration that is destroyed stays destroyed: nothing gets a pointer to it any more. -/
theorem C84_gone {cs more : List (Cmd (A × B) H)} {s s' : State A B H} (h : State.init.run cs = some s) {c : Nat}
    (hc : c < s.cfgs.length) (h0 : s.countOf c = 0) (hr : s.run more = some s') :
    s'.countOf c = 0 ∧ (∀ x ∈ s'.cells, x.ctl ≠ c) ∧ ∀ t, owns (s'.thr t) c = 0 := by
  suffices hz : s'.countOf c = 0 by
    have := C84_alive (run_then h hr) c
    refine ⟨hz, fun x hx e => ?_, fun t => ?_⟩
    · have := this.2 (.inl ⟨x, hx, e⟩); omega
    · by_cases h1 : 0 < owns (s'.thr t) c
      · have := this.2 (.inr ⟨t, h1⟩); omega
      · omega
  have act {m m' : State A B H} {x : Cmd (A × B) H} {done : List (Cmd (A × B) H)} (hd : State.init.run done = some m)
      (hc : c < m.cfgs.length) (h0 : m.countOf c = 0) (ha : m.act x = some m') :
      c < m'.cfgs.length ∧ m'.countOf c = 0 := by
    have hcall {t : Nat} {p : Pc (A × B)} (h : m.call t p = some m') : c < m'.cfgs.length ∧ m'.countOf c = 0 := by
      obtain ⟨-, rfl⟩ := call_some h; exact ⟨hc, h0⟩
    have hset {k : Nat} {y y' : Cfg A B H} (hy : m.cfgs[k]? = some y) (e : y'.count = y.count) :
        c < (m.cfgs.set k y').length ∧ (((m.cfgs.set k y')[c]?).map (·.count)).getD 0 = 0 := by
      refine ⟨by simpa using hc, ?_⟩
      have h1 := countOf_set (x' := y') hy c
      have h2 : (m.setCfg k y').countOf c = 0 := by
        rw [h1]; split
        · next hk => subst hk; rw [e]; simpa [State.countOf, hy] using h0
        · exact h0
      exact h2
    have hrec {k : Nat} {f : Nat → Nat} (hf : k = c → f 0 = 0) :
        c < (m.recount k f).cfgs.length ∧ (m.recount k f).countOf c = 0 := by
      by_cases hk : k < m.cfgs.length
      · constructor
        · unfold State.recount; split
          · simpa [State.setCfg] using hc
          · exact hc
        · rw [countOf_recount hk]; split
          · next e => rw [h0]; exact hf e
          · exact h0
      · unfold State.recount
        rw [List.getElem?_eq_none (by omega)]
        exact ⟨hc, h0⟩
    cases x with
    | construct t f hs =>
      simp only [State.act] at ha
      split at ha
      · cases ha
        refine ⟨by simp; omega, ?_⟩
        simp only [State.countOf] at h0 ⊢
        rw [List.getElem?_append_left hc]; exact h0
      · cases ha
    | log => exact hcall ha
    | filter => exact hcall ha
    | move => exact hcall ha
    | assign t d r =>
      simp only [State.act] at ha
      split at ha
      · cases ha; exact ⟨hc, h0⟩
      · exact hcall ha
    | step t =>
      simp only [State.act, State.advance] at ha
      split at ha
      · cases ha; exact hrec (fun _ => rfl)
      · have ptr {l : Nat} {new : Option Nat} (hacc : new = none → access (m.thr t).pc = .load l)
            (ha : m.pointerStep t l new = some m') : c < m'.cfgs.length ∧ m'.countOf c = 0 := by
          unfold State.pointerStep at ha
          split at ha
          · cases ha
          split at ha
          · split at ha <;> cases ha <;> exact ⟨hc, h0⟩
          · cases ha; exact ⟨hc, h0⟩
          · cases ha; exact ⟨hc, h0⟩
          · next o k hst =>
            split at ha
            · cases ha
              refine hrec (fun e => ?_)
              subst e
              obtain ⟨x, h1, h2⟩ := (good_run hd).loaded (hacc rfl) hst
              have := (C84_alive hd k).2 (.inl ⟨x, h1, h2⟩)
              omega
            · cases ha; exact hrec (fun _ => rfl)
          · simp only at ha
            split at ha <;> cases ha <;> exact ⟨hc, h0⟩
          · cases ha
        have flt {k : Nat} {new : Option (A × B)} (ha : m.filterStep t k new = some m') :
            c < m'.cfgs.length ∧ m'.countOf c = 0 := by
          unfold State.filterStep at ha
          split at ha
          · cases ha
          next y hy =>
          split at ha
          · split at ha <;> cases ha
            · exact ⟨hc, h0⟩
            · exact hset hy rfl
          · cases ha; exact hset hy rfl
          · cases ha; exact hset hy rfl
          · simp only at ha
            split at ha <;> cases ha
            · exact hset hy rfl
            · exact hset hy rfl
          · cases ha
        split at ha
        · cases ha
        · next l hl => exact ptr (fun _ => hl) ha
        · exact ptr (fun e => by cases e) ha
        · exact flt ha
        · exact flt ha
  have key : ∀ (more done : List (Cmd (A × B) H)) (m : State A B H), State.init.run done = some m → c < m.cfgs.length →
      m.countOf c = 0 → m.run more = some s' → s'.countOf c = 0 := by
    intro more
    induction more with
    | nil => intro done m _ _ h1 h2; cases h2; exact h1
    | cons x more ih =>
      intro done m hd hc h0 hr
      simp only [State.run, Option.bind_eq_some_iff] at hr
      obtain ⟨m', h1, h2⟩ := hr
      obtain ⟨h3, h4⟩ := act hd hc h0 h1
      exact ih (done ++ [x]) m' (run_then hd (by simp only [State.run, h1, Option.bind_some])) h3 h4 h2
  exact key more cs s h hc h0 hr

/-- Thread 1 has assigned logger 1 to logger 0: both point to the second configuration, and the call has one more pointer to
it, and the last one to the first. -/
example : ∃ s : State Nat Nat Nat, State.init.run (destroys.take 11) = some s ∧ pointers s 2 1 = 3 ∧ s.countOf 1 = 3
    ∧ pointers s 2 0 = 1 ∧ s.countOf 0 = 1 := ⟨_, rfl, by decide, by decide, by decide, by decide⟩

example : ∃ s : State Nat Nat Nat, State.init.run destroys = some s ∧ s.countOf 1 = 3 ∧ s.countOf 0 = 0 :=
  ⟨_, rfl, by decide, by decide⟩

end Blackhole.Spin
