import Verif.Scope.Spec

/-! # Representation invariant and refinement proof for scopes -/

namespace Blackhole.Scope

/-- The linked list starting at `p` is the given stack, all bound to manager `l`. -/
def Chain (ws : Addr → Option Watcher) (l : LoggerId) :
    Option Addr → List (Addr × AttrList) → Prop
  | p, [] => p = none
  | p, (a, x) :: rest =>
      p = some a ∧ ∃ q, ws a = some ⟨l, q, x⟩ ∧ (∀ e ∈ rest, e.1 < a) ∧ Chain ws l q rest

structure Inv (w : World) (s : SState) : Prop where
  next : w.next = s.opened
  absent : ∀ l, s.status l = .absent → w.managers l = none ∧ ∀ t, s.stack l t = []
  live : ∀ l, s.status l = .live →
    ∃ m, w.managers l = some m ∧ ∀ t, Chain w.watchers l (m t) (s.stack l t)
  moved : ∀ l t, s.status l = .movedFrom t →
    (∀ t', s.stack l t' = []) ∧ ∃ m, w.managers l = some m ∧ ∀ t', t' ≠ t → m t' = none
  bound : ∀ l t e, e ∈ s.stack l t → e.1 < s.opened
  disj : ∀ l t l' t' e e', e ∈ s.stack l t → e' ∈ s.stack l' t' → e.1 = e'.1 → l = l' ∧ t = t'

theorem Chain.congr {ws ws' : Addr → Option Watcher} {l p st}
    (h : Chain ws l p st) (heq : ∀ e ∈ st, ws' e.1 = ws e.1) : Chain ws' l p st := by
  induction st generalizing p with
  | nil => exact h
  | cons e rest ih =>
    obtain ⟨a, x⟩ := e
    obtain ⟨hp, q, hq, hlt, hrest⟩ := h
    refine ⟨hp, q, ?_, hlt, ih hrest fun e he => heq e (List.mem_cons_of_mem _ he)⟩
    rw [heq (a, x) (List.mem_cons_self ..)]
    exact hq

theorem collect_chain {w : World} {l a x rest} (h : Chain w.watchers l (some a) ((a, x) :: rest))
    (fuel : Nat) (hf : a < fuel) : w.collect fuel a = .ok (((a, x) :: rest).map Prod.snd) := by
  induction rest generalizing a x fuel with
  | nil =>
    obtain ⟨-, q, hq, -, rfl⟩ := h
    cases fuel with
    | zero => omega
    | succ f => simp [World.collect, hq]
  | cons e rest ih =>
    obtain ⟨b, y⟩ := e
    obtain ⟨-, q, hq, hlt, hrest⟩ := h
    have hb : q = some b := hrest.1
    subst hb
    have hba : b < a := hlt (b, y) (List.mem_cons_self ..)
    cases fuel with
    | zero => omega
    | succ f =>
      have := ih hrest f (by omega)
      simp only [World.collect, hq, this, List.map_cons]
      rfl

/-- What `rebind` does to memory. -/
theorem rebind_chain {w : World} {l l' a x rest}
    (h : Chain w.watchers l (some a) ((a, x) :: rest)) (fuel : Nat) (hf : a < fuel) :
    ∃ w', w.rebind l' fuel a = .ok w' ∧ w'.managers = w.managers ∧ w'.next = w.next ∧
      Chain w'.watchers l' (some a) ((a, x) :: rest) ∧
      ∀ b, (∀ e ∈ (a, x) :: rest, e.1 ≠ b) → w'.watchers b = w.watchers b := by
  induction rest generalizing w a x fuel with
  | nil =>
    obtain ⟨-, q, hq, -, rfl⟩ := h
    cases fuel with
    | zero => omega
    | succ f =>
      refine ⟨{ w with watchers := upd w.watchers a (some { manager := l', prev := none, attrs := x }) },
        ?_, rfl, rfl, ?_, ?_⟩
      · simp [World.rebind, hq]
      · exact ⟨rfl, none, by simp [upd], by simp, rfl⟩
      · intro b hb
        have : b ≠ a := fun h => hb (a, x) (by simp) h.symm
        simp [upd, this]
  | cons e rest ih =>
    obtain ⟨b, y⟩ := e
    obtain ⟨-, q, hq, hlt, hrest⟩ := h
    have hb : q = some b := hrest.1
    subst hb
    have hba : b < a := hlt (b, y) (List.mem_cons_self ..)
    cases fuel with
    | zero => omega
    | succ f =>
      let w1 : World :=
        { w with watchers := upd w.watchers a (some { manager := l', prev := some b, attrs := x }) }
      have hc : Chain w1.watchers l (some b) ((b, y) :: rest) := by
        refine hrest.congr ?_
        intro e he
        have := hlt e he
        have hne : e.1 ≠ a := by omega
        simp [w1, upd, hne]
      obtain ⟨w', hw', hm, hn, hch, hfr⟩ := ih hc f (by omega)
      refine ⟨w', ?_, by rw [hm], by rw [hn], ?_, ?_⟩
      · simp only [World.rebind, hq]
        exact hw'
      · refine ⟨rfl, some b, ?_, hlt, hch⟩
        rw [hfr a]
        · simp [w1, upd]
        · intro e he
          have := hlt e he
          omega
      · intro c hc'
        rw [hfr c fun e he => hc' e (List.mem_cons_of_mem _ he)]
        have : c ≠ a := fun h => hc' (a, x) (by simp) h.symm
        simp [w1, upd, this]

theorem Chain.none_iff {ws l st} (h : Chain ws l none st) : st = [] := by
  cases st with
  | nil => rfl
  | cons e rest => obtain ⟨a, x⟩ := e; exact absurd h.1 (by simp)

theorem Chain.some_iff {ws l a st} (h : Chain ws l (some a) st) : ∃ x rest, st = (a, x) :: rest := by
  cases st with
  | nil => exact absurd h (by simp [Chain])
  | cons e rest =>
    obtain ⟨b, x⟩ := e
    have := h.1
    simp at this
    subst this
    exact ⟨x, rest, rfl⟩

theorem Inv.init : Inv World.init SState.init where
  next := rfl
  absent := by simp [World.init, SState.init]
  live := by simp [SState.init]
  moved := by simp [SState.init]
  bound := by simp [SState.init]
  disj := by simp [SState.init]

theorem scoped_of_chain {w : World} {l m t st} (hm : w.managers l = some m)
    (hc : Chain w.watchers l (m t) st) (hb : ∀ e ∈ st, e.1 < w.next) :
    w.scoped t l = .ok (st.map Prod.snd) := by
  unfold World.scoped World.get
  rw [hm]
  cases hmt : m t with
  | none =>
    rw [hmt] at hc
    rw [hc.none_iff]
    simp [hmt]; rfl
  | some a =>
    rw [hmt] at hc
    obtain ⟨x, rest, rfl⟩ := hc.some_iff
    have := collect_chain hc w.next (hb (a, x) (by simp))
    simp only [hmt]
    exact this

/-- Effect of the tail of a move, for a source whose chain on the moving thread is `st`. -/
theorem takeScopes_chain {w : World} {t dst src md ms st}
    (hd : w.managers dst = some md) (hs : w.managers src = some ms)
    (hc : Chain w.watchers src (ms t) st) (hb : ∀ e ∈ st, e.1 < w.next) :
    ∃ w', w.takeScopes t dst src = .ok w' ∧
      w'.managers = upd w.managers dst (some (upd md t (ms t))) ∧ w'.next = w.next ∧
      Chain w'.watchers dst (ms t) st ∧
      ∀ b, (∀ e ∈ st, e.1 ≠ b) → w'.watchers b = w.watchers b := by
  unfold World.takeScopes World.get World.reset
  rw [hs]
  cases hmt : ms t with
  | none =>
    rw [hmt] at hc
    have := hc.none_iff
    subst this
    refine ⟨{ w with managers := upd w.managers dst (some (upd md t none)) }, ?_, rfl, rfl, rfl, ?_⟩
    · simp [hmt, hd]; rfl
    · simp
  | some a =>
    rw [hmt] at hc
    obtain ⟨x, rest, rfl⟩ := hc.some_iff
    let w1 : World := { w with managers := upd w.managers dst (some (upd md t (some a))) }
    have hc1 : Chain w1.watchers src (some a) ((a, x) :: rest) := hc
    obtain ⟨w', h1, h2, h3, h4, h5⟩ := rebind_chain (l' := dst) hc1 w.next (hb (a, x) (by simp))
    refine ⟨w', ?_, h2, h3, h4, h5⟩
    simp only [hmt, hd]
    exact h1

/-- Every chain of the old state survives a memory change outside its addresses. -/
theorem Inv.chain_of {w : World} {s : SState} (h : Inv w s) {l m t} (hl : s.status l = .live)
    (hm : w.managers l = some m) : Chain w.watchers l (m t) (s.stack l t) := by
  obtain ⟨m', hm', hc⟩ := h.live l hl
  rw [hm] at hm'
  cases hm'
  exact hc t

theorem refine_open {w : World} {s : SState} {t l x} (h : Inv w s) (hl : s.status l = .live) :
    ∃ w', w.step (.open t l x) = .ok (w', none) ∧
      Inv w' { s.setStack l t ((s.opened, x) :: s.stack l t) with opened := s.opened + 1 } := by
  obtain ⟨m, hm, hc⟩ := h.live l hl
  refine ⟨{ watchers := upd w.watchers w.next (some { manager := l, prev := m t, attrs := x })
            managers := upd w.managers l (some (upd m t (some w.next)))
            next := w.next + 1 }, ?_, ?_⟩
  · simp only [World.step, World.openScope, World.get, World.reset, hm]
    rfl
  · have hfresh : ∀ l' t' e, e ∈ s.stack l' t' →
        upd w.watchers w.next (some { manager := l, prev := m t, attrs := x }) e.1 = w.watchers e.1 := by
      intro l' t' e he
      have := h.bound l' t' e he
      have hn := h.next
      have : e.1 ≠ w.next := by omega
      simp [upd, this]
    constructor
    · simp [h.next]
    · intro l' hl'
      have hne : l' ≠ l := by rintro rfl; simp [SState.setStack] at hl'; rw [hl] at hl'; cases hl'
      have := h.absent l' hl'
      simp [upd, hne, this.1, SState.setStack, this.2]
    · intro l' hl'
      by_cases hll : l' = l
      · subst hll
        refine ⟨upd m t (some w.next), by simp [upd], ?_⟩
        intro t'
        by_cases htt : t' = t
        · subst htt
          simp only [upd, SState.setStack, and_self, if_true]
          refine ⟨by rw [h.next], m t', ?_, ?_, ?_⟩
          · simp [← h.next, upd]
          · intro e he
            exact h.bound _ _ e he
          · exact (hc t').congr fun e he => hfresh _ _ e he
        · simp only [upd, SState.setStack, htt, and_false, if_false]
          exact (hc t').congr fun e he => hfresh _ _ e he
      · obtain ⟨m', hm', hc'⟩ := h.live l' hl'
        refine ⟨m', by simp [upd, hll, hm'], ?_⟩
        intro t'
        simp only [SState.setStack, hll, false_and, if_false]
        exact (hc' t').congr fun e he => hfresh _ _ e he
    · intro l' t' hl'
      have hne : l' ≠ l := by rintro rfl; simp [SState.setStack] at hl'; rw [hl] at hl'; cases hl'
      obtain ⟨h1, m', hm', h2⟩ := h.moved l' t' hl'
      refine ⟨?_, m', by simp [upd, hne, hm'], h2⟩
      intro t''
      simp [SState.setStack, hne, h1]
    · intro l' t' e he
      simp only [SState.setStack] at he
      split at he
      · rcases List.mem_cons.1 he with rfl | he
        · simp
        · have := h.bound _ _ e he; simp; omega
      · have := h.bound _ _ e he; simp; omega
    · intro l1 t1 l2 t2 e1 e2 h1 h2 heq
      simp only [SState.setStack] at h1 h2
      split at h1 <;> split at h2
      · simp_all
      · rename_i hA hB
        rcases List.mem_cons.1 h1 with rfl | h1
        · have := h.bound _ _ e2 h2; simp at heq; omega
        · have := h.disj _ _ _ _ e1 e2 h1 h2 heq
          omega
      · rename_i hA hB
        rcases List.mem_cons.1 h2 with rfl | h2
        · have := h.bound _ _ e1 h1; simp at heq; omega
        · have := h.disj _ _ _ _ e1 e2 h1 h2 heq
          omega
      · exact h.disj _ _ _ _ e1 e2 h1 h2 heq

theorem Inv.live_of_stack {w : World} {s : SState} (h : Inv w s) {l t e rest}
    (hs : s.stack l t = e :: rest) : s.status l = .live := by
  cases hst : s.status l with
  | absent => have := (h.absent l hst).2 t; rw [hs] at this; cases this
  | live => rfl
  | movedFrom t' => have := (h.moved l t' hst).1 t; rw [hs] at this; cases this

theorem refine_close {w : World} {s : SState} {t l a x rest} (h : Inv w s)
    (hs : s.stack l t = (a, x) :: rest) :
    ∃ w', w.step (.close t a) = .ok (w', none) ∧ Inv w' (s.setStack l t rest) := by
  have hl := h.live_of_stack hs
  obtain ⟨m, hm, hc⟩ := h.live l hl
  have hct := hc t
  rw [hs] at hct
  obtain ⟨hmt, q, hq, hlt, hrest⟩ := hct
  refine ⟨{ watchers := upd w.watchers a none
            managers := upd w.managers l (some (upd m t q))
            next := w.next }, ?_, ?_⟩
  · simp only [World.step, World.closeScope, World.get, World.reset, hq, hm, hmt]
    simp [pure, Except.pure, bind, Except.bind]
  · have hfresh : ∀ l' t' e, e ∈ s.stack l' t' → ¬ (l' = l ∧ t' = t) →
        upd w.watchers a none e.1 = w.watchers e.1 := by
      intro l' t' e he hne
      have : e.1 ≠ a := by
        intro heq
        have := h.disj l' t' l t e (a, x) he (by rw [hs]; simp) heq
        exact hne this
      simp [upd, this]
    have hrest' : Chain (upd w.watchers a none) l q rest := by
      refine hrest.congr fun e he => ?_
      have : e.1 ≠ a := by have := hlt e he; omega
      simp [upd, this]
    constructor
    · exact h.next
    · intro l' hl'
      have hne : l' ≠ l := by rintro rfl; simp [SState.setStack] at hl'; rw [hl] at hl'; cases hl'
      have := h.absent l' hl'
      simp [upd, hne, this.1, SState.setStack, this.2]
    · intro l' hl'
      by_cases hll : l' = l
      · subst hll
        refine ⟨upd m t q, by simp [upd], ?_⟩
        intro t'
        by_cases htt : t' = t
        · subst htt
          simp only [upd, SState.setStack, and_self, if_true]
          exact hrest'
        · simp only [upd, SState.setStack, htt, and_false, if_false]
          exact (hc t').congr fun e he => hfresh _ _ e he (by simp [htt])
      · obtain ⟨m', hm', hc'⟩ := h.live l' hl'
        refine ⟨m', by simp [upd, hll, hm'], ?_⟩
        intro t'
        simp only [SState.setStack, hll, false_and, if_false]
        exact (hc' t').congr fun e he => hfresh _ _ e he (by simp [hll])
    · intro l' t' hl'
      have hne : l' ≠ l := by rintro rfl; simp [SState.setStack] at hl'; rw [hl] at hl'; cases hl'
      obtain ⟨h1, m', hm', h2⟩ := h.moved l' t' hl'
      refine ⟨?_, m', by simp [upd, hne, hm'], h2⟩
      intro t''
      simp [SState.setStack, hne, h1]
    · intro l' t' e he
      simp only [SState.setStack] at he
      split at he
      · exact h.bound l t e (by rw [hs]; exact List.mem_cons_of_mem _ he)
      · exact h.bound _ _ e he
    · intro l1 t1 l2 t2 e1 e2 h1 h2 heq
      simp only [SState.setStack] at h1 h2
      have key : ∀ l' t' e, (e ∈ if l' = l ∧ t' = t then rest else s.stack l' t') → e ∈ s.stack l' t' := by
        intro l' t' e he
        split at he
        · rename_i hA; rw [hA.1, hA.2, hs]; exact List.mem_cons_of_mem _ he
        · exact he
      exact h.disj _ _ _ _ e1 e2 (key _ _ _ h1) (key _ _ _ h2) heq

theorem refine_construct {w : World} {s : SState} {l} (h : Inv w s) (ha : s.status l = .absent) :
    Inv (w.construct l) { s with status := fun l' => if l' = l then .live else s.status l' } := by
  obtain ⟨-, hst⟩ := h.absent l ha
  constructor
  · exact h.next
  · intro l' hl'
    simp only at hl'
    split at hl'
    · cases hl'
    · rename_i hne
      have := h.absent l' hl'
      simp [World.construct, upd, hne, this.1, this.2]
  · intro l' hl'
    simp only at hl'
    by_cases hne : l' = l
    · subst hne
      refine ⟨fun _ => none, by simp [World.construct, upd], ?_⟩
      intro t
      simp [hst, Chain]
    · simp only [hne, if_false] at hl'
      obtain ⟨m, hm, hc⟩ := h.live l' hl'
      exact ⟨m, by simp [World.construct, upd, hne, hm], hc⟩
  · intro l' t hl'
    simp only at hl'
    split at hl'
    · cases hl'
    · rename_i hne
      obtain ⟨h1, m, hm, h2⟩ := h.moved l' t hl'
      exact ⟨h1, m, by simp [World.construct, upd, hne, hm], h2⟩
  · exact h.bound
  · exact h.disj

/-- Both moves: the destination has an existing manager `md`, holding nothing on thread `t` that matters. -/
theorem refine_transfer {w : World} {s : SState} {t dst src md} (h : Inv w s) (hne : dst ≠ src)
    (hmd : w.managers dst = some md)
    (hd : (∀ t', t' ≠ t → Chain w.watchers dst (md t') (s.stack dst t')) ∧
      s.stack dst t = [])
    (hs : s.status src = .live) (ho : ∀ t', t' ≠ t → s.stack src t' = []) :
    ∃ w', w.takeScopes t dst src = .ok w' ∧ Inv w' (s.transfer t dst src) := by
  obtain ⟨ms, hms, hc⟩ := h.live src hs
  obtain ⟨w', h1, h2, h3, h4, h5⟩ := takeScopes_chain (t := t) hmd hms (hc t)
    (fun e he => by rw [h.next]; exact h.bound _ _ e he)
  refine ⟨w', h1, ?_⟩
  have hfr : ∀ l' t' e, e ∈ s.stack l' t' → ¬ (l' = src ∧ t' = t) →
      w'.watchers e.1 = w.watchers e.1 := by
    intro l' t' e he hn
    apply h5
    intro e' he' heq
    have := h.disj src t l' t' e' e he' he heq
    exact hn ⟨this.1.symm, this.2.symm⟩
  have hsub : ∀ l' t' e, e ∈ (s.transfer t dst src).stack l' t' →
      (l' = dst ∧ t' = t ∧ e ∈ s.stack src t) ∨ (l' ≠ src ∧ ¬ (l' = dst ∧ t' = t) ∧ e ∈ s.stack l' t') := by
    intro l' t' e he
    simp only [SState.transfer] at he
    split at he
    · rename_i hA
      subst hA
      split at he
      · rename_i hB; exact .inl ⟨rfl, hB, he⟩
      · rename_i hB; exact .inr ⟨hne, by simp [hB], he⟩
    · rename_i hA
      split at he
      · simp at he
      · rename_i hB; exact .inr ⟨hB, by simp [hA], he⟩
  constructor
  · rw [h3]; exact h.next
  · intro l' hl'
    simp only [SState.transfer] at hl'
    split at hl'
    · cases hl'
    · split at hl'
      · cases hl'
      · rename_i hA hB
        have := h.absent l' hl'
        simp [h2, upd, hA, this.1, SState.transfer, hB, this.2]
  · intro l' hl'
    simp only [SState.transfer] at hl'
    by_cases hA : l' = dst
    · subst hA
      refine ⟨upd md t (ms t), by simp [h2, upd], ?_⟩
      intro t'
      by_cases htt : t' = t
      · subst htt
        simp only [upd, SState.transfer, if_true]
        exact h4
      · simp only [upd, SState.transfer, if_true, htt, if_false]
        exact (hd.1 t' htt).congr fun e he => hfr _ _ e he (by simp [hne])
    · simp only [hA, if_false] at hl'
      split at hl'
      · cases hl'
      · rename_i hB
        obtain ⟨m, hm, hcm⟩ := h.live l' hl'
        refine ⟨m, by simp [h2, upd, hA, hm], ?_⟩
        intro t'
        simp only [SState.transfer, hA, hB, if_false]
        exact (hcm t').congr fun e he => hfr _ _ e he (by simp [hB])
  · intro l' t' hl'
    simp only [SState.transfer] at hl'
    split at hl'
    · cases hl'
    · rename_i hA
      split at hl'
      · rename_i hB
        subst hB
        cases hl'
        refine ⟨by simp [SState.transfer, hA], ms, by simp [h2, upd, hA, hms], ?_⟩
        intro t' ht'
        have := hc t'
        rw [ho t' ht'] at this
        exact this
      · rename_i hB
        obtain ⟨g1, m, hm, g2⟩ := h.moved l' t' hl'
        exact ⟨by simp [SState.transfer, hA, hB, g1], m, by simp [h2, upd, hA, hm], g2⟩
  · intro l' t' e he
    simp only [SState.transfer]
    rcases hsub l' t' e he with ⟨-, -, h'⟩ | ⟨-, -, h'⟩ <;> exact h.bound _ _ e h'
  · intro l1 t1 l2 t2 e1 e2 g1 g2 heq
    rcases hsub l1 t1 e1 g1 with ⟨a1, a2, a3⟩ | ⟨a1, a2, a3⟩ <;>
      rcases hsub l2 t2 e2 g2 with ⟨b1, b2, b3⟩ | ⟨b1, b2, b3⟩
    · exact ⟨a1.trans b1.symm, a2.trans b2.symm⟩
    · exact absurd (h.disj _ _ _ _ e1 e2 a3 b3 heq).1.symm b1
    · exact absurd (h.disj _ _ _ _ e1 e2 a3 b3 heq).1 a1
    · exact h.disj _ _ _ _ e1 e2 a3 b3 heq

theorem refine_destroy {w : World} {s : SState} {l} (h : Inv w s) (ho : ∀ t, s.stack l t = []) :
    Inv (w.destroy l) { s with status := fun l' => if l' = l then .absent else s.status l' } := by
  constructor
  · exact h.next
  · intro l' hl'
    simp only at hl'
    by_cases hne : l' = l
    · subst hne; exact ⟨by simp [World.destroy, upd], ho⟩
    · simp only [hne, if_false] at hl'
      have := h.absent l' hl'
      simp [World.destroy, upd, this.1, this.2]
  · intro l' hl'
    simp only at hl'
    split at hl'
    · cases hl'
    · rename_i hne
      obtain ⟨m, hm, hc⟩ := h.live l' hl'
      exact ⟨m, by simp [World.destroy, upd, hne, hm], hc⟩
  · intro l' t hl'
    simp only at hl'
    split at hl'
    · cases hl'
    · rename_i hne
      obtain ⟨h1, m, hm, h2⟩ := h.moved l' t hl'
      exact ⟨h1, m, by simp [World.destroy, upd, hne, hm], h2⟩
  · exact h.bound
  · exact h.disj

theorem step_refines {w : World} {s s' : SState} {op out} (h : Inv w s) (hs : SStep s op s' out) :
    ∃ w', w.step op = .ok (w', out) ∧ Inv w' s' := by
  cases hs with
  | construct ha => exact ⟨_, rfl, refine_construct h ha⟩
  | «open» hl => exact refine_open h hl
  | close hst => exact refine_close h hst
  | log hl =>
    obtain ⟨m, hm, hc⟩ := h.live _ hl
    rename_i t l
    have := scoped_of_chain hm (hc t) fun e he => by rw [h.next]; exact h.bound _ _ e he
    exact ⟨w, by simp [World.step, this]; rfl, h⟩
  | moveConstruct hd hsrc ho =>
    rename_i t dst src
    have hne : dst ≠ src := by rintro rfl; rw [hd] at hsrc; cases hsrc
    have h' := refine_construct h hd
    obtain ⟨w', hw', hi⟩ := refine_transfer (t := t) (dst := dst) (src := src) (md := fun _ => none) h' hne
      (by simp [World.construct, upd]) ⟨fun t' _ => by simp [(h.absent dst hd).2, Chain], (h.absent dst hd).2 t⟩
      (by simp [hne.symm, hsrc]) ho
    refine ⟨w', by simp [World.step, World.moveConstruct, hw']; rfl, ?_⟩
    have : SState.transfer { s with status := fun l' => if l' = dst then .live else s.status l' } t dst src
        = s.transfer t dst src := by
      simp only [SState.transfer, SState.mk.injEq, and_true]
      funext l
      split <;> rfl
    rw [← this]
    exact hi
  | moveAssign hne hd hsrc ho =>
    rename_i t dst src
    have : ∃ md, w.managers dst = some md ∧
        (∀ t', t' ≠ t → Chain w.watchers dst (md t') (s.stack dst t')) ∧ s.stack dst t = [] := by
      rcases hd with ⟨hd, he⟩ | hd
      · obtain ⟨md, hmd, hc⟩ := h.live dst hd
        exact ⟨md, hmd, fun t' _ => hc t', he⟩
      · obtain ⟨h1, md, hmd, h2⟩ := h.moved dst t hd
        exact ⟨md, hmd, fun t' ht' => by rw [h1, h2 t' ht']; rfl, h1 t⟩
    obtain ⟨md, hmd, hd'⟩ := this
    obtain ⟨w', hw', hi⟩ := refine_transfer h hne hmd hd' hsrc ho
    exact ⟨w', by simp [World.step, World.moveAssign, hne, hw']; rfl, hi⟩
  | moveAssignSelf hl => exact ⟨w, by simp [World.step, World.moveAssign]; rfl, h⟩
  | destroy hne ho => exact ⟨_, rfl, refine_destroy h ho⟩

theorem run_refines {w : World} {s s' : SState} {ops outs} (h : Inv w s) (hs : SRun s ops s' outs) :
    ∃ w', w.run ops = .ok (w', outs) ∧ Inv w' s' := by
  induction hs generalizing w with
  | nil => exact ⟨w, rfl, h⟩
  | cons hstep _ ih =>
    obtain ⟨w1, hw1, hi⟩ := step_refines h hstep
    obtain ⟨w2, hw2, hi2⟩ := ih hi
    exact ⟨w2, by simp [World.run, hw1, hw2, bind, Except.bind, pure, Except.pure], hi2⟩

end Blackhole.Scope
