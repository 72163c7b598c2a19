import Verif.Exhaust.Model
import Verif.Scope.Props

/-! # Properties of loggers and scopes when memory runs out: C103 -/

namespace Blackhole.Exhaust

open Scope

/-! ## Specification -/

/-- What a program can reach: each operation is one that the library promises to support in the state of
`Verif.Scope.Spec`, which says what scopes are open. An operation that throws does not change that state. -/
inductive Reach (needs : Needs) : Mem → SState → Prop
  | init : Reach needs Mem.init SState.init
  | done {m m' s s' op out out' answers} : Reach needs m s → SStep s op s' out →
      m.step needs op answers = (.done out', m') → Reach needs m' s'
  | threw {m m' s s' op out answers} : Reach needs m s → SStep s op s' out →
      m.step needs op answers = (.threw, m') → Reach needs m' s

/-- The operations that may throw. -/
def MayThrow : Op → Prop
  | .construct _ | .open _ _ _ | .log _ _ => True
  | _ => False

/-- The two moves of a logger. -/
def IsMove : Op → Prop
  | .moveConstruct _ _ _ | .moveAssign _ _ _ => True
  | _ => False

/-! ## Lemmas -/

structure Rel (m : Mem) (s : SState) : Prop where
  inv : Scope.Inv m.world s
  nodes : ∀ l t, s.stack l t ≠ [] → m.nodes l t = true

theorem enough_false {n : Nat} {answers : List Bool} (h : enough n answers = false) : false ∈ answers := by
  unfold enough at h
  rw [List.all_eq_false] at h
  obtain ⟨x, hx, hb⟩ := h
  cases x with
  | true => exact absurd rfl hb
  | false => exact List.mem_of_mem_take hx

/-- What the allocation of a node does. -/
theorem node_cases (m : Mem) (l t : Nat) (answers : List Bool) :
    (m.node l t answers = none ∧ m.nodes l t = false ∧ false ∈ answers)
    ∨ ∃ m' rest, m.node l t answers = some (m', rest) ∧ m'.world = m.world ∧ m'.nodes l t = true
      ∧ (∀ l' t', m.nodes l' t' = true → m'.nodes l' t' = true) ∧ (∀ b ∈ rest, b ∈ answers) := by
  unfold Mem.node
  cases h : m.nodes l t with
  | true => exact .inr ⟨m, answers, by simp, rfl, h, fun _ _ h => h, fun _ h => h⟩
  | false =>
    cases he : enough 1 answers with
    | true =>
      refine .inr ⟨⟨m.world, upd m.nodes l (upd (m.nodes l) t true)⟩, answers.drop 1, by simp, rfl, by simp [upd], ?_, fun b hb => List.mem_of_mem_drop hb⟩
      intro l' t' h'
      simp only [upd]
      split
      · rename_i e
        simp only [upd]
        split
        · rfl
        · rw [← e]; exact h'
      · exact h'
    | false => exact .inl ⟨by simp, rfl, enough_false he⟩

theorem Rel.node {m : Mem} {s : SState} (h : Rel m s) {m' : Mem} (hw : m'.world = m.world)
    (hn : ∀ l t, m.nodes l t = true → m'.nodes l t = true) : Rel m' s :=
  ⟨hw ▸ h.inv, fun l t hs => hn l t (h.nodes l t hs)⟩

/-- Closing a scope needs no memory. -/
theorem close_done {m : Mem} {s : SState} (h : Rel m s) {t l a x rest} (hs : s.stack l t = (a, x) :: rest)
    (answers : List Bool) : ∃ w, m.close t a answers = (.done none, { m with world := w })
      ∧ Scope.Inv w (s.setStack l t rest) := by
  obtain ⟨w, hw, hi⟩ := refine_close h.inv hs
  have hl : s.status l = .live := h.inv.live_of_stack hs
  obtain ⟨mm, hm, hc⟩ := h.inv.live l hl
  have hct := hc t
  rw [hs] at hct
  obtain ⟨_, q, hq, _, _⟩ := hct
  have hn : m.nodes l t = true := h.nodes l t (by rw [hs]; simp)
  have hclose : m.world.closeScope t a = .ok w := by
    simp only [World.step] at hw
    cases hcl : m.world.closeScope t a with
    | error u => rw [hcl] at hw; cases hw
    | ok w' => rw [hcl] at hw; cases hw; rfl
  refine ⟨w, ?_, hi⟩
  simp only [Mem.close, hq, Mem.node, hn, if_true, hclose]

theorem step_rel (needs : Needs) {m : Mem} {s s' : SState} {op : Op} {out} (h : Rel m s) (hs : SStep s op s' out)
    (answers : List Bool) :
    (∃ m', m.step needs op answers = (.done out, m') ∧ Rel m' s')
    ∨ (∃ m', m.step needs op answers = (.threw, m') ∧ Rel m' s ∧ MayThrow op ∧ false ∈ answers)
    ∨ (m.step needs op answers = (.terminated, m) ∧ IsMove op ∧ false ∈ answers) := by
  obtain ⟨w', hw, hi⟩ := step_refines h.inv hs
  cases hs with
  | @construct l ha =>
    simp only [Mem.step]
    cases he : enough needs.logger answers with
    | true =>
      refine .inl ⟨_, by rw [if_pos rfl], ?_⟩
      simp only [World.step] at hw
      cases hw
      refine ⟨hi, fun l' t hst => ?_⟩
      have hne : l' ≠ l := by
        rintro rfl
        exact hst ((h.inv.absent l' ha).2 t)
      simp only [upd, hne, if_false]
      exact h.nodes l' t hst
    | false => exact .inr (.inl ⟨m, by simp, h, trivial, enough_false he⟩)
  | @«open» t l x hl =>
    simp only [Mem.step, Mem.openScope]
    rcases node_cases m l t answers with ⟨h1, h2, h3⟩ | ⟨m1, rest, h1, h2, h3, h4, h5⟩
    · exact .inr (.inl ⟨m, by simp [h1], h, trivial, h3⟩)
    · rw [h1]
      simp only
      have r1 : Rel m1 s := h.node h2 h4
      simp only [World.step] at hw
      cases hop : m1.world.openScope t l x with
      | error u => rw [h2] at hop; rw [hop] at hw; cases hw
      | ok p =>
        obtain ⟨w, a⟩ := p
        have hop' := hop
        rw [h2] at hop'
        rw [hop'] at hw
        cases hw
        simp only
        have r2 : Rel { m1 with world := w }
            { s.setStack l t ((s.opened, x) :: s.stack l t) with opened := s.opened + 1 } := by
          refine ⟨hi, fun l' t' hst => ?_⟩
          simp only [SState.setStack] at hst
          by_cases hc : l' = l ∧ t' = t
          · obtain ⟨rfl, rfl⟩ := hc
            exact h3
          · rw [if_neg hc] at hst
            exact r1.nodes l' t' hst
        cases he : enough (needs.scope x) rest with
        | true => exact .inl ⟨_, by rw [if_pos rfl], r2⟩
        | false =>
          rw [if_neg (by simp)]
          have ha : a = s.opened := by
            simp only [World.openScope, World.get, World.reset] at hop'
            obtain ⟨mm, hm, _⟩ := h.inv.live l hl
            rw [hm] at hop'
            simp only [bind, Except.bind, pure, Except.pure, Except.ok.injEq, Prod.mk.injEq] at hop'
            rw [← hop'.2, h.inv.next]
          have hst : ({ s.setStack l t ((s.opened, x) :: s.stack l t) with opened := s.opened + 1 } : SState).stack l t
              = (a, x) :: s.stack l t := by simp [SState.setStack, ha]
          obtain ⟨w2, hc, hi2⟩ := close_done r2 hst (rest.drop (needs.scope x))
          rw [hc]
          simp only
          refine .inr (.inl ⟨_, rfl, ?_, trivial, h5 _ (enough_false he)⟩)
          have hstack : ∀ l' t', (({ s.setStack l t ((s.opened, x) :: s.stack l t) with
              opened := s.opened + 1 } : SState).setStack l t (s.stack l t)).stack l' t' = s.stack l' t' := by
            intro l' t'
            simp only [SState.setStack]
            split
            · rename_i hc; rw [hc.1, hc.2]
            · rfl
          refine ⟨?_, fun l' t' hs' => r1.nodes l' t' hs'⟩
          constructor
          · exact ha
          · intro l' hl'
            exact ⟨(hi2.absent l' hl').1, (h.inv.absent l' hl').2⟩
          · intro l' hl'
            obtain ⟨mm, hm, hch⟩ := hi2.live l' hl'
            exact ⟨mm, hm, fun t' => by have := hch t'; rw [hstack] at this; exact this⟩
          · intro l' t' hl'
            exact ⟨(h.inv.moved l' t' hl').1, (hi2.moved l' t' hl').2⟩
          · exact h.inv.bound
          · exact h.inv.disj
  | @close t l a x rest hst =>
    obtain ⟨w, hc, hi2⟩ := close_done h hst answers
    refine .inl ⟨_, hc, hi2, fun l' t' hs' => ?_⟩
    simp only [SState.setStack] at hs'
    by_cases hc : l' = l ∧ t' = t
    · obtain ⟨rfl, rfl⟩ := hc
      exact h.nodes l' t' (by rw [hst]; simp)
    · rw [if_neg hc] at hs'
      exact h.nodes l' t' hs'
  | @log t l hl =>
    simp only [Mem.step]
    simp only [World.step] at hw
    cases hsc : m.world.scoped t l with
    | error u => rw [hsc] at hw; cases hw
    | ok o =>
      rw [hsc] at hw
      simp only [bind, Except.bind, pure, Except.pure, Except.ok.injEq, Prod.mk.injEq, Option.some.injEq] at hw
      obtain ⟨rfl, rfl⟩ := hw
      simp only
      cases he : enough (needs.log ((s.stack l t).map Prod.snd)) answers with
      | true => exact .inl ⟨m, by simp, h⟩
      | false => exact .inr (.inl ⟨m, by simp, h, trivial, enough_false he⟩)
  | @moveConstruct t dst src hd hsrc ho =>
    simp only [Mem.step]
    cases he : enough 1 answers with
    | false => exact .inr (.inr ⟨by simp, trivial, enough_false he⟩)
    | true =>
      rw [if_pos rfl]
      rcases node_cases { m with nodes := upd m.nodes dst (fun _ => false) } dst t (answers.drop 1) with
        ⟨h1, _, h3⟩ | ⟨m1, rest, h1, h2, h3, h4, h5⟩
      · exact .inr (.inr ⟨by rw [h1], trivial, List.mem_of_mem_drop h3⟩)
      · rw [h1]
        simp only
        simp only at h2
        simp only [World.step] at hw
        cases hmv : m1.world.moveConstruct t dst src with
        | error u => rw [h2] at hmv; rw [hmv] at hw; cases hw
        | ok w =>
          rw [h2] at hmv
          rw [hmv] at hw
          cases hw
          refine .inl ⟨_, rfl, hi, fun l' t' hs' => ?_⟩
          simp only [SState.transfer] at hs'
          by_cases h6 : l' = dst
          · subst h6
            simp only [if_true] at hs'
            by_cases h7 : t' = t
            · rw [h7]; exact h3
            · rw [if_neg h7] at hs'
              exact absurd ((h.inv.absent l' hd).2 t') hs'
          · rw [if_neg h6] at hs'
            by_cases h7 : l' = src
            · rw [if_pos h7] at hs'; exact absurd rfl hs'
            · rw [if_neg h7] at hs'
              exact h4 l' t' (by simp only [upd, h6, if_false]; exact h.nodes l' t' hs')
  | @moveAssign t dst src hne hd hsrc ho =>
    simp only [Mem.step]
    rw [if_neg hne]
    rcases node_cases m dst t answers with ⟨h1, _, h3⟩ | ⟨m1, rest, h1, h2, h3, h4, h5⟩
    · exact .inr (.inr ⟨by rw [h1], trivial, h3⟩)
    · rw [h1]
      simp only
      simp only [World.step] at hw
      cases hmv : m1.world.moveAssign t dst src with
      | error u => rw [h2] at hmv; rw [hmv] at hw; cases hw
      | ok w =>
        rw [h2] at hmv
        rw [hmv] at hw
        cases hw
        refine .inl ⟨_, rfl, hi, fun l' t' hs' => ?_⟩
        simp only [SState.transfer] at hs'
        by_cases h6 : l' = dst
        · subst h6
          simp only [if_true] at hs'
          by_cases h7 : t' = t
          · rw [h7]; exact h3
          · rw [if_neg h7] at hs'
            exact h4 _ _ (h.nodes _ _ hs')
        · rw [if_neg h6] at hs'
          by_cases h7 : l' = src
          · rw [if_pos h7] at hs'; exact absurd rfl hs'
          · rw [if_neg h7] at hs'
            exact h4 _ _ (h.nodes _ _ hs')
  | moveAssignSelf hl =>
    refine .inl ⟨m, ?_, h⟩
    simp [Mem.step]
  | @destroy l hl ho =>
    simp only [World.step] at hw
    cases hw
    exact .inl ⟨_, rfl, hi, fun l' t' hs' => h.nodes l' t' hs'⟩

theorem Rel.init : Rel Mem.init SState.init := ⟨Scope.Inv.init, fun _ _ h => absurd rfl h⟩

theorem Reach.rel {needs : Needs} {m : Mem} {s : SState} (h : Reach needs m s) : Rel m s := by
  induction h with
  | init => exact Rel.init
  | @done m m' s s' op out out' answers _ hs e ih =>
    rcases step_rel needs ih hs answers with ⟨m1, e1, r⟩ | ⟨m1, e1, _⟩ | ⟨e1, _⟩
    · rw [e] at e1; cases e1; exact r
    · rw [e] at e1; cases e1
    · rw [e] at e1; cases e1
  | @threw m m' s s' op out answers _ hs e ih =>
    rcases step_rel needs ih hs answers with ⟨m1, e1, r⟩ | ⟨m1, e1, r, _⟩ | ⟨e1, _⟩
    · rw [e] at e1; cases e1
    · rw [e] at e1; cases e1; exact r
    · rw [e] at e1; cases e1

theorem Rel.scoped {m : Mem} {s : SState} (h : Rel m s) (t l : Nat) (hl : s.status l = .live) :
    m.world.scoped t l = .ok ((s.stack l t).map Prod.snd) := by
  obtain ⟨mm, hm, hc⟩ := h.inv.live l hl
  exact scoped_of_chain hm (hc t) fun e he => by rw [h.inv.next]; exact h.inv.bound _ _ e he

/-! ## C103 -/

/-- Wherever memory runs out in whatever history, an operation other than a move does what it should, or throws: only
making a logger, opening a scope and a log call throw, and only if there was no memory. -/
theorem C103_outcome_partial (needs : Needs) {m : Mem} {s s' : SState} {op : Op} {out} (h : Reach needs m s)
    (hs : SStep s op s' out) (answers : List Bool) (hm : ¬ IsMove op) :
    (m.step needs op answers).1 = .done out
    ∨ ((m.step needs op answers).1 = .threw ∧ MayThrow op ∧ false ∈ answers) := by
  rcases step_rel needs h.rel hs answers with ⟨m1, e1, _⟩ | ⟨m1, e1, _, h2, h3⟩ | ⟨_, h2, _⟩
  · exact .inl (by rw [e1])
  · exact .inr ⟨by rw [e1], h2, h3⟩
  · exact absurd h2 hm

/-- An operation that threw left no trace: every thread has the same scopes on every logger, and every operation that
was possible before still is. -/
theorem C103_unchanged (needs : Needs) {m m' : Mem} {s s' : SState} {op : Op} {out} (h : Reach needs m s)
    (hs : SStep s op s' out) (answers : List Bool) (e : m.step needs op answers = (.threw, m')) (t l : Nat)
    (hl : s.status l = .live) :
    Reach needs m' s ∧ m'.world.scoped t l = m.world.scoped t l
      ∧ m.world.scoped t l = .ok ((s.stack l t).map Prod.snd) := by
  have h' : Reach needs m' s := .threw h hs e
  exact ⟨h', by rw [h.rel.scoped t l hl, h'.rel.scoped t l hl], h.rel.scoped t l hl⟩

/-- A scope can always be closed, without any memory. -/
theorem C103_close (needs : Needs) {m : Mem} {s : SState} (h : Reach needs m s) (t l a : Nat) (x : AttrList) (rest)
    (hs : s.stack l t = (a, x) :: rest) (answers : List Bool) :
    (m.step needs (.close t a) answers).1 = .done none := by
  rcases C103_outcome_partial needs h (.close hs) answers (fun h => h) with h | ⟨_, h, _⟩
  · exact h
  · exact h.elim

/-- A log call throws, if it does, before the record is made: no handler is called, and the next log call with memory
carries the same scopes. -/
theorem C103_log_again (needs : Needs) {m m' : Mem} {s : SState} (h : Reach needs m s) (t l : Nat) (hl : s.status l = .live)
    (answers : List Bool) (e : m.step needs (.log t l) answers = (.threw, m')) :
    m' = m ∧ (m'.step needs (.log t l) []).1 = .done (some ((s.stack l t).map Prod.snd)) := by
  have hm : m' = m := by
    simp only [Mem.step, h.rel.scoped t l hl] at e
    split at e
    · cases e
    · cases e; rfl
  refine ⟨hm, ?_⟩
  rw [hm]
  simp [Mem.step, h.rel.scoped t l hl, enough]

/-- With memory for everything, everything does what it should. -/
theorem C103_memory (needs : Needs) {m : Mem} {s s' : SState} {op : Op} {out} (h : Reach needs m s)
    (hs : SStep s op s' out) : (m.step needs op []).1 = .done out := by
  rcases step_rel needs h.rel hs [] with ⟨m1, e1, _⟩ | ⟨m1, e1, _, _, h3⟩ | ⟨_, _, h3⟩
  · rw [e1]
  · cases h3
  · cases h3

/-- Without memory, moving a logger into a new one ends the process, in every state; -/
theorem C103_fails_move (needs : Needs) (m : Mem) (t dst src : Nat) (answers : List Bool) :
    (m.step needs (.moveConstruct t dst src) (false :: answers)).1 = .terminated := by
  simp [Mem.step, enough]

/-- so does assigning to one on which the thread has never opened a scope, and only that. -/
theorem C103_fails_assign (needs : Needs) {m : Mem} {s s' : SState} {t dst src : Nat} {out} (h : Reach needs m s)
    (hs : SStep s (.moveAssign t dst src) s' out) (hne : dst ≠ src) (answers : List Bool) :
    (m.step needs (.moveAssign t dst src) answers).1 = .terminated ↔ m.nodes dst t = false ∧ answers.head? = some false := by
  have hen : enough 1 answers = false ↔ answers.head? = some false := by
    unfold enough
    cases answers with
    | nil => simp
    | cons b bs => simp
  constructor
  · intro e
    rcases step_rel needs h.rel hs answers with ⟨m1, e1, _⟩ | ⟨m1, e1, _⟩ | ⟨e1, _⟩
    · rw [e1] at e; cases e
    · rw [e1] at e; cases e
    · simp only [Mem.step] at e1
      rw [if_neg hne] at e1
      rcases node_cases m dst t answers with ⟨h1, h2, h3⟩ | ⟨m1, rest, h1, h2, h3, h4, h5⟩
      · refine ⟨h2, hen.1 ?_⟩
        simp only [Mem.node, h2] at h1
        cases he : enough 1 answers with
        | false => rfl
        | true => rw [he] at h1; simp at h1
      · rw [h1] at e1
        simp only at e1
        split at e1 <;> cases e1
  · rintro ⟨h1, h2⟩
    have h2 := hen.2 h2
    simp only [Mem.step]
    rw [if_neg hne]
    simp [Mem.node, h1, h2]

/-! ## The hypotheses can be met -/

/-- For containers that have room for 16 elements. -/
def usual : Needs := ⟨fun x => x.length / 16, fun x => 1 + x.length / 16, 3⟩

/-- A scope of twenty attributes for which there is no memory, in a scope that is open. -/
example : let m1 := (Mem.init.step usual (.construct 0) []).2
    let m2 := (m1.step usual (.open 7 0 [(['k'], .uint 1)]) []).2
    let r := m2.step usual (.open 7 0 (List.replicate 20 (['x'], .uint 2))) [false]
    r.1 = .threw ∧ (r.2.step usual (.log 7 0) []).1 = .done (some [[(['k'], .uint 1)]]) := by decide

example : ∃ m s, Reach usual m s ∧ s.status 0 = .live ∧ s.stack 0 7 = [(0, [(['k'], .uint 1)])] :=
  ⟨_, _, .done (op := .open 7 0 [(['k'], .uint 1)]) (answers := []) (.done (op := .construct 0) (answers := []) .init
    (.construct rfl) rfl) (.open rfl) rfl, rfl, rfl⟩

end Blackhole.Exhaust
