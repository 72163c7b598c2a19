import Verif.AsyncMem.Spec
import Verif.RecordBuf.Blocks
import Verif.Ring.History

/-! # The asynchronous sink with the memory of its records: the queue and the memory agree -/

namespace Blackhole.AsyncMem

open RecordBuf (Mem FRec FSV Op readF SState Refines owned)
open Root (Rec)
open Async (Policy)
open Ring (upd upd_same upd_ne)

/-- The memory agrees with the abstract buffers, and no block is without an owner. -/
structure Held (m : Mem) (σ : SState) : Prop extends Refines m σ where
  own : RecordBuf.Own m

theorem held_step {m : Mem} {σ σ' : SState} (h : Held m σ) {op : Op} (hs : σ.step op = some σ') :
    ∃ m', m.step op = .ok m' ∧ Held m' σ' := by
  obtain ⟨m', h1, h2⟩ := RecordBuf.step_refines h.toRefines hs
  exact ⟨m', h1, h2, RecordBuf.own_step h.inv h.own h1⟩

theorem held_run {m : Mem} {σ σ' : SState} (ops : List Op) (h : Held m σ) (hs : σ.run ops = some σ') :
    ∃ m', m.run ops = .ok m' ∧ Held m' σ' := by
  obtain ⟨m', h1, h2, h3⟩ := RecordBuf.run_own ops h.toRefines h.own hs
  exact ⟨m', h1, h2, h3⟩

/-- There are no other buffers than those of the cells, the calls and the worker. -/
def Others (cap : Nat) (σ : SState) : Prop :=
  ∀ o, (∀ i, i < cap → o ≠ cellAt i) → (∀ p, o ≠ tempAt p) → o ≠ resultAt → σ.cell o = .absent

theorem Others.set {cap : Nat} {σ : SState} (h : Others cap σ) {x : Nat} (c : RecordBuf.Cell)
    (hx : (∃ i, i < cap ∧ x = cellAt i) ∨ (∃ p, x = tempAt p) ∨ x = resultAt) : Others cap (σ.set x c) := by
  intro o h1 h2 h3
  have hne : o ≠ x := by
    rcases hx with ⟨i, hi, rfl⟩ | ⟨p, rfl⟩ | rfl
    · exact h1 i hi
    · exact h2 p
    · exact h3
  simp only [SState.set, if_neg hne]
  exact h o h1 h2 h3

theorem Others.cell {cap : Nat} {σ : SState} (h : Others cap σ) {i : Nat} (hi : i < cap) (c : RecordBuf.Cell) :
    Others cap (σ.set (cellAt i) c) := h.set c (.inl ⟨i, hi, rfl⟩)

theorem Others.temp {cap : Nat} {σ : SState} (h : Others cap σ) (p : Nat) (c : RecordBuf.Cell) :
    Others cap (σ.set (tempAt p) c) := h.set c (.inr (.inl ⟨p, rfl⟩))

theorem Others.result {cap : Nat} {σ : SState} (h : Others cap σ) (c : RecordBuf.Cell) :
    Others cap (σ.set resultAt c) := h.set c (.inr (.inr rfl))

/-- The object at an address holds what the wrapped sink has to see of this call. -/
def Holds (σ : SState) (texts : Nat → Option Str) (o : Nat) (e : Call) : Prop :=
  σ.cell o = .holds (owned e.eval e.contents) ∧ texts o = some e.text

def TempGood (σ : SState) (texts : Nat → Option Str) (p : Nat) : Ring.PPc Call → Prop
  | .writing e _ => Holds σ texts (tempAt p) e
  | _ => σ.cell (tempAt p) = .absent

def ResultGood (σ : SState) (texts : Nat → Option Str) : Ring.CPc Call → Prop
  | .copied _ x => Holds σ texts resultAt x.2
  | .got (some x) => Holds σ texts resultAt x.2
  | .deliver x => Holds σ texts resultAt x.2
  | .terminated => True
  | _ => σ.cell resultAt = .absent

structure Good (cap : Nat) (s : State) (σ : SState) : Prop where
  refines : Held s.mem σ
  others : Others cap σ
  cells : ∀ i, i < cap → σ.cell (cellAt i) ≠ .absent
  full : ∀ i p e, i < cap → s.ring.data i = some (p, e) → Holds σ s.texts (cellAt i) e
  temps : ∀ p, TempGood σ s.texts p (s.ring.producers p)
  result : ResultGood σ s.texts s.ring.consumer
  calls : ∀ p e, inCall (s.ring.producers p) = some e → e.unchanged σ.foreign = true ∧ p ∈ s.threads
  seen : s.seen = (Ring.delivered s.ring.trace).map (fun x => x.2.value)

theorem mem_init (lib : RecordBuf.Lib) (cap : Nat) : ∃ σ : SState,
    Held ((List.range cap).foldl (fun m i => m.constructDefault (cellAt i)) (Mem.init lib)) σ ∧
    (∀ i, i < cap → σ.cell (cellAt i) = .empty) ∧ ∀ o, (∀ i, i < cap → o ≠ cellAt i) → σ.cell o = .absent := by
  induction cap with
  | zero => exact ⟨SState.init, ⟨RecordBuf.init_refines lib, RecordBuf.own_init lib⟩, by simp, fun _ _ => rfl⟩
  | succ n ih =>
    obtain ⟨σ, h1, h2, h3⟩ := ih
    rw [List.range_succ, List.foldl_append]
    have ha : σ.cell (cellAt n) = .absent := h3 _ (fun i hi => by simp only [cellAt]; omega)
    obtain ⟨m', h4, h5⟩ := held_step h1 (op := .default (cellAt n)) (σ' := σ.set (cellAt n) .empty)
      (by simp [SState.step, ha])
    have ho : ((List.range n).foldl (fun m i => m.constructDefault (cellAt i)) (Mem.init lib)).objs (cellAt n) = none := by
      have := h1.cells (cellAt n)
      rw [ha] at this
      exact this
    simp only [Mem.step, ho, Except.ok.injEq] at h4
    subst h4
    refine ⟨_, h5, ?_, ?_⟩
    · intro i hi
      simp only [SState.set]
      split
      · rfl
      · rename_i hne
        exact h2 i (by
          rcases Nat.lt_or_ge i n with h | h
          · exact h
          · exact absurd (by rw [show i = n by omega]) hne)
    · intro o ho
      simp only [SState.set]
      rw [if_neg (ho n (by omega))]
      exact h3 o (fun i hi => ho i (by omega))

theorem good_init (lib : RecordBuf.Lib) (cap : Nat) : ∃ σ, Good cap (State.init lib cap) σ := by
  obtain ⟨σ, h1, h2, h3⟩ := mem_init lib cap
  refine ⟨σ, h1, (fun o ho _ _ => h3 o ho), fun i hi => by rw [h2 i hi]; simp, (fun i p e _ h => nomatch h), ?_, ?_,
    (fun p e h => nomatch h), rfl⟩
  · intro p
    exact h3 _ (fun i _ => by simp only [cellAt, tempAt]; omega)
  · exact h3 _ (fun i _ => by simp only [cellAt, resultAt]; omega)

/-- A step of a producer that does nothing to the memory. -/
theorem good_go {cap : Nat} {s : State} {σ : SState} {r : Ring.State Call} {p : Nat} {x : Ring.PPc Call} (h : Good cap s σ)
    (h1 : r.data = s.ring.data) (h2 : r.producers = upd s.ring.producers p x) (h3 : r.consumer = s.ring.consumer)
    (h4 : Ring.delivered r.trace = Ring.delivered s.ring.trace)
    (h5 : ∀ e, inCall x = some e → inCall (s.ring.producers p) = some e)
    (h6 : ∀ e q, s.ring.producers p ≠ .writing e q) (h7 : ∀ e q, x ≠ .writing e q) : Good cap { s with ring := r } σ := by
  refine ⟨h.refines, h.others, h.cells, ?_, ?_, ?_, ?_, ?_⟩
  · simp only [h1]; exact h.full
  · intro q
    simp only [h2]
    by_cases hq : q = p
    · subst hq
      rw [upd_same]
      have := h.temps q
      cases hx : x <;> cases hp : s.ring.producers q <;> rw [hp] at this <;> first
        | exact absurd hp (h6 _ _)
        | exact absurd hx (h7 _ _)
        | exact this
    · rw [upd_ne _ _ hq]; exact h.temps q
  · simp only [h3]; exact h.result
  · intro q e hq
    simp only [h2] at hq
    by_cases hqp : q = p
    · subst hqp
      rw [upd_same] at hq
      exact h.calls q e (h5 e hq)
    · rw [upd_ne _ _ hqp] at hq
      exact h.calls q e hq
  · simp only [h4]; exact h.seen

/-- A step of the worker that does nothing to the memory. -/
theorem good_cons {cap : Nat} {s : State} {σ : SState} {r : Ring.State Call} (h : Good cap s σ)
    (h1 : r.data = s.ring.data) (h2 : r.producers = s.ring.producers)
    (h3 : ResultGood σ s.texts s.ring.consumer → ResultGood σ s.texts r.consumer)
    (h4 : Ring.delivered r.trace = Ring.delivered s.ring.trace) : Good cap { s with ring := r } σ :=
  ⟨h.refines, h.others, h.cells, by simp only [h1]; exact h.full, by simp only [h2]; exact h.temps, h3 h.result,
    by simp only [h2]; exact h.calls, by simp only [h4]; exact h.seen⟩

theorem set_same (σ : SState) (o : Nat) (c : RecordBuf.Cell) : (σ.set o c).cell o = c := if_pos rfl

theorem set_ne (σ : SState) {o x : Nat} (c : RecordBuf.Cell) (h : x ≠ o) : (σ.set o c).cell x = σ.cell x := if_neg h

theorem deliver_nil (tr : List (Ring.Ev Call)) (e : Ring.Ev Call) (h : Ring.delivered [e] = []) :
    Ring.delivered (tr ++ [e]) = Ring.delivered tr := by
  rw [Ring.delivered_snoc, h, List.append_nil]

theorem unchanged_iff {g : Nat → Option Str} {e : Call} (h : e.unchanged g = true) :
    e.record.contents g = some e.contents ∧ readF g e.message = some e.text := by
  simpa [Call.unchanged] using h

theorem cell_lt {k : Nat} (pos : Nat) : Ring.cell (2 ^ k) pos < 2 ^ k := by
  rw [Ring.cell_eq]
  exact Nat.mod_lt _ (Nat.two_pow_pos k)

theorem cell_temp (i p : Nat) : cellAt i ≠ tempAt p := by simp only [cellAt, tempAt]; omega
theorem cell_result (i : Nat) : cellAt i ≠ resultAt := by simp only [cellAt, resultAt]; omega
theorem temp_result (p : Nat) : tempAt p ≠ resultAt := by simp only [tempAt, resultAt]; omega
theorem cell_inj {i j : Nat} (h : i ≠ j) : cellAt i ≠ cellAt j := by simp only [cellAt]; omega
theorem temp_inj {i j : Nat} (h : i ≠ j) : tempAt i ≠ tempAt j := by simp only [tempAt]; omega

/-- Other objects are as before. -/
theorem Holds.frame {σ σ' : SState} {texts texts' : Nat → Option Str} {o : Nat} {e : Call} (h : Holds σ texts o e)
    (h1 : σ'.cell o = σ.cell o) (h2 : texts' o = texts o) : Holds σ' texts' o e := by
  unfold Holds
  rw [h1, h2]
  exact h

theorem TempGood.frame {σ σ' : SState} {texts texts' : Nat → Option Str} {p : Nat} {x : Ring.PPc Call}
    (h : TempGood σ texts p x) (h1 : σ'.cell (tempAt p) = σ.cell (tempAt p)) (h2 : texts' (tempAt p) = texts (tempAt p)) :
    TempGood σ' texts' p x := by
  cases x <;> simp only [TempGood, Holds, h1, h2] at h ⊢ <;> exact h

theorem ResultGood.frame {σ σ' : SState} {texts texts' : Nat → Option Str} {x : Ring.CPc Call}
    (h : ResultGood σ texts x) (h1 : σ'.cell resultAt = σ.cell resultAt) (h2 : texts' resultAt = texts resultAt) :
    ResultGood σ' texts' x := by
  unfold ResultGood at h ⊢
  split at h <;> simp only [Holds, h1, h2] at h ⊢ <;> exact h

theorem move_assign {σ : SState} {d o : Nat} {r : Rec} (h1 : σ.cell d ≠ .absent) (h2 : σ.cell o = .holds r) (h : d ≠ o) :
    σ.step (.moveAssign d o) = some ((σ.set o .empty).set d (.holds r)) := by
  simp only [SState.step]
  rw [h2]
  cases hd : σ.cell d with
  | absent => exact absurd hd h1
  | empty => simp [h]
  | holds r' => simp [h]

theorem destroy {σ : SState} {o : Nat} (h1 : σ.cell o ≠ .absent) : σ.step (.destroy o) = some (σ.set o .absent) := by
  cases hd : σ.cell o with
  | absent => exact absurd hd h1
  | empty => simp [SState.step, hd]
  | holds r => simp [SState.step, hd]

/-- The result of a step: it is defined, and it is a step of the queue or of the callers only. -/
def Next (k : Nat) (policy : Policy) (s : State) (r : Except UB State) : Prop :=
  ∃ s' σ', r = .ok s' ∧ Good (2 ^ k) s' σ' ∧
    (s'.ring = s.ring ∨ ∃ c, s.ring.step (2 ^ k) policy c = some s'.ring)

theorem good_produce {k : Nat} {policy : Policy} {s : State} {σ : SState} {p : Nat} {b : Bool} {r : Except UB State}
    (h : Good (2 ^ k) s σ)
    (hs : s.step (2 ^ k) policy (.producer p b) = some r) : Next k policy s r := by
  simp only [State.step, State.with, Option.map_eq_some_iff] at hs
  obtain ⟨ring, h1, rfl⟩ := hs
  have hrun := h1
  simp only [Ring.State.step, Ring.State.produce] at h1
  have quiet : ∀ {x : Ring.PPc Call}, ring.data = s.ring.data → ring.producers = upd s.ring.producers p x →
      ring.consumer = s.ring.consumer → Ring.delivered ring.trace = Ring.delivered s.ring.trace →
      (∀ e, inCall x = some e → inCall (s.ring.producers p) = some e) →
      (∀ e q, s.ring.producers p ≠ .writing e q) → (∀ e q, s.ring.producers p ≠ .claimed e q) → (∀ e q, x ≠ .writing e q) →
      Next k policy s ((s.produced (2 ^ k) p (s.ring.producers p)).map fun s => { s with ring := ring }) := by
    intro x a1 a2 a3 a4 a5 a6 a7 a8
    have : s.produced (2 ^ k) p (s.ring.producers p) = .ok s := by
      unfold State.produced
      split
      · rename_i hp; exact absurd hp (a7 _ _)
      · rename_i hp; exact absurd hp (a6 _ _)
      · rfl
    rw [this]
    exact ⟨_, σ, rfl, good_go h a1 a2 a3 a4 a5 a6 a8, .inr ⟨_, hrun⟩⟩
  split at h1
  · cases h1
  · rename_i hp
    cases h1
    exact quiet rfl rfl rfl rfl (by simp [hp, inCall]) (by simp [hp]) (by simp [hp]) (by simp)
  · rename_i hp
    cases h1
    exact quiet rfl rfl rfl rfl (by simp [hp, inCall]) (by simp [hp]) (by simp [hp]) (by simp)
  · rename_i e pos n hp
    split at h1
    · split at h1
      · cases h1
        exact quiet rfl rfl rfl (deliver_nil _ _ rfl) (by simp [hp, inCall]) (by simp [hp]) (by simp [hp]) (by simp)
      · cases h1
        exact quiet rfl rfl rfl rfl (by simp [hp, inCall]) (by simp [hp]) (by simp [hp]) (by simp)
    · split at h1
      · cases h1
        exact quiet rfl rfl rfl rfl (by simp [hp, inCall]) (by simp [hp]) (by simp [hp]) (by simp)
      · cases h1
        exact quiet rfl rfl rfl rfl (by simp [hp, inCall]) (by simp [hp]) (by simp [hp]) (by simp)
  · rename_i e pos hp
    split at h1
    all_goals
      cases h1
      exact quiet rfl rfl rfl rfl (by simp [hp, inCall]) (by simp [hp]) (by simp [hp]) (by simp)
  · rename_i e hp
    split at h1
    · cases h1
      exact quiet rfl rfl rfl rfl (by simp [hp, inCall]) (by simp [hp]) (by simp [hp]) (by simp)
    · cases h1
      exact quiet rfl rfl rfl (deliver_nil _ _ rfl) (by simp [inCall]) (by simp [hp]) (by simp [hp]) (by simp)
  · rename_i e pos hp
    cases h1
    have hp' := h.temps p
    rw [hp] at hp'
    have hp' : σ.cell (tempAt p) = .absent := hp'
    obtain ⟨hu, -⟩ := h.calls p e (by rw [hp]; rfl)
    obtain ⟨hc, ht⟩ := unchanged_iff hu
    have hst : σ.step (.capture (tempAt p) e.eval e.record) = some (σ.set (tempAt p) (.holds (owned e.eval e.contents))) := by
      simp [SState.step, hp', hc]
    obtain ⟨m', hm, hr⟩ := held_step h.refines hst
    have hpr : s.produced (2 ^ k) p (s.ring.producers p) =
        .ok { s with mem := m', texts := upd s.texts (tempAt p) (some e.text) } := by
      rw [hp]
      simp only [State.produced, hm, textOf, h.refines.foreign, ht]
    rw [hpr]
    refine ⟨_, _, rfl, ⟨hr, h.others.temp p _, ?_, ?_, ?_, ?_, ?_, h.seen⟩, .inr ⟨_, hrun⟩⟩
    · intro i hi
      rw [set_ne _ _ (cell_temp i p)]
      exact h.cells i hi
    · intro i q e' hi hd
      have hd : upd s.ring.data (Ring.cell (2 ^ k) pos) none i = some (q, e') := hd
      by_cases hic : i = Ring.cell (2 ^ k) pos
      · rw [hic, upd_same] at hd; cases hd
      · rw [upd_ne _ _ hic] at hd
        exact (h.full i q e' hi hd).frame (set_ne _ _ (cell_temp i p)) (upd_ne _ _ (cell_temp i p))
    · intro q
      simp only [Ring.State.go]
      by_cases hq : q = p
      · subst hq
        rw [upd_same]
        exact ⟨set_same .., upd_same ..⟩
      · rw [upd_ne _ _ hq]
        exact (h.temps q).frame (set_ne _ _ (temp_inj hq)) (upd_ne _ _ (temp_inj hq))
    · exact h.result.frame (set_ne _ _ (temp_result p).symm) (upd_ne _ _ (temp_result p).symm)
    · intro q e' hq
      simp only [Ring.State.go] at hq
      by_cases hqp : q = p
      · subst hqp
        rw [upd_same] at hq
        exact h.calls q e' (by rw [hp]; exact hq)
      · rw [upd_ne _ _ hqp] at hq
        exact h.calls q e' hq
  · rename_i e pos hp
    cases h1
    have hp' := h.temps p
    rw [hp] at hp'
    obtain ⟨hh, htx⟩ : Holds σ s.texts (tempAt p) e := hp'
    have hlt := cell_lt (k := k) pos
    have hst : σ.run [.moveAssign (cellAt (Ring.cell (2 ^ k) pos)) (tempAt p), .destroy (tempAt p)] =
        some (((σ.set (tempAt p) .empty).set (cellAt (Ring.cell (2 ^ k) pos)) (.holds (owned e.eval e.contents))).set
          (tempAt p) .absent) := by
      simp only [SState.run, move_assign (h.cells _ hlt) hh (cell_temp _ p), Option.bind_some]
      rw [destroy (by rw [set_ne _ _ (cell_temp _ p).symm, set_same]; simp)]
      rfl
    obtain ⟨m', hm, hr⟩ := held_run _ h.refines hst
    have hpr : s.produced (2 ^ k) p (s.ring.producers p) =
        .ok { s with
          mem := m',
          texts := upd (upd s.texts (tempAt p) none) (cellAt (Ring.cell (2 ^ k) pos)) (some e.text) } := by
      rw [hp]
      simp only [State.produced, hm, State.textAt, htx]
    rw [hpr]
    refine ⟨_, _, rfl, ⟨hr, ((h.others.temp p _).cell hlt _).temp p _, ?_, ?_, ?_, ?_, ?_, h.seen⟩, .inr ⟨_, hrun⟩⟩
    · intro i hi
      rw [set_ne _ _ (cell_temp i p)]
      by_cases hic : i = Ring.cell (2 ^ k) pos
      · rw [hic, set_same]; simp
      · rw [set_ne _ _ (cell_inj hic), set_ne _ _ (cell_temp i p)]
        exact h.cells i hi
    · intro i q e' hi hd
      have hd : upd s.ring.data (Ring.cell (2 ^ k) pos) (some (p, e)) i = some (q, e') := hd
      by_cases hic : i = Ring.cell (2 ^ k) pos
      · rw [hic, upd_same] at hd
        cases hd
        rw [hic]
        exact ⟨by rw [set_ne _ _ (cell_temp _ p), set_same], upd_same ..⟩
      · rw [upd_ne _ _ hic] at hd
        refine (h.full i q e' hi hd).frame ?_ ?_
        · rw [set_ne _ _ (cell_temp i p), set_ne _ _ (cell_inj hic), set_ne _ _ (cell_temp i p)]
        · show upd (upd s.texts _ _) _ _ _ = _
          rw [upd_ne _ _ (cell_inj hic), upd_ne _ _ (cell_temp i p)]
    · intro q
      simp only [Ring.State.go]
      by_cases hq : q = p
      · subst hq
        rw [upd_same]
        exact set_same ..
      · rw [upd_ne _ _ hq]
        refine (h.temps q).frame ?_ ?_
        · rw [set_ne _ _ (temp_inj hq), set_ne _ _ (cell_temp _ q).symm, set_ne _ _ (temp_inj hq)]
        · rw [upd_ne _ _ (cell_temp _ q).symm, upd_ne _ _ (temp_inj hq)]
    · refine h.result.frame ?_ ?_
      · rw [set_ne _ _ (temp_result p).symm, set_ne _ _ (cell_result _).symm, set_ne _ _ (temp_result p).symm]
      · show upd (upd s.texts _ _) _ _ _ = _
        rw [upd_ne _ _ (cell_result _).symm, upd_ne _ _ (temp_result p).symm]
    · intro q e' hq
      simp only [Ring.State.go] at hq
      by_cases hqp : q = p
      · subst hqp
        rw [upd_same] at hq
        exact h.calls q e' (by rw [hp]; exact hq)
      · rw [upd_ne _ _ hqp] at hq
        exact h.calls q e' hq
  · rename_i e pos hp
    cases h1
    exact quiet rfl rfl rfl (deliver_nil _ _ rfl) (by simp [inCall]) (by simp [hp]) (by simp [hp]) (by simp)

theorem good_throws {k : Nat} {policy : Policy} {s : State} {σ : SState} {p : Nat} {r : Except UB State}
    (h : Good (2 ^ k) s σ)
    (hs : s.step (2 ^ k) policy (.throws p) = some r) : Next k policy s r := by
  simp only [State.step, State.with, Option.map_eq_some_iff] at hs
  obtain ⟨ring, h1, rfl⟩ := hs
  have hrun := h1
  simp only [Ring.State.step, Ring.State.fail] at h1
  split at h1
  · rename_i hp
    cases h1
    rw [hp]
    exact ⟨_, σ, rfl, good_go (x := .idle) h rfl rfl rfl (deliver_nil _ _ rfl) (by simp [inCall]) (by simp [hp]) (by simp),
      .inr ⟨_, hrun⟩⟩
  · rename_i e pos hp
    cases h1
    have hp' := h.temps p
    rw [hp] at hp'
    obtain ⟨hh, htx⟩ : Holds σ s.texts (tempAt p) e := hp'
    obtain ⟨m', hm, hr⟩ := held_step h.refines (destroy (σ := σ) (o := tempAt p) (by rw [hh]; simp))
    have hpr : s.failed p (s.ring.producers p) = .ok { s with mem := m', texts := upd s.texts (tempAt p) none } := by
      rw [hp]
      simp only [State.failed, hm]
    rw [hpr]
    refine ⟨_, _, rfl, ⟨hr, h.others.temp p _, ?_, ?_, ?_, ?_, ?_, ?_⟩, .inr ⟨_, hrun⟩⟩
    · intro i hi
      rw [set_ne _ _ (cell_temp i p)]
      exact h.cells i hi
    · intro i q e' hi hd
      exact (h.full i q e' hi hd).frame (set_ne _ _ (cell_temp i p)) (upd_ne _ _ (cell_temp i p))
    · intro q
      simp only [Ring.State.go, Ring.State.say]
      by_cases hq : q = p
      · subst hq
        rw [upd_same]
        exact set_same ..
      · rw [upd_ne _ _ hq]
        exact (h.temps q).frame (set_ne _ _ (temp_inj hq)) (upd_ne _ _ (temp_inj hq))
    · exact h.result.frame (set_ne _ _ (temp_result p).symm) (upd_ne _ _ (temp_result p).symm)
    · intro q e' hq
      simp only [Ring.State.go, Ring.State.say] at hq
      by_cases hqp : q = p
      · subst hqp
        rw [upd_same] at hq
        cases hq
      · rw [upd_ne _ _ hqp] at hq
        exact h.calls q e' hq
    · show s.seen = (Ring.delivered (s.ring.trace ++ [_])).map _
      rw [deliver_nil _ _ rfl]
      exact h.seen
  · cases h1

/-- The wrapped sink sees what it has to see. -/
theorem shown {cap : Nat} {s : State} {σ : SState} {x : Nat × Call} (h : Good cap s σ) (hx : s.ring.consumer = .deliver x) :
    s.shown = .ok { s with seen := s.seen ++ [x.2.value] } := by
  have hr := h.result
  rw [hx] at hr
  obtain ⟨h1, h2⟩ : Holds σ s.texts resultAt x.2 := hr
  have h3 := h.refines.cells resultAt
  rw [h1] at h3
  obtain ⟨ob, h4, h5⟩ := h3
  simp only [State.shown, RecordBuf.intoView_of_reps h4 h5, State.textAt, h2, Call.value]

theorem good_consume {k : Nat} {policy : Policy} {s : State} {σ : SState} {b : Bool} {r : Except UB State}
    (h : Good (2 ^ k) s σ) (hi : Ring.Inv (2 ^ k) s.ring)
    (hs : s.step (2 ^ k) policy (.consumer b) = some r) : Next k policy s r := by
  simp only [State.step, State.with, Option.map_eq_some_iff] at hs
  obtain ⟨ring, h1, rfl⟩ := hs
  have hrun := h1
  simp only [Ring.State.step, Ring.State.consume] at h1
  have quiet : ring.data = s.ring.data → ring.producers = s.ring.producers →
      (ResultGood σ s.texts s.ring.consumer → ResultGood σ s.texts ring.consumer) →
      Ring.delivered ring.trace = Ring.delivered s.ring.trace →
      (∀ q, s.ring.consumer ≠ .reading q) → (∀ x, s.ring.consumer ≠ .deliver x) →
      Next k policy s ((s.consumed (2 ^ k) s.ring.consumer).map fun s => { s with ring := ring }) := by
    intro a1 a2 a3 a4 a5 a6
    have : s.consumed (2 ^ k) s.ring.consumer = .ok s := by
      unfold State.consumed
      split
      · rename_i hp; exact absurd hp (a5 _)
      · rename_i hp; exact absurd hp (a6 _)
      · rfl
    rw [this]
    exact ⟨_, σ, rfl, good_cons h a1 a2 a3 a4, .inr ⟨_, hrun⟩⟩
  split at h1
  · rename_i hc
    cases h1
    exact quiet rfl rfl (by rw [hc]; exact id) rfl (by simp [hc]) (by simp [hc])
  · rename_i hc
    cases h1
    exact quiet rfl rfl (by rw [hc]; exact id) rfl (by simp [hc]) (by simp [hc])
  · rename_i pos n hc
    split at h1
    · split at h1
      · cases h1
        exact quiet rfl rfl (by rw [hc]; exact id) rfl (by simp [hc]) (by simp [hc])
      · cases h1
        exact quiet rfl rfl (by rw [hc]; exact id) rfl (by simp [hc]) (by simp [hc])
    · split at h1
      · cases h1
        exact quiet rfl rfl (by rw [hc]; exact id) rfl (by simp [hc]) (by simp [hc])
      · cases h1
        exact quiet rfl rfl (by rw [hc]; exact id) rfl (by simp [hc]) (by simp [hc])
  · rename_i pos hc
    cases h1
    refine quiet rfl rfl ?_ rfl (by simp [hc]) (by simp [hc])
    rw [hc]
    simp only
    split <;> exact id
  · rename_i hc
    cases h1
    exact quiet rfl rfl (by rw [hc]; exact id) rfl (by simp [hc]) (by simp [hc])
  · rename_i pos hc
    have hg := hi.cons
    rw [hc] at hg
    obtain ⟨g1, g2, g3⟩ := hg
    have hlow := hi.low
    have hcount := hi.count
    split at h1
    · rename_i x hd
      cases h1
      obtain ⟨p, e⟩ := x
      have hlt := cell_lt (k := k) pos
      obtain ⟨hh, htx⟩ := h.full _ p e hlt hd
      have hres := h.result
      rw [hc] at hres
      have hres : σ.cell resultAt = .absent := hres
      have hst : σ.run [.default resultAt, .moveAssign resultAt (cellAt (Ring.cell (2 ^ k) pos))] =
          some (((σ.set resultAt .empty).set (cellAt (Ring.cell (2 ^ k) pos)) .empty).set resultAt
            (.holds (owned e.eval e.contents))) := by
        have h0 : σ.step (.default resultAt) = some (σ.set resultAt .empty) := by simp [SState.step, hres]
        simp only [SState.run, h0, Option.bind_some]
        rw [move_assign (r := owned e.eval e.contents) (by rw [set_same]; simp) (by rw [set_ne _ _ (cell_result _)]; exact hh)
          (cell_result _).symm]
        rfl
      obtain ⟨m', hm, hr⟩ := held_run _ h.refines hst
      have hpr : s.consumed (2 ^ k) s.ring.consumer =
          .ok { s with
            mem := m',
            texts := upd (upd s.texts (cellAt (Ring.cell (2 ^ k) pos)) (some [])) resultAt (some e.text) } := by
        rw [hc]
        simp only [State.consumed, hm, State.textAt, htx]
      rw [hpr]
      refine ⟨_, _, rfl, ⟨hr, ((h.others.result _).cell hlt _).result _, ?_, ?_, ?_, ?_, h.calls, h.seen⟩, .inr ⟨_, hrun⟩⟩
      · intro i hi
        rw [set_ne _ _ (cell_result i)]
        by_cases hic : i = Ring.cell (2 ^ k) pos
        · rw [hic, set_same]; simp
        · rw [set_ne _ _ (cell_inj hic), set_ne _ _ (cell_result i)]
          exact h.cells i hi
      · intro i q e' hi hd'
        have hd' : upd s.ring.data (Ring.cell (2 ^ k) pos) none i = some (q, e') := hd'
        by_cases hic : i = Ring.cell (2 ^ k) pos
        · rw [hic, upd_same] at hd'; cases hd'
        · rw [upd_ne _ _ hic] at hd'
          refine (h.full i q e' hi hd').frame ?_ ?_
          · rw [set_ne _ _ (cell_result i), set_ne _ _ (cell_inj hic), set_ne _ _ (cell_result i)]
          · show upd (upd s.texts _ _) _ _ _ = _
            rw [upd_ne _ _ (cell_result i), upd_ne _ _ (cell_inj hic)]
      · intro q
        refine (h.temps q).frame ?_ ?_
        · rw [set_ne _ _ (temp_result q), set_ne _ _ (cell_temp _ q).symm, set_ne _ _ (temp_result q)]
        · show upd (upd s.texts _ _) _ _ _ = _
          rw [upd_ne _ _ (temp_result q), upd_ne _ _ (cell_temp _ q).symm]
      · refine ⟨set_same .., ?_⟩
        exact upd_same (upd s.texts (cellAt (Ring.cell (2 ^ k) pos)) (some [])) resultAt (some e.text)
    · rename_i hd
      rw [Ring.cell_eq, g3, List.getElem?_eq_getElem (by omega)] at hd
      cases hd
  · rename_i hc
    cases h1
    exact quiet rfl rfl (by rw [hc]; exact id) rfl (by simp [hc]) (by simp [hc])
  · rename_i hc
    split at h1
    · cases h1
      exact quiet rfl rfl (by rw [hc]; exact id) rfl (by simp [hc]) (by simp [hc])
    · cases h1
      exact quiet rfl rfl (by rw [hc]; exact id) rfl (by simp [hc]) (by simp [hc])
  · rename_i hc
    cases h1
    exact quiet rfl rfl (by rw [hc]; exact id) rfl (by simp [hc]) (by simp [hc])
  · rename_i x hc
    cases h1
    have hres := h.result
    rw [hc] at hres
    obtain ⟨hh, htx⟩ : Holds σ s.texts resultAt x.2 := hres
    obtain ⟨m', hm, hr⟩ := held_step h.refines (destroy (σ := σ) (o := resultAt) (by rw [hh]; simp))
    have hpr : s.consumed (2 ^ k) s.ring.consumer =
        .ok { s with seen := s.seen ++ [x.2.value], mem := m', texts := upd s.texts resultAt none } := by
      have hsh := shown h hc
      rw [hc]
      simp only [State.consumed, hsh, State.release, hm]
    rw [hpr]
    refine ⟨_, _, rfl, ⟨hr, h.others.result _, ?_, ?_, ?_, ?_, h.calls, ?_⟩, .inr ⟨_, hrun⟩⟩
    · intro i hi
      rw [set_ne _ _ (cell_result i)]
      exact h.cells i hi
    · intro i q e' hi hd
      exact (h.full i q e' hi hd).frame (set_ne _ _ (cell_result i)) (upd_ne _ _ (cell_result i))
    · intro q
      exact (h.temps q).frame (set_ne _ _ (temp_result q)) (upd_ne _ _ (temp_result q))
    · exact set_same ..
    · show s.seen ++ [x.2.value] = (Ring.delivered (s.ring.trace ++ [_])).map _
      rw [Ring.delivered_snoc, List.map_append, h.seen]
      rfl
  · rename_i hc
    cases h1
    exact quiet rfl rfl (by rw [hc]; exact id) rfl (by simp [hc]) (by simp [hc])
  · cases h1
  · cases h1
  · cases h1

theorem good_step {k : Nat} {policy : Policy} {s : State} {σ : SState} {c : Cmd} {r : Except UB State}
    (h : Good (2 ^ k) s σ) (hi : Ring.Inv (2 ^ k) s.ring) (hs : s.step (2 ^ k) policy c = some r) : Next k policy s r := by
  cases c with
  | emit p record message eval =>
    simp only [State.step] at hs
    split at hs
    · rename_i contents text h1 h2
      simp only [State.with, Option.map_eq_some_iff] at hs
      obtain ⟨ring, h3, rfl⟩ := hs
      have hrun := h3
      simp only [Ring.State.step] at h3
      split at h3
      · rename_i hp
        cases h3
        refine ⟨_, σ, rfl, ⟨h.refines, h.others, h.cells, h.full, ?_, h.result, ?_, ?_⟩, .inr ⟨_, hrun⟩⟩
        · intro q
          simp only [Ring.State.go, Ring.State.say]
          by_cases hq : q = p
          · subst hq
            rw [upd_same]
            have := h.temps q
            rw [hp] at this
            exact this
          · rw [upd_ne _ _ hq]; exact h.temps q
        · intro q e hq
          simp only [Ring.State.go, Ring.State.say] at hq
          by_cases hqp : q = p
          · subst hqp
            rw [upd_same] at hq
            cases hq
            refine ⟨?_, by simp⟩
            rw [← h.refines.foreign]
            simp [Call.unchanged, h1, h2]
          · rw [upd_ne _ _ hqp] at hq
            obtain ⟨a, b⟩ := h.calls q e hq
            exact ⟨a, by simp [b]⟩
        · show s.seen = (Ring.delivered (s.ring.trace ++ [_])).map _
          rw [deliver_nil _ _ rfl]
          exact h.seen
      · cases h3
    · cases hs
  | producer p b => exact good_produce h hs
  | throws p => exact good_throws h hs
  | consumer b => exact good_consume h hi hs
  | consumerThrows =>
    simp only [State.step, State.with, Option.map_eq_some_iff] at hs
    obtain ⟨ring, h1, rfl⟩ := hs
    have hrun := h1
    simp only [Ring.State.step] at h1
    split at h1
    · rename_i x hc
      cases h1
      rw [shown h hc]
      refine ⟨_, σ, rfl, ⟨h.refines, h.others, h.cells, h.full, h.temps, trivial, h.calls, ?_⟩, .inr ⟨_, hrun⟩⟩
      show s.seen ++ [x.2.value] = (Ring.delivered (s.ring.trace ++ [_])).map _
      rw [Ring.delivered_snoc, List.map_append, h.seen]
      rfl
    · cases h1
  | stop =>
    simp only [State.step, State.with, Option.map_eq_some_iff] at hs
    obtain ⟨ring, h1, rfl⟩ := hs
    have hrun := h1
    simp only [Ring.State.step] at h1
    split at h1
    · cases h1
    · cases h1
      exact ⟨_, σ, rfl, good_cons h rfl rfl id (deliver_nil _ _ rfl), .inr ⟨_, hrun⟩⟩
  | join =>
    simp only [State.step, State.with, Option.map_eq_some_iff] at hs
    obtain ⟨ring, h1, rfl⟩ := hs
    have hrun := h1
    simp only [Ring.State.step] at h1
    split at h1
    · cases h1
      exact ⟨_, σ, rfl, good_cons h rfl rfl id (deliver_nil _ _ rfl), .inr ⟨_, hrun⟩⟩
    · cases h1
  | foreign a x =>
    simp only [State.step] at hs
    split at hs
    · rename_i hall
      obtain ⟨m', hm, hr⟩ := held_step h.refines (op := .foreign a x)
        (σ' := { σ with foreign := fun y => if y = a then x else σ.foreign y }) rfl
      simp only [Option.some.injEq] at hs
      subst hs
      rw [hm]
      refine ⟨_, _, rfl, ⟨hr, h.others, h.cells, h.full, h.temps, h.result, ?_, h.seen⟩, .inl rfl⟩
      intro q e hq
      have hmem := (h.calls q e hq).2
      have := List.all_eq_true.1 hall q hmem
      rw [hq, h.refines.foreign] at this
      exact ⟨this, hmem⟩
    · cases hs

theorem good_run {k : Nat} {policy : Policy} {s : State} {σ : SState} {cs : List Cmd} {r : Except UB State} (hk : 1 ≤ k)
    (h : Good (2 ^ k) s σ) (hi : Ring.Inv (2 ^ k) s.ring) (hs : s.run (2 ^ k) policy cs = some r) :
    ∃ s' σ', r = .ok s' ∧ Good (2 ^ k) s' σ' ∧ ∃ ds, s.ring.run (2 ^ k) policy ds = some s'.ring := by
  induction cs generalizing s σ with
  | nil =>
    simp only [State.run, Option.some.injEq] at hs
    exact ⟨s, σ, hs.symm, h, [], rfl⟩
  | cons c cs ih =>
    simp only [State.run] at hs
    split at hs
    · cases hs
    · rename_i hst
      obtain ⟨_, _, h1, -⟩ := good_step h hi hst
      cases h1
    · rename_i m hst
      obtain ⟨m', σ', h1, h2, h3⟩ := good_step h hi hst
      cases h1
      rcases h3 with h3 | ⟨d, h3⟩
      · obtain ⟨s', σ'', h4, h5, ds, h6⟩ := ih h2 (by rw [h3]; exact hi) hs
        exact ⟨s', σ'', h4, h5, ds, by rw [← h3]; exact h6⟩
      · obtain ⟨s', σ'', h4, h5, ds, h6⟩ := ih h2 (Ring.inv_step hk hi h3) hs
        exact ⟨s', σ'', h4, h5, d :: ds, by simp [Ring.State.run, h3, h6]⟩

/-! ## Destruction -/

theorem srun_append (σ : SState) (xs ys : List Op) : σ.run (xs ++ ys) = (σ.run xs).bind (·.run ys) := by
  induction xs generalizing σ with
  | nil => rfl
  | cons x xs ih =>
    simp only [List.cons_append, SState.run]
    cases σ.step x with
    | none => rfl
    | some t => exact ih t

theorem destroy_run (n : Nat) {σ : SState} (h : ∀ i, i < n → σ.cell (cellAt i) ≠ .absent) :
    ∃ σ', σ.run ((List.range n).map fun i => Op.destroy (cellAt i)) = some σ' ∧
      (∀ i, i < n → σ'.cell (cellAt i) = .absent) ∧ ∀ o, (∀ i, i < n → o ≠ cellAt i) → σ'.cell o = σ.cell o := by
  induction n with
  | zero => exact ⟨σ, rfl, (fun i hi => absurd hi (Nat.not_lt_zero i)), fun _ _ => rfl⟩
  | succ n ih =>
    obtain ⟨σ', h1, h2, h3⟩ := ih (fun i hi => h i (by omega))
    have hc : σ'.cell (cellAt n) ≠ .absent := by
      rw [h3 _ (fun i hi => by simp only [cellAt]; omega)]
      exact h n (by omega)
    refine ⟨σ'.set (cellAt n) .absent, ?_, ?_, ?_⟩
    · rw [List.range_succ, List.map_append, srun_append, h1]
      simp only [Option.bind_some, List.map_cons, List.map_nil, SState.run, SState.step]
    · intro i hi
      simp only [SState.set]
      split
      · rfl
      · rename_i hne
        exact h2 i (by
          rcases Nat.lt_or_ge i n with h | h
          · exact h
          · exact absurd (by rw [show i = n by omega]) hne)
    · intro o ho
      simp only [SState.set]
      rw [if_neg (ho n (by omega))]
      exact h3 o (fun i hi => ho i (by omega))

theorem joined_exited_step {cap : Nat} {policy : Policy} {s s' : Ring.State Call} {c : Ring.Cmd Call}
    (h : s.joined = true → s.consumer = .exited) (hs : s.step cap policy c = some s') :
    s'.joined = true → s'.consumer = .exited := by
  cases c <;> simp only [Ring.State.step, Ring.State.produce, Ring.State.fail, Ring.State.consume] at hs <;>
    (repeat' split at hs) <;> first
    | (cases hs; done)
    | (cases hs; exact h)
    | (cases hs; intro _; assumption)
    | (cases hs; intro hj; have := h hj; simp_all; done)

theorem joined_exited {cap : Nat} {policy : Policy} {s s' : Ring.State Call} {cs : List (Ring.Cmd Call)}
    (h : s.joined = true → s.consumer = .exited) (hs : s.run cap policy cs = some s') :
    s'.joined = true → s'.consumer = .exited := by
  induction cs generalizing s with
  | nil => cases hs; exact h
  | cons c cs ih =>
    simp only [Ring.State.run, Option.bind_eq_some_iff] at hs
    obtain ⟨m, h1, h2⟩ := hs
    exact ih (joined_exited_step h h1) h2

/-- When nobody is in a call and the worker has ended, the cells are all there is. -/
theorem destroyed_good {cap : Nat} {s : State} {σ : SState} (h : Good cap s σ) (hp : ∀ p, s.ring.producers p = .idle)
    (hc : s.ring.consumer = .exited) :
    ∃ m, s.destroyed cap = .ok m ∧ (∀ o, m.objs o = none) ∧ ∀ a, m.heap a = none := by
  obtain ⟨σ', h1, h2, h3⟩ := destroy_run cap h.cells
  obtain ⟨m, h4, h5⟩ := held_run _ h.refines h1
  have ha : ∀ o, σ'.cell o = .absent := by
    intro o
    by_cases ho : ∃ i, i < cap ∧ o = cellAt i
    · obtain ⟨i, hi, rfl⟩ := ho
      exact h2 i hi
    · have ho' : ∀ i, i < cap → o ≠ cellAt i := fun i hi hx => ho ⟨i, hi, hx⟩
      rw [h3 o ho']
      by_cases ht : ∃ p, o = tempAt p
      · obtain ⟨p, rfl⟩ := ht
        have := h.temps p
        rw [hp p] at this
        exact this
      · by_cases hr : o = resultAt
        · subst hr
          have := h.result
          rw [hc] at this
          exact this
        · exact h.others o ho' (fun p hx => ht ⟨p, hx⟩) hr
  have hobj : ∀ o, m.objs o = none := by
    intro o
    have := h5.cells o
    rw [ha o] at this
    exact this
  refine ⟨m, h4, hobj, fun a => ?_⟩
  cases hh : m.heap a with
  | none => rfl
  | some b =>
    obtain ⟨o, ob, ho, -⟩ := (h5.own a).1 (by rw [hh]; rfl)
    rw [hobj o] at ho
    cases ho

/-- Only the start of a call puts it in the trace. -/
theorem ring_call {cap : Nat} {policy : Policy} {s s' : Ring.State Call} {c : Ring.Cmd Call} {p : Nat} {e : Call}
    (hs : s.step cap policy c = some s') (he : .call p e ∈ s'.trace) : .call p e ∈ s.trace ∨ c = .emit p e := by
  cases c <;> simp only [Ring.State.step, Ring.State.produce, Ring.State.consume, Ring.State.fail] at hs
  all_goals (repeat' split at hs)
  all_goals first | (cases hs; done) | skip
  all_goals simp only [Option.some.injEq] at hs
  all_goals subst hs
  all_goals simp only [Ring.State.say, Ring.State.go, List.mem_append, List.mem_singleton, reduceCtorEq, or_false] at he
  all_goals first | exact .inl he | skip
  rcases he with he | he
  · exact .inl he
  · cases he
    exact .inr rfl

theorem call_step {cap : Nat} {policy : Policy} {s s' : State} {c : Cmd} {p : Nat} {e : Call}
    (hs : s.step cap policy c = some (.ok s')) (he : .call p e ∈ s'.ring.trace) :
    .call p e ∈ s.ring.trace ∨ (c = .emit p e.record e.message e.eval ∧
      e.record.contents s.mem.foreign = some e.contents ∧ readF s.mem.foreign e.message = some e.text) := by
  have other : ∀ {o : Ring.Cmd Call} {f : Except UB State}, (∀ q x, o ≠ .emit q x) →
      State.with (s.ring.step cap policy o) f = some (.ok s') → .call p e ∈ s.ring.trace := by
    intro o f ho hw
    simp only [State.with, Option.map_eq_some_iff] at hw
    obtain ⟨ring, h1, h2⟩ := hw
    cases f with
    | error u => cases h2
    | ok m =>
      cases h2
      rcases ring_call h1 he with h | h
      · exact h
      · exact absurd h (ho _ _)
  cases c with
  | emit q record message eval =>
    simp only [State.step] at hs
    split at hs
    · rename_i contents text h1 h2
      simp only [State.with, Option.map_eq_some_iff] at hs
      obtain ⟨ring, h3, h4⟩ := hs
      cases h4
      rcases ring_call h3 he with h | h
      · exact .inl h
      · cases h
        exact .inr ⟨rfl, h1, h2⟩
    · cases hs
  | foreign a x =>
    simp only [State.step] at hs
    split at hs
    · simp only [Option.some.injEq] at hs
      cases hm : s.mem.step (.foreign a x) with
      | error u => rw [hm] at hs; cases hs
      | ok m => rw [hm] at hs; cases hs; exact .inl he
    · cases hs
  | producer q b => exact .inl (other (o := (.producer q b)) (by simp) hs)
  | throws q => exact .inl (other (o := (.throws q)) (by simp) hs)
  | consumer b => exact .inl (other (o := (.consumer b)) (by simp) hs)
  | consumerThrows => exact .inl (other (o := .consumerThrows) (by simp) hs)
  | stop => exact .inl (other (o := .stop) (by simp) hs)
  | join => exact .inl (other (o := .join) (by simp) hs)

theorem call_run {cap : Nat} {policy : Policy} {s t : State} {cs : List Cmd} {p : Nat} {e : Call}
    (hs : s.run cap policy cs = some (.ok t)) (hn : .call p e ∉ s.ring.trace) (he : .call p e ∈ t.ring.trace) :
    ∃ before after m, cs = before ++ .emit p e.record e.message e.eval :: after ∧
      s.run cap policy before = some (.ok m) ∧
      e.record.contents m.mem.foreign = some e.contents ∧ readF m.mem.foreign e.message = some e.text := by
  induction cs generalizing s with
  | nil =>
    cases hs
    exact absurd he hn
  | cons c cs ih =>
    simp only [State.run] at hs
    split at hs
    · cases hs
    · cases hs
    · rename_i m hst
      by_cases hm : .call p e ∈ m.ring.trace
      · rcases call_step hst hm with h | ⟨rfl, h1, h2⟩
        · exact absurd h hn
        · exact ⟨[], cs, s, rfl, rfl, h1, h2⟩
      · obtain ⟨b, a, m', rfl, h2, h3⟩ := ih hs hm
        exact ⟨c :: b, a, m', rfl, by simp [State.run, hst, h2], h3⟩

end Blackhole.AsyncMem
