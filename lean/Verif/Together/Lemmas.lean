import Verif.Together.Spec

namespace Blackhole.Together

open File (Rotate RotateFactory Flusher FlusherFactory Backend)

section basics

@[simp] theorem set_same (w : World) (k : Nat) (s : Sink) : (w.set k s).sinks k = s := by simp [World.set]

theorem set_other (w : World) {k j : Nat} (s : Sink) (h : j ≠ k) : (w.set k s).sinks j = w.sinks j := by
  simp [World.set, h]

theorem set_sinks (w : World) (k j : Nat) (s : Sink) : (w.set k s).sinks j = if j = k then s else w.sinks j := rfl
@[simp] theorem set_log (w : World) (k : Nat) (s : Sink) : (w.set k s).log = w.log := rfl
@[simp] theorem set_wrote (w : World) (k : Nat) (s : Sink) : (w.set k s).wrote = w.wrote := rfl
@[simp] theorem set_path (w : World) (k : Nat) (s : Sink) : (w.set k s).path = w.path := rfl
@[simp] theorem set_next (w : World) (k : Nat) (s : Sink) : (w.set k s).next = w.next := rfl

@[simp] theorem hand_sinks (w : World) (k i : Nat) (t : Str) : (w.hand k i t).sinks = w.sinks := by
  unfold World.hand; split <;> rfl
@[simp] theorem hand_wrote (w : World) (k i : Nat) (t : Str) : (w.hand k i t).wrote = w.wrote := by
  unfold World.hand; split <;> rfl
@[simp] theorem hand_path (w : World) (k i : Nat) (t : Str) : (w.hand k i t).path = w.path := by
  unfold World.hand; split <;> rfl
@[simp] theorem hand_next (w : World) (k i : Nat) (t : Str) : (w.hand k i t).next = w.next := by
  unfold World.hand; split <;> rfl

theorem hand_log (w : World) (k i : Nat) (t : Str) :
    (w.hand k i t).log = w.log ++ if t = [] then [] else [⟨k, i, t⟩] := by
  unfold World.hand; split <;> simp

theorem handed_hand (w : World) (k i : Nat) (t : Str) (k' i' : Nat) :
    handed (w.hand k i t).log k' i' = handed w.log k' i' ++ if k = k' ∧ i = i' then t else [] := by
  rw [hand_log]
  unfold handed
  by_cases ht : t = []
  · simp [ht]
  · by_cases h : k = k' ∧ i = i'
    · simp [ht, h]
    · simp only [if_neg ht, if_neg h, List.filter_append, List.flatMap_append]
      have : List.filter (fun c : Chunk => decide (c.sink = k' ∧ c.inode = i')) [⟨k, i, t⟩] = [] := by
        simp only [List.filter_cons, List.filter_nil]
        simp [h]
      rw [this]; rfl

@[simp] theorem named_sinks (w : World) : w.named.1.sinks = w.sinks := by unfold World.named; split <;> rfl
@[simp] theorem named_log (w : World) : w.named.1.log = w.log := by unfold World.named; split <;> rfl
@[simp] theorem named_wrote (w : World) : w.named.1.wrote = w.wrote := by unfold World.named; split <;> rfl
theorem named_path (w : World) : w.named.1.path = some w.named.2 := by
  unfold World.named
  split
  · next i h => exact h
  · rfl

theorem callsTo_snoc (l : List Call) (c : Call) (k i : Nat) :
    callsTo (l ++ [c]) k i = callsTo l k i ++ if c.sink = k ∧ c.inode = i then [c] else [] := by
  unfold callsTo
  by_cases h : c.sink = k ∧ c.inode = i
  · simp [h]
  · simp only [if_neg h, List.filter_append, List.filter_cons, List.filter_nil]
    simp [h]

theorem lines_append (a b : List Call) : lines (a ++ b) = lines a ++ lines b := by simp [lines]

end basics

/-- Where a call is says whether there is a backend. -/
def Sink.Wf (s : Sink) : Prop :=
  match s.pc with
  | .idle | .look _ => True
  | .check _ | .close _ | .write _ | .newline _ | .flush _ => s.current ≠ none
  | .openFile _ | .record _ _ => s.current = none

structure Inv (w : World) : Prop where
  wf : ∀ k, (w.sinks k).Wf
  text : ∀ k i, handed w.log k i ++ (w.sinks k).held i = lines (callsTo w.wrote k i) ++ (w.sinks k).begun i

theorem inv_init (p n c) : Inv (World.init p n c) := by
  constructor
  · intro k; exact trivial
  · intro k i; rfl

/-- A step of one sink. -/
theorem inv_set {w w' : World} (k : Nat) (h : Inv w) (hs : ∀ j, j ≠ k → w'.sinks j = w.sinks j)
    (hl : ∀ j, j ≠ k → ∀ i, handed w'.log j i = handed w.log j i)
    (hc : ∀ j, j ≠ k → ∀ i, callsTo w'.wrote j i = callsTo w.wrote j i)
    (hw : (w'.sinks k).Wf)
    (ht : ∀ i, handed w'.log k i ++ (w'.sinks k).held i = lines (callsTo w'.wrote k i) ++ (w'.sinks k).begun i) : Inv w' := by
  constructor
  · intro j
    by_cases e : j = k
    · subst e; exact hw
    · rw [hs j e]; exact h.wf j
  · intro j i
    by_cases e : j = k
    · subst e; exact ht i
    · rw [hs j e, hl j e, hc j e]; exact h.text j i

/-- A step that only moves a call on. -/
theorem inv_move {w w' : World} (k : Nat) (h : Inv w) (hs : ∀ j, j ≠ k → w'.sinks j = w.sinks j)
    (hl : w'.log = w.log) (hc : w'.wrote = w.wrote) (hw : (w'.sinks k).Wf)
    (hh : ∀ i, (w'.sinks k).held i = (w.sinks k).held i) (hb : ∀ i, (w'.sinks k).begun i = (w.sinks k).begun i) : Inv w' := by
  refine inv_set k h hs (fun _ _ _ => by rw [hl]) (fun _ _ _ => by rw [hc]) hw fun i => ?_
  rw [hl, hc, hh, hb]
  exact h.text k i

theorem inv_go {w : World} (h : Inv w) (k : Nat) : Inv (w.go k) := by
  have hw := h.wf k
  have ht := h.text k
  generalize hs : w.sinks k = s at hw ht
  obtain ⟨rot, fl, cur, pc⟩ := s
  simp only [World.go, hs]
  cases pc with
  | idle => exact h
  | look m =>
    cases cur with
    | none =>
      refine inv_move k h (fun j e => set_other _ _ e) rfl rfl ?_ ?_ ?_ <;> simp [hs, Sink.Wf, Sink.held, Sink.begun]
    | some c =>
      obtain ⟨st, b⟩ := c
      simp only
      split <;> refine inv_move k h (fun j e => set_other _ _ e) rfl rfl ?_ ?_ ?_ <;>
        simp [hs, Sink.Wf, Sink.held, Sink.begun]
  | check m =>
    cases cur with
    | none => exact h
    | some c =>
      obtain ⟨st, b⟩ := c
      simp only
      split <;> refine inv_move k h (fun j e => set_other _ _ e) rfl rfl ?_ ?_ ?_ <;>
        simp [hs, Sink.Wf, Sink.held, Sink.begun]
  | close m =>
    cases cur with
    | none => exact h
    | some c =>
      obtain ⟨st, b⟩ := c
      simp only
      refine inv_set k h (fun j e => by simp [set_other _ _ e]) (fun j e i => ?_) (fun j e i => by simp) ?_ fun i => ?_
      · simp [handed_hand, Ne.symm e]
      · simp [Sink.Wf]
      · have := ht i
        simp only [Sink.held, Sink.begun, List.append_nil, set_same, set_log, set_wrote, hand_wrote, handed_hand] at this ⊢
        simpa using this
  | openFile m =>
    cases cur with
    | some c => exact h
    | none =>
      simp only
      cases rot with
      | null =>
        refine inv_move k h (fun j e => by simp [set_other _ _ e]) (by simp) (by simp) ?_ ?_ ?_ <;>
          simp [hs, Sink.Wf, Sink.held, Sink.begun]
      | stat =>
        refine inv_move k h (fun j e => by simp [set_other _ _ e]) (by simp) (by simp) ?_ ?_ ?_ <;>
          simp [hs, Sink.Wf, Sink.held, Sink.begun]
  | record m i =>
    cases cur with
    | some c => exact h
    | none =>
      simp only
      split <;> refine inv_move k h (fun j e => set_other _ _ e) rfl rfl ?_ ?_ ?_ <;>
        simp [hs, Sink.Wf, Sink.held, Sink.begun]
  | write m =>
    cases cur with
    | none => exact h
    | some c =>
      obtain ⟨st, b⟩ := c
      simp only
      refine inv_set k h (fun j e => by simp [set_other _ _ e]) (fun j e i => rfl) (fun j e i => rfl) ?_ fun i => ?_
      · simp [Sink.Wf]
      · have := ht i
        simp only [Sink.held, Sink.begun, List.append_nil, set_same, set_log, set_wrote] at this ⊢
        split <;> simp_all [← List.append_assoc]
  | newline m =>
    cases cur with
    | none => exact h
    | some c =>
      obtain ⟨st, b⟩ := c
      simp only
      generalize b.flusher.update (m.length + 1) = u
      obtain ⟨fl', u⟩ := u
      refine inv_set k h (fun j e => by simp [set_other _ _ e]) (fun j e i => rfl) (fun j e i => ?_) ?_ fun i => ?_
      · simp [callsTo_snoc, Ne.symm e]
      · cases u <;> simp [Sink.Wf]
      · have := ht i
        cases u <;>
        · simp only [Sink.held, Sink.begun, List.append_nil, set_same, set_log, callsTo_snoc, lines_append, Bool.false_eq_true, if_true, if_false] at this ⊢
          by_cases e : st.inode = i
          · simp only [e, if_true] at this ⊢
            rw [← List.append_assoc, this]
            simp [lines]
          · simp only [e, if_false] at this ⊢
            simpa [lines, e] using this
  | flush m =>
    cases cur with
    | none => exact h
    | some c =>
      obtain ⟨st, b⟩ := c
      simp only
      refine inv_set k h (fun j e => by simp [set_other _ _ e]) (fun j e i => ?_) (fun j e i => by simp) ?_ fun i => ?_
      · simp [handed_hand, Ne.symm e]
      · simp [Sink.Wf]
      · have := ht i
        simp only [Sink.held, Sink.begun, List.append_nil, set_same, set_log, set_wrote, hand_wrote, handed_hand] at this ⊢
        simpa using this

theorem inv_step {w : World} (h : Inv w) (a : Act) : Inv (w.step a) := by
  cases a with
  | emit k m =>
    simp only [World.step]
    split
    · next hp =>
      refine inv_move k h (fun j e => set_other _ _ e) rfl rfl ?_ ?_ ?_ <;>
        simp [Sink.Wf, Sink.held, Sink.begun, hp]
    · exact h
  | go k => exact inv_go h k
  | fail k =>
    simp only [World.step]
    split
    · next hp =>
      refine inv_move k h (fun j e => set_other _ _ e) rfl rfl ?_ ?_ ?_ <;>
        simp [Sink.Wf, Sink.held, Sink.begun, hp]
    · exact h
  | spill k n =>
    have hw := h.wf k
    have ht := h.text k
    simp only [World.step]
    generalize hs : w.sinks k = s at hw ht
    obtain ⟨rot, fl, cur, pc⟩ := s
    cases cur with
    | none => exact h
    | some c =>
      obtain ⟨st, b⟩ := c
      simp only
      refine inv_set k h (fun j e => by simp [set_other _ _ e]) (fun j e i => ?_) (fun j e i => by simp) ?_ fun i => ?_
      · simp [handed_hand, Ne.symm e]
      · cases pc <;> simp_all [Sink.Wf]
      · have := ht i
        simp only [Sink.held, set_same, set_log, set_wrote, hand_wrote, handed_hand] at this ⊢
        have hb : (⟨rot, fl, some ({ st with buffer := st.buffer.drop n }, b), pc⟩ : Sink).begun i = (⟨rot, fl, some (st, b), pc⟩ : Sink).begun i := by
          cases pc <;> rfl
        rw [hb]
        by_cases e : st.inode = i
        · simp only [e, if_true, and_true] at this ⊢
          rw [← this]
          simp
        · simp only [e, if_false, and_false] at this ⊢
          simpa using this
  | destroy k =>
    have hw := h.wf k
    have ht := h.text k
    simp only [World.step]
    generalize hs : w.sinks k = s at hw ht
    obtain ⟨rot, fl, cur, pc⟩ := s
    cases pc with
    | idle =>
      cases cur with
      | none => exact h
      | some c =>
        obtain ⟨st, b⟩ := c
        simp only
        refine inv_set k h (fun j e => by simp [set_other _ _ e]) (fun j e i => ?_) (fun j e i => by simp) ?_ fun i => ?_
        · simp [handed_hand, Ne.symm e]
        · simp [Sink.Wf]
        · have := ht i
          simp only [Sink.held, Sink.begun, List.append_nil, set_same, set_log, set_wrote, hand_wrote, handed_hand] at this ⊢
          simpa using this
    | _ => exact h
  | point p =>
    simp only [World.step]
    split
    · exact ⟨h.wf, h.text⟩
    · exact h
  | create => exact ⟨h.wf, h.text⟩

theorem inv_run {w : World} (h : Inv w) (acts : List Act) : Inv (w.run acts) := by
  induction acts generalizing w with
  | nil => exact h
  | cons a acts ih => exact ih (inv_step h a)

theorem run_append (w : World) (a b : List Act) : w.run (a ++ b) = (w.run a).run b := by simp [World.run, List.foldl_append]

theorem run_snoc (w : World) (a : List Act) (x : Act) : w.run (a ++ [x]) = (w.run a).step x := by simp [World.run]

end Blackhole.Together
