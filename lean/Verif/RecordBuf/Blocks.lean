import Verif.RecordBuf.Lemmas

/-! # Captured records: who owns the heap blocks -/

namespace Blackhole.RecordBuf

/-- The blocks on the heap are those that objects own. -/
def Own (m : Mem) : Prop := ∀ a, (m.heap a).isSome ↔ ∃ o ob, m.objs o = some ob ∧ a ∈ ob.owns

theorem own_init (lib : Lib) : Own (Mem.init lib) := by
  intro a
  simp [Mem.init]

theorem newStr_heap (m : Mem) (s : Str) (a : Nat) :
    ((m.newStr s).2.heap a).isSome ↔ (m.heap a).isSome ∨ a ∈ (m.newStr s).1.owns := by
  unfold Mem.newStr
  split
  · simp [SObj.owns]
  · simp only [Mem.setHeap, SObj.owns, List.mem_singleton]
    by_cases h : a = m.next <;> simp [h]

theorem newVec_heap (m : Mem) (es : List (Str × Attr.Value)) (a : Nat) :
    ((m.newVec es).2.heap a).isSome ↔ (m.heap a).isSome ∨ a ∈ (m.newVec es).1.owns := by
  unfold Mem.newVec
  split
  · simp [VObj.owns]
  · simp only [Mem.setHeap, VObj.owns, List.mem_singleton]
    by_cases h : a = m.next <;> simp [h]

/-- A new object with its own blocks. -/
theorem Own.add {m m' : Mem} {o : Nat} {ob : Obj} (h : Own m) (ho : m.objs o = none) (hm : m'.objs = m.objs)
    (hheap : ∀ a, (m'.heap a).isSome ↔ (m.heap a).isSome ∨ a ∈ ob.owns) : Own (m'.setObj o (some ob)) := by
  have hobjs : ∀ x, (m'.setObj o (some ob)).objs x = if x = o then some ob else m.objs x := by
    intro x
    rw [← hm]
    rfl
  intro a
  show (m'.heap a).isSome ↔ _
  rw [hheap, h a]
  constructor
  · rintro (⟨x, obx, hx, ha⟩ | ha)
    · have hne : x ≠ o := by
        rintro rfl
        rw [ho] at hx
        cases hx
      exact ⟨x, obx, by rw [hobjs, if_neg hne, hx], ha⟩
    · exact ⟨o, ob, by rw [hobjs, if_pos rfl], ha⟩
  · rintro ⟨x, obx, hx, ha⟩
    rw [hobjs] at hx
    split at hx
    · cases hx
      exact .inr ha
    · exact .inl ⟨x, obx, hx, ha⟩

theorem own_construct {m : Mem} {o : Nat} (h : Own m) (ho : m.objs o = none) (eval : Nat → Str) (r : Root.Rec) :
    Own (m.construct o eval r) := by
  have a1 := newStr_spec m r.message
  have a2 := newStr_spec (m.newStr r.message).2 r.formatted
  have a3 := newVec_spec ((m.newStr r.message).2.newStr r.formatted).2 (flatten eval r.attributes)
  have e1 := newStr_heap m r.message
  have e2 := newStr_heap (m.newStr r.message).2 r.formatted
  have e3 := newVec_heap ((m.newStr r.message).2.newStr r.formatted).2 (flatten eval r.attributes)
  revert a1 a2 a3 e1 e2 e3
  unfold Mem.construct
  generalize m.newStr r.message = p1
  obtain ⟨msg, m1⟩ := p1
  dsimp only
  generalize m1.newStr r.formatted = p2
  obtain ⟨fmt, m2⟩ := p2
  dsimp only
  generalize m2.newVec (flatten eval r.attributes) = p3
  obtain ⟨vec, m3⟩ := p3
  dsimp only
  rintro ⟨b1, -⟩ ⟨c1, -⟩ ⟨d1, -⟩ e1 e2 e3
  refine h.add ho (by rw [d1, c1, b1]) (fun a => ?_)
  rw [e3, e2, e1]
  simp only [Obj.owns, List.mem_append, or_assoc]

/-- Object `d` gets new members and object `src` keeps some; between them they own what they owned before, or it is
freed. -/
theorem Own.transfer {m m' : Mem} {d src : Nat} {os on oe : Obj} (h : Own m) (hi : Inv m)
    (hs : m.objs src = some os) (hne : d ≠ src)
    (hsub : ∀ a ∈ on.owns ++ oe.owns, a ∈ os.owns ∨ ∃ od, m.objs d = some od ∧ a ∈ od.owns) (hm : m'.objs = m.objs)
    (hout : ∀ a, a ∉ os.owns → (∀ od, m.objs d = some od → a ∉ od.owns) → ((m'.heap a).isSome ↔ (m.heap a).isSome))
    (hin : ∀ a, (a ∈ os.owns ∨ ∃ od, m.objs d = some od ∧ a ∈ od.owns) →
      ((m'.heap a).isSome ↔ a ∈ on.owns ∨ a ∈ oe.owns)) :
    Own ((m'.setObj src (some oe)).setObj d (some on)) := by
  have hobjs : ∀ x, ((m'.setObj src (some oe)).setObj d (some on)).objs x =
      if x = d then some on else if x = src then some oe else m.objs x := by
    intro x
    rw [← hm]
    rfl
  have two : ∀ a, a ∈ on.owns ∨ a ∈ oe.owns →
      ∃ o ob, ((m'.setObj src (some oe)).setObj d (some on)).objs o = some ob ∧ a ∈ ob.owns := by
    rintro a (ha | ha)
    · exact ⟨d, on, by rw [hobjs, if_pos rfl], ha⟩
    · exact ⟨src, oe, by rw [hobjs, if_neg hne.symm, if_pos rfl], ha⟩
  intro a
  show (m'.heap a).isSome ↔ _
  by_cases hp : a ∈ os.owns ∨ ∃ od, m.objs d = some od ∧ a ∈ od.owns
  · rw [hin a hp]
    refine ⟨two a, ?_⟩
    rintro ⟨x, ob, hx, ha⟩
    rw [hobjs] at hx
    split at hx
    · cases hx; exact .inl ha
    · rename_i hxd
      split at hx
      · cases hx; exact .inr ha
      · rename_i hxs
        rcases hp with hp | ⟨od, hd, hp⟩
        · exact absurd hp (hi.disj x src ob os hxs hx hs a ha)
        · exact absurd hp (hi.disj x d ob od hxd hx hd a ha)
  · have hp1 : a ∉ os.owns := fun h => hp (.inl h)
    have hp2 : ∀ od, m.objs d = some od → a ∉ od.owns := fun od hd h => hp (.inr ⟨od, hd, h⟩)
    rw [hout a hp1 hp2, h a]
    constructor
    · rintro ⟨x, ob, hx, ha⟩
      have hxd : x ≠ d := by rintro rfl; exact hp2 ob hx ha
      have hxs : x ≠ src := by rintro rfl; rw [hs] at hx; cases hx; exact hp1 ha
      exact ⟨x, ob, by rw [hobjs, if_neg hxd, if_neg hxs, hx], ha⟩
    · rintro ⟨x, ob, hx, ha⟩
      rw [hobjs] at hx
      split at hx
      · cases hx; exact absurd (hsub a (List.mem_append_left _ ha)) hp
      · split at hx
        · cases hx; exact absurd (hsub a (List.mem_append_right _ ha)) hp
        · exact ⟨x, ob, hx, ha⟩

theorem own_step {m m' : Mem} (hi : Inv m) (h : Own m) {op : Op} (hs : m.step op = .ok m') : Own m' := by
  cases op with
  | capture o eval r =>
    simp only [Mem.step] at hs
    split at hs
    · rename_i ho _
      cases hs
      exact own_construct h ho _ _
    · cases hs
  | recapture o src eval =>
    simp only [Mem.step] at hs
    split at hs
    · rename_i ho
      cases hv : m.intoView src with
      | error u => rw [hv] at hs; cases hs
      | ok r =>
        rw [hv] at hs
        cases hs
        exact own_construct h ho _ _
    · cases hs
  | default o =>
    simp only [Mem.step] at hs
    split at hs
    · rename_i ho
      cases hs
      refine h.add ho rfl (fun a => ?_)
      simp [Obj.owns, SObj.owns, VObj.owns]
    · cases hs
  | moveConstruct d src =>
    simp only [Mem.step, Mem.moveConstruct] at hs
    split at hs
    · rename_i osrc hd hsrc
      split at hs
      · cases hs
        have hne : d ≠ src := by
          rintro rfl
          rw [hd] at hsrc
          cases hsrc
        have k1 := osrc.message.moved_owns
        have k2 := osrc.formatted.moved_owns
        have k3 := osrc.vec.moved_owns
        refine h.transfer hi hsrc hne ?_ rfl (fun _ _ _ => Iff.rfl) ?_
        · intro a ha
          simp only [Obj.owns, Mem.settled, k1.1, k2.1, k3.1, k1.2, k2.2, k3.2, List.append_nil] at ha ⊢
          exact .inl ha
        · intro a ha
          have ha : a ∈ osrc.owns := ha.resolve_right (by rintro ⟨od, hod, -⟩; rw [hd] at hod; cases hod)
          simp only [Obj.owns, Mem.settled, k1.1, k2.1, k3.1, k1.2, k2.2, k3.2, List.append_nil, List.not_mem_nil,
            or_false]
          exact iff_of_true ((h a).2 ⟨src, osrc, hsrc, ha⟩) ha
      · cases hs
    · cases hs
  | moveAssign d src =>
    simp only [Mem.step, Mem.moveAssign] at hs
    split at hs
    · rename_i odst osrc hd hsrc
      split at hs
      · cases hs
        exact h
      · rename_i hne
        split at hs
        · obtain ⟨message, message', m1, formatted, formatted', m2, vec, vec', m3, e1, e2, e3, k, hdis, -⟩ :=
            assign_all hi hne hd hsrc
          simp only [e1, e2, e3, Except.ok.injEq] at hs
          subst hs
          refine h.transfer hi hsrc hne ?_ k.objs (fun a _ ha => by rw [k.frame a (ha odst hd)]) ?_
          · intro a ha
            have hc := k.count a
            rw [List.mem_append] at ha
            simp only [Obj.owns, Mem.settled] at ha
            have : 0 < odst.owns.count a + osrc.owns.count a := by
              rcases ha with ha | ha <;> (rw [← List.count_pos_iff] at ha; omega)
            by_cases hz : 0 < osrc.owns.count a
            · exact .inl (List.count_pos_iff.1 hz)
            · exact .inr ⟨odst, hd, List.count_pos_iff.1 (by omega)⟩
          · intro a ha
            show _ ↔ a ∈ message.owns ++ formatted.owns ++ vec.owns ∨ a ∈ message'.owns ++ formatted'.owns ++ vec'.owns
            by_cases hda : a ∈ odst.owns
            · exact k.live a hda (hdis a hda)
            · have hsa : a ∈ osrc.owns := by
                rcases ha with ha | ⟨od, hod, ha⟩
                · exact ha
                · rw [hd] at hod; cases hod; exact absurd ha hda
              rw [k.frame a hda]
              exact iff_of_true ((h a).2 ⟨src, osrc, hsrc, hsa⟩) (.inl (k.taken a hsa))
        · cases hs
    · cases hs
  | destroy o =>
    simp only [Mem.step, Mem.destroy] at hs
    split at hs
    · rename_i ob ho
      cases hs
      intro a
      simp only [Mem.setObj, free_heap, freeVec_objs, freeStr_objs]
      constructor
      · intro ha
        split at ha
        · cases ha
        · rename_i hn
          obtain ⟨x, obx, hx, hax⟩ := (h a).1 ha
          have hne : x ≠ o := by
            rintro rfl
            rw [ho] at hx
            cases hx
            exact hn hax
          exact ⟨x, obx, by rw [if_neg hne, hx], hax⟩
      · rintro ⟨x, obx, hx, hax⟩
        split at hx
        · cases hx
        · rename_i hne
          rw [if_neg (hi.disj x o obx ob hne hx ho a hax)]
          exact (h a).2 ⟨x, obx, hx, hax⟩
    · cases hs
  | foreign b x =>
    simp only [Mem.step, Except.ok.injEq] at hs
    subst hs
    exact h

theorem run_own {m : Mem} {s s' : SState} (ops : List Op) (h : Refines m s) (ho : Own m) (hs : s.run ops = some s') :
    ∃ m', m.run ops = .ok m' ∧ Refines m' s' ∧ Own m' := by
  induction ops generalizing m s with
  | nil => simp [SState.run] at hs; subst hs; exact ⟨m, rfl, h, ho⟩
  | cons op ops ih =>
    simp only [SState.run, Option.bind_eq_some_iff] at hs
    obtain ⟨s1, h1, h2⟩ := hs
    obtain ⟨m1, e1, r1⟩ := step_refines h h1
    obtain ⟨m2, e2, r2⟩ := ih r1 (own_step h.inv ho e1) h2
    exact ⟨m2, by simp [Mem.run, e1, bind, Except.bind, e2], r2⟩

end Blackhole.RecordBuf
