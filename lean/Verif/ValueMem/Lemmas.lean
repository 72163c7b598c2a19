import Verif.ValueMem.Spec

/-!
# Every block has one owner
-/

namespace Blackhole.ValueMem

/-- Blocks are owned by exactly one living string each, hold their text, and are larger than what fits into a string
itself. -/
structure Inv (lib : Lib) (m : Mem) : Prop where
  short : ∀ o s, m.objs o = some (.string (.short s)) → s.length ≤ lib.sso
  owned : ∀ o a, m.objs o = some (.string (.long a)) → ∃ b, m.heap a = some b
  room : ∀ a b, m.heap a = some b → b.text.length ≤ b.room ∧ lib.sso < b.room
  unique : ∀ o o' a, m.objs o = some (.string (.long a)) → m.objs o' = some (.string (.long a)) → o = o'
  owner : ∀ a b, m.heap a = some b → ∃ o, m.objs o = some (.string (.long a))
  fresh : ∀ a, m.next ≤ a → m.heap a = none

/-- What an object holds, given the heap. -/
def Holds (m : Mem) (ob : Obj) (c : Content) : Prop :=
  match ob, c with
  | .flat f, .flat g => f = g
  | .string (.short s), .text t => s = t
  | .string (.long a), .text t => ∃ b, m.heap a = some b ∧ b.text = t
  | _, _ => False

theorem read_iff {m : Mem} {o : Nat} {c : Content} :
    m.read o = .ok c ↔ ∃ ob, m.objs o = some ob ∧ Holds m ob c := by
  unfold Mem.read
  rcases h : m.objs o with _ | (f | (s | a)) <;> cases c <;> simp [Holds, Mem.text]
  · cases h' : m.heap a <;> simp
  · cases h' : m.heap a <;> simp

/-- The objects hold the contents that are expected. -/
def Refines (m : Mem) (v : Vals) : Prop :=
  ∀ o, match v o with
    | none => m.objs o = none
    | some c => ∃ ob, m.objs o = some ob ∧ Holds m ob c

theorem Refines.none {m : Mem} {v : Vals} (h : Refines m v) {o : Nat} : v o = none ↔ m.objs o = none := by
  have := h o
  cases hv : v o with
  | none => simpa [hv] using this
  | some c =>
    simp only [hv] at this
    obtain ⟨ob, h1, _⟩ := this
    simp [h1]

theorem Refines.some {m : Mem} {v : Vals} (h : Refines m v) {o : Nat} {c : Content} (hv : v o = some c) :
    ∃ ob, m.objs o = some ob ∧ Holds m ob c := by
  have := h o
  simpa [hv] using this

/-- The objects that an operation does not touch, and those that it writes. -/
theorem refines_of {m m' : Mem} {v v' : Vals} (hr : Refines m v)
    (h : ∀ x, (m'.objs x = m.objs x ∧ (∀ a, m.objs x = Option.some (.string (.long a)) → m'.heap a = m.heap a) ∧ v' x = v x)
      ∨ (∃ ob c, m'.objs x = Option.some ob ∧ v' x = Option.some c ∧ Holds m' ob c)
      ∨ (m'.objs x = Option.none ∧ v' x = Option.none)) : Refines m' v' := by
  intro x
  have := hr x
  rcases h x with ⟨h1, h2, h3⟩ | ⟨ob, c, h1, h2, h3⟩ | ⟨h1, h2⟩
  · rw [h3]
    cases hv : v x with
    | none => simpa [hv, h1] using this
    | some c =>
      simp only [hv] at this
      obtain ⟨ob, h4, h5⟩ := this
      refine ⟨ob, h1.trans h4, ?_⟩
      rcases ob with f | (t | a) <;> cases c <;> simp only [Holds] at h5 ⊢
      · exact h5
      · exact h5
      · rw [h2 a h4]
        exact h5
  · rw [h2]
    exact ⟨ob, h1, h3⟩
  · rw [h2]
    exact h1

theorem construct_ok {lib : Lib} {m : Mem} {v : Vals} (hi : Inv lib m) (hr : Refines m v) {o : Nat} (ho : v o = none)
    (c : Content) :
    Inv lib ((newObj lib m c).2.setObj o (some (newObj lib m c).1))
    ∧ Refines ((newObj lib m c).2.setObj o (some (newObj lib m c).1)) (v.set o (some c)) := by
  have hn : m.objs o = none := hr.none.1 ho
  obtain ⟨i1, i2, i3, i4, i5, i6⟩ := hi
  cases c with
  | flat f =>
    refine ⟨?_, refines_of hr fun x => ?_⟩
    · constructor <;> simp only [newObj, Mem.setObj] <;> grind
    · by_cases hx : x = o
      · exact .inr (.inl ⟨.flat f, .flat f, by simp [hx, newObj, Mem.setObj], by simp [hx, Vals.set], rfl⟩)
      · exact .inl ⟨by simp [hx, newObj, Mem.setObj], fun a _ => rfl, by simp [hx, Vals.set]⟩
  | text s =>
    have hf := i6 m.next (Nat.le_refl _)
    by_cases hs : s.length ≤ lib.sso
    · simp only [newObj, newStr, if_pos hs]
      refine ⟨?_, refines_of hr fun x => ?_⟩
      · constructor <;> simp only [Mem.setObj] <;> grind
      · by_cases hx : x = o
        · exact .inr (.inl ⟨.string (.short s), .text s, by simp [hx, Mem.setObj], by simp [hx, Vals.set], rfl⟩)
        · exact .inl ⟨by simp [hx, Mem.setObj], fun a _ => rfl, by simp [hx, Vals.set]⟩
    · simp only [newObj, newStr, if_neg hs]
      refine ⟨?_, refines_of hr fun x => ?_⟩
      · constructor
        case owned =>
          intro x a h
          simp only [Mem.setObj, Mem.setHeap] at h ⊢
          by_cases ha : a = m.next
          · exact ⟨_, by simp [ha]; rfl⟩
          · grind
        all_goals simp only [Mem.setObj, Mem.setHeap]
        all_goals grind
      · by_cases hx : x = o
        · exact .inr (.inl ⟨.string (.long m.next), .text s, by simp [hx, Mem.setObj], by simp [hx, Vals.set],
            by simp [Holds, Mem.setObj, Mem.setHeap]⟩)
        · refine .inl ⟨by simp [hx, Mem.setObj, Mem.setHeap], fun a ha => ?_, by simp [hx, Vals.set]⟩
          simp only [Mem.setObj, Mem.setHeap]
          grind

theorem move_ok {lib : Lib} {m : Mem} {v : Vals} (hi : Inv lib m) (hr : Refines m v) {o s : Nat} (ho : v o = none)
    {ob : Obj} (hs : m.objs s = some ob) :
    Inv lib ((m.setObj s (some (movedFrom ob))).setObj o (some ob))
    ∧ Refines ((m.setObj s (some (movedFrom ob))).setObj o (some ob))
        ((v.set s ((v s).map Content.moved)).set o (v s)) := by
  have hn : m.objs o = none := hr.none.1 ho
  have hne : s ≠ o := by rintro rfl; simp [hn] at hs
  have hv : ∃ c, v s = some c := by
    cases h : v s with
    | none => rw [hr.none.1 h] at hs; cases hs
    | some c => exact ⟨c, rfl⟩
  obtain ⟨c, hv⟩ := hv
  obtain ⟨ob', h1, h2⟩ := hr.some hv
  rw [hs] at h1
  cases h1
  obtain ⟨i1, i2, i3, i4, i5, i6⟩ := hi
  refine ⟨?_, refines_of hr fun x => ?_⟩
  · rcases ob with f | (t | a) <;> constructor <;> simp only [movedFrom, Mem.setObj] <;> grind
  · by_cases hx : x = o
    · refine .inr (.inl ⟨ob, c, by simp [hx, Mem.setObj], by simp [hx, Vals.set, hv], ?_⟩)
      rcases ob with f | (t | a) <;> cases c <;> simpa [Holds, Mem.setObj] using h2
    · by_cases hx' : x = s
      · refine .inr (.inl ⟨movedFrom ob, c.moved, by simp [hx', Mem.setObj, hne], by simp [hx', Vals.set, hv, hne], ?_⟩)
        rcases ob with f | (t | a) <;> cases c <;> simp_all [Holds, movedFrom, Content.moved]
      · exact .inl ⟨by simp [hx, hx', Mem.setObj], fun a _ => rfl, by simp [hx, hx', Vals.set]⟩

theorem destroy_ok {lib : Lib} {m : Mem} {v : Vals} (hi : Inv lib m) (hr : Refines m v) {o : Nat} (ho : v o ≠ none) :
    ∃ m', m.destroy o = .ok m' ∧ Inv lib m' ∧ Refines m' (v.set o none) := by
  have hn : m.objs o ≠ none := fun h => ho (hr.none.2 h)
  obtain ⟨i1, i2, i3, i4, i5, i6⟩ := hi
  rcases hob : m.objs o with _ | (f | (t | a))
  · exact absurd hob hn
  · refine ⟨m.setObj o none, by simp [Mem.destroy, hob, free], ?_, refines_of hr fun x => ?_⟩
    · constructor <;> simp only [Mem.setObj] <;> grind
    · by_cases hx : x = o
      · exact .inr (.inr ⟨by simp [hx, Mem.setObj], by simp [hx, Vals.set]⟩)
      · exact .inl ⟨by simp [hx, Mem.setObj], fun a _ => rfl, by simp [hx, Vals.set]⟩
  · refine ⟨m.setObj o none, by simp [Mem.destroy, hob, free], ?_, refines_of hr fun x => ?_⟩
    · constructor <;> simp only [Mem.setObj] <;> grind
    · by_cases hx : x = o
      · exact .inr (.inr ⟨by simp [hx, Mem.setObj], by simp [hx, Vals.set]⟩)
      · exact .inl ⟨by simp [hx, Mem.setObj], fun a _ => rfl, by simp [hx, Vals.set]⟩
  · obtain ⟨b, hb⟩ := i2 o a hob
    refine ⟨(m.setHeap a none).setObj o none, by simp [Mem.destroy, hob, free, hb], ?_, refines_of hr fun x => ?_⟩
    · constructor <;> simp only [Mem.setObj, Mem.setHeap] <;> grind
    · by_cases hx : x = o
      · exact .inr (.inr ⟨by simp [hx, Mem.setObj], by simp [hx, Vals.set]⟩)
      · refine .inl ⟨by simp [hx, Mem.setObj, Mem.setHeap], fun a' ha => ?_, by simp [hx, Vals.set]⟩
        simp only [Mem.setObj, Mem.setHeap]
        grind

theorem setObj_setObj (m : Mem) (o : Nat) (x y : Option Obj) : (m.setObj o x).setObj o y = m.setObj o y := by
  simp only [Mem.setObj, Mem.mk.injEq, and_self, and_true]
  funext z
  by_cases hz : z = o <;> simp [hz]

theorem setObj_comm (m : Mem) {o p : Nat} (h : o ≠ p) (x y : Option Obj) :
    (m.setObj o x).setObj p y = (m.setObj p y).setObj o x := by
  simp only [Mem.setObj, Mem.mk.injEq, and_self, and_true]
  funext z
  by_cases hz : z = o <;> by_cases hz' : z = p <;> simp_all

theorem set_set (v : Vals) (o : Nat) (x y : Option Content) : (v.set o x).set o y = v.set o y := by
  funext z
  by_cases hz : z = o <;> simp [Vals.set, hz]

theorem set_comm (v : Vals) {o p : Nat} (h : o ≠ p) (x y : Option Content) :
    (v.set o x).set p y = (v.set p y).set o x := by
  funext z
  by_cases hz : z = o <;> by_cases hz' : z = p <;> simp_all [Vals.set]

/-- To make a copy, destroy the old contents and put the copy there is the same as to destroy and make the copy. -/
theorem replace_new {lib : Lib} {m m' : Mem} (hi : Inv lib m) {d : Nat} {old : Obj} (hd : m.objs d = some old)
    (c : Content) (h : m.destroy d = .ok m') :
    (newObj lib m c).2.replace d old (newObj lib m c).1
      = .ok ((newObj lib m' c).2.setObj d (some (newObj lib m' c).1)) := by
  have hf := hi.fresh m.next (Nat.le_refl _)
  simp only [Mem.destroy, hd] at h
  rcases old with f | (t | a)
  · simp only [free, Except.ok.injEq] at h
    subst h
    rcases c with g | s
    · simp [newObj, Mem.replace, free, setObj_setObj]
    · by_cases hs : s.length ≤ lib.sso
      · simp [newObj, newStr, hs, Mem.replace, free, setObj_setObj]
      · simp only [newObj, newStr, hs, if_false, Mem.replace, free, Mem.setObj, Mem.setHeap, Except.ok.injEq, Mem.mk.injEq,
          and_true]
        refine ⟨funext fun z => ?_, rfl⟩
        by_cases hz : z = d <;> simp [hz]
  · simp only [free, Except.ok.injEq] at h
    subst h
    rcases c with g | s
    · simp [newObj, Mem.replace, free, setObj_setObj]
    · by_cases hs : s.length ≤ lib.sso
      · simp [newObj, newStr, hs, Mem.replace, free, setObj_setObj]
      · simp only [newObj, newStr, hs, if_false, Mem.replace, free, Mem.setObj, Mem.setHeap, Except.ok.injEq, Mem.mk.injEq,
          and_true]
        refine ⟨funext fun z => ?_, rfl⟩
        by_cases hz : z = d <;> simp [hz]
  · obtain ⟨b, hb⟩ := hi.owned d a hd
    simp only [free, hb, Except.ok.injEq] at h
    subst h
    have ha : a ≠ m.next := by rintro rfl; rw [hf] at hb; cases hb
    rcases c with g | s
    · simp [newObj, Mem.replace, free, hb, setObj_setObj]
    · by_cases hs : s.length ≤ lib.sso
      · simp [newObj, newStr, hs, Mem.replace, free, hb, setObj_setObj]
      · simp only [newObj, newStr, hs, if_false, Mem.replace, free, Mem.setObj, Mem.setHeap, if_neg ha, hb,
          Except.ok.injEq, Mem.mk.injEq, and_true]
        refine ⟨funext fun z => ?_, funext fun z => ?_⟩
        · by_cases hz : z = d <;> simp [hz]
        · by_cases hz : z = a
          · subst hz; simp [ha]
          · simp [hz]

theorem alive_iff {m : Mem} {v : Vals} (hr : Refines m v) {o : Nat} (h : v o ≠ none) : ∃ ob, m.objs o = some ob := by
  cases hm : m.objs o with
  | none => exact absurd (hr.none.2 hm) h
  | some ob => exact ⟨ob, rfl⟩

theorem assign_other {lib : Lib} {m : Mem} {v : Vals} (hi : Inv lib m) (hr : Refines m v) {d s : Nat} (hd : v d ≠ none)
    {old : Obj} (ho : m.objs d = some old) {c : Content} (hs : v s = some c) (fails : Bool) :
    ∃ out m', (if fails && needs lib c then Except.ok (Outcome.badAlloc, m)
        else match (newObj lib m c).2.replace d old (newObj lib m c).1 with
          | .error e => .error e
          | .ok m => .ok (.done, m)) = .ok (out, m')
      ∧ (out = .badAlloc → fails = true) ∧ Inv lib m' ∧ Refines m' (v.after (.assign d s fails) out) := by
  by_cases hf : (fails && needs lib c) = true
  · rw [if_pos hf]
    exact ⟨_, _, rfl, fun _ => by simp_all, hi, hr⟩
  · rw [if_neg hf]
    obtain ⟨m1, h1, i1, r1⟩ := destroy_ok hi hr hd
    rw [replace_new hi ho c h1]
    obtain ⟨i2, r2⟩ := construct_ok i1 r1 (o := d) (by simp [Vals.set]) c
    rw [set_set] at r2
    refine ⟨_, _, rfl, by simp, i2, ?_⟩
    simp only [Vals.after, hs]
    exact r2

theorem assign_ok {lib : Lib} {m : Mem} {v : Vals} (hi : Inv lib m) (hr : Refines m v) {d s : Nat} (hd : v d ≠ none)
    (hs : v s ≠ none) (fails : Bool) :
    ∃ out m', m.assign lib d s fails = .ok (out, m') ∧ (out = .badAlloc → fails = true) ∧ Inv lib m'
      ∧ Refines m' (v.after (.assign d s fails) out) := by
  by_cases e : d = s
  · subst e
    refine ⟨.done, m, by simp [Mem.assign], by simp, hi, ?_⟩
    have : v.set d (v d) = v := by
      funext z
      by_cases hz : z = d <;> simp [Vals.set, hz]
    simpa [Vals.after, this] using hr
  · obtain ⟨old, ho⟩ := alive_iff hr hd
    obtain ⟨c, hc⟩ := Option.ne_none_iff_exists'.1 hs
    have hread : m.read s = .ok c := read_iff.2 (hr.some hc)
    have other := assign_other hi hr hd ho hc fails
    simp only [Mem.assign, if_neg e, ho, hread]
    rcases old with f | (t | a)
    · exact other
    · exact other
    · rcases c with f | t
      · exact other
      · obtain ⟨b, hb⟩ := hi.owned d a ho
        simp only [hb]
        by_cases hl : t.length ≤ b.room
        · rw [if_pos hl]
          obtain ⟨i1, i2, i3, i4, i5, i6⟩ := hi
          refine ⟨_, _, rfl, by simp, ?_, refines_of hr fun x => ?_⟩
          · have := i3 a b hb
            constructor
            case owned =>
              intro x a' h
              by_cases ha : a' = a
              · exact ⟨_, by simp [ha, Mem.setHeap]; rfl⟩
              · simpa [Mem.setHeap, ha] using i2 x a' h
            case owner =>
              intro a' b' h
              by_cases ha : a' = a
              · exact ⟨d, by rw [ha]; exact ho⟩
              · exact i5 a' b' (by simpa [Mem.setHeap, ha] using h)
            all_goals simp only [Mem.setHeap]
            all_goals grind
          · by_cases hx : x = d
            · exact .inr (.inl ⟨.string (.long a), .text t, by simpa [hx, Mem.setHeap] using ho,
                by simp [hx, Vals.after, Vals.set, hc], by simp [Holds, Mem.setHeap]⟩)
            · refine .inl ⟨rfl, fun a' ha => ?_, by simp [hx, Vals.after, Vals.set]⟩
              have : a' ≠ a := by rintro rfl; exact hx (i4 x d a' ha ho)
              simp [Mem.setHeap, this]
        · rw [if_neg hl]
          exact other

theorem moveAssign_ok {lib : Lib} {m : Mem} {v : Vals} (hi : Inv lib m) (hr : Refines m v) {d s : Nat} (hd : v d ≠ none)
    (hs : v s ≠ none) :
    ∃ m', m.moveAssign lib d s = .ok m' ∧ Inv lib m' ∧ Refines m' (v.after (.moveAssign d s) .done) := by
  by_cases e : d = s
  · subst e
    exact ⟨m, by simp [Mem.moveAssign], hi, by simpa [Vals.after] using hr⟩
  · obtain ⟨old, ho⟩ := alive_iff hr hd
    obtain ⟨new, hn⟩ := alive_iff hr hs
    have e' : s ≠ d := fun h => e h.symm
    -- the general case
    have general : ∃ m', (match m.replace d old new with
          | .error e => Except.error e
          | .ok m => .ok (m.setObj s (some (movedFrom new)))) = .ok m'
        ∧ Inv lib m' ∧ Refines m' (v.after (.moveAssign d s) .done) := by
      obtain ⟨m1, h1, i1, r1⟩ := destroy_ok hi hr hd
      simp only [Mem.destroy, ho] at h1
      cases hf : free m old with
      | error e => simp [hf] at h1
      | ok m2 =>
        simp only [hf, Except.ok.injEq] at h1
        subst h1
        have hobjs : m2.objs = m.objs := by
          rcases old with f | (t | a)
          · simp [free] at hf; rw [hf]
          · simp [free] at hf; rw [hf]
          · obtain ⟨b, hb⟩ := hi.owned d a ho
            simp only [free, hb, Except.ok.injEq] at hf
            rw [← hf]
            rfl
        have hn1 : (m2.setObj d none).objs s = some new := by simp [Mem.setObj, e', hobjs, hn]
        obtain ⟨i2, r2⟩ := move_ok i1 r1 (o := d) (s := s) (by simp [Vals.set]) hn1
        rw [setObj_comm _ e', setObj_setObj] at i2 r2
        refine ⟨_, by simp only [Mem.replace, hf], i2, ?_⟩
        have hv : (v.set d none) s = v s := by simp [Vals.set, e']
        rw [hv, set_comm _ e, set_set] at r2
        simpa [Vals.after, e] using r2
    simp only [Mem.moveAssign, if_neg e, ho, hn]
    rcases old with f | (t | a)
    · exact general
    · exact general
    · obtain ⟨b, hb⟩ := hi.owned d a ho
      obtain ⟨c, hc⟩ := Option.ne_none_iff_exists'.1 hs
      obtain ⟨ob, h1, h2⟩ := hr.some hc
      rw [hn] at h1
      cases h1
      obtain ⟨i1, i2, i3, i4, i5, i6⟩ := hi
      have ib := i3 a b hb
      rcases new with f | (t | a')
      · exact general
      · -- short characters into the block
        have hl : t.length ≤ b.room := Nat.le_trans (i1 s t hn) (Nat.le_of_lt ib.2)
        simp only [hb, if_pos hl]
        rcases c with g | t'
        · exact h2.elim
        · cases h2
          refine ⟨_, rfl, ?_, refines_of hr fun x => ?_⟩
          · constructor
            case owned =>
              intro x a' h
              by_cases ha : a' = a
              · exact ⟨_, by simp [ha, Mem.setHeap, Mem.setObj]; rfl⟩
              · have h' : m.objs x = some (.string (.long a')) := by
                  simp only [Mem.setObj, Mem.setHeap] at h
                  grind
                simpa [Mem.setHeap, Mem.setObj, ha] using i2 x a' h'
            case owner =>
              intro a' b' h
              by_cases ha : a' = a
              · exact ⟨d, by simpa [ha, Mem.setObj, Mem.setHeap, e] using ho⟩
              · obtain ⟨o, h'⟩ := i5 a' b' (by simpa [Mem.setHeap, Mem.setObj, ha] using h)
                refine ⟨o, ?_⟩
                have : o ≠ s := by rintro rfl; rw [hn] at h'; cases h'
                simpa [Mem.setObj, Mem.setHeap, this] using h'
            all_goals simp only [Mem.setHeap, Mem.setObj]
            all_goals grind
          · by_cases hx : x = d
            · exact .inr (.inl ⟨.string (.long a), .text t, by simpa [hx, Mem.setHeap, Mem.setObj, e] using ho,
                by simp [hx, Vals.after, Vals.set, hc, e], by simp [Holds, Mem.setHeap, Mem.setObj]⟩)
            · by_cases hx' : x = s
              · exact .inr (.inl ⟨.string (.short []), .text [], by simp [hx', Mem.setObj],
                  by simp [hx', Vals.after, Vals.set, hc, e, e', Content.moved], rfl⟩)
              · refine .inl ⟨by simp [Mem.setObj, Mem.setHeap, hx'], fun a' ha => ?_, by simp [hx, hx', Vals.after, Vals.set, e]⟩
                have : a' ≠ a := by rintro rfl; exact hx (i4 x d a' ha ho)
                simp [Mem.setHeap, Mem.setObj, this]
      · -- a block for a block
        obtain ⟨b', hb'⟩ := i2 s a' hn
        have hne : a' ≠ a := by rintro rfl; exact e (i4 d s a' ho hn)
        rcases c with g | t'
        · exact h2.elim
        · obtain ⟨b'', hb'', ht⟩ := h2
          rw [hb'] at hb''
          cases hb''
          subst ht
          simp only [hb]
          cases hsw : lib.swap with
          | true =>
            refine ⟨_, rfl, ?_, refines_of hr fun x => ?_⟩
            · constructor
              case owned =>
                intro x a1 h
                by_cases ha : a1 = a
                · exact ⟨_, by simp [ha, Mem.setHeap, Mem.setObj]; rfl⟩
                · have h' : ∃ y, m.objs y = some (.string (.long a1)) := by
                    simp only [Mem.setObj, Mem.setHeap] at h
                    by_cases hx : x = s
                    · simp [hx] at h; exact absurd h.symm ha
                    · by_cases hx' : x = d
                      · simp [hx', e] at h; exact ⟨s, by rw [hn, h]⟩
                      · exact ⟨x, by simpa [hx, hx'] using h⟩
                  obtain ⟨y, h'⟩ := h'
                  simpa [Mem.setHeap, Mem.setObj, ha] using i2 y a1 h'
              case owner =>
                intro a1 b1 h
                by_cases ha : a1 = a
                · exact ⟨s, by simp [ha, Mem.setObj]⟩
                · obtain ⟨o, h'⟩ := i5 a1 b1 (by simpa [Mem.setHeap, Mem.setObj, ha] using h)
                  by_cases hos : o = s
                  · subst hos
                    rw [hn] at h'
                    simp at h'
                    exact ⟨d, by simp [Mem.setObj, e, h']⟩
                  · have : o ≠ d := by
                      rintro rfl
                      rw [ho] at h'
                      simp at h'
                      exact ha h'.symm
                    exact ⟨o, by simpa [Mem.setObj, Mem.setHeap, this, hos] using h'⟩
              all_goals simp only [Mem.setHeap, Mem.setObj]
              all_goals grind
            · by_cases hx : x = d
              · exact .inr (.inl ⟨.string (.long a'), .text b'.text, by simp [hx, Mem.setObj, e],
                  by simp [hx, Vals.after, Vals.set, hc, e], ⟨b', by simp [Mem.setHeap, Mem.setObj, hne, hb'], rfl⟩⟩)
              · by_cases hx' : x = s
                · exact .inr (.inl ⟨.string (.long a), .text [], by simp [hx', Mem.setObj],
                    by simp [hx', Vals.after, Vals.set, hc, e, e', Content.moved], by simp [Holds, Mem.setHeap, Mem.setObj]⟩)
                · refine .inl ⟨by simp [Mem.setObj, Mem.setHeap, hx, hx'], fun a1 ha => ?_,
                    by simp [hx, hx', Vals.after, Vals.set, e]⟩
                  have : a1 ≠ a := by rintro rfl; exact hx (i4 x d a1 ha ho)
                  simp [Mem.setHeap, Mem.setObj, this]
          | false =>
            refine ⟨_, rfl, ?_, refines_of hr fun x => ?_⟩
            · constructor
              case owned =>
                intro x a1 h
                have h' : ∃ y, m.objs y = some (.string (.long a1)) ∧ a1 ≠ a := by
                  simp only [Mem.setObj, Mem.setHeap] at h
                  by_cases hx : x = s
                  · simp [hx] at h
                  · by_cases hx' : x = d
                    · simp [hx', e] at h; exact ⟨s, by rw [hn, h], by rw [← h]; exact hne⟩
                    · have h'' : m.objs x = some (.string (.long a1)) := by simpa [hx, hx'] using h
                      exact ⟨x, h'', by rintro rfl; exact hx' (i4 x d a1 h'' ho)⟩
                obtain ⟨y, h', ha⟩ := h'
                simpa [Mem.setHeap, Mem.setObj, ha] using i2 y a1 h'
              case owner =>
                intro a1 b1 h
                by_cases ha : a1 = a
                · simp [ha, Mem.setHeap, Mem.setObj] at h
                · obtain ⟨o, h'⟩ := i5 a1 b1 (by simpa [Mem.setHeap, Mem.setObj, ha] using h)
                  by_cases hos : o = s
                  · subst hos
                    rw [hn] at h'
                    simp at h'
                    exact ⟨d, by simp [Mem.setObj, e, h']⟩
                  · have : o ≠ d := by
                      rintro rfl
                      rw [ho] at h'
                      simp at h'
                      exact ha h'.symm
                    exact ⟨o, by simpa [Mem.setObj, Mem.setHeap, this, hos] using h'⟩
              all_goals simp only [Mem.setHeap, Mem.setObj]
              all_goals grind
            · by_cases hx : x = d
              · exact .inr (.inl ⟨.string (.long a'), .text b'.text, by simp [hx, Mem.setObj, e],
                  by simp [hx, Vals.after, Vals.set, hc, e], ⟨b', by simp [Mem.setHeap, Mem.setObj, hne, hb'], rfl⟩⟩)
              · by_cases hx' : x = s
                · exact .inr (.inl ⟨.string (.short []), .text [], by simp [hx', Mem.setObj],
                    by simp [hx', Vals.after, Vals.set, hc, e, e', Content.moved], by simp [Holds]⟩)
                · refine .inl ⟨by simp [Mem.setObj, Mem.setHeap, hx, hx'], fun a1 ha => ?_,
                    by simp [hx, hx', Vals.after, Vals.set, e]⟩
                  have : a1 ≠ a := by rintro rfl; exact hx (i4 x d a1 ha ho)
                  simp [Mem.setHeap, Mem.setObj, this]

/-- Every legal operation succeeds or throws because an allocation has failed, and does what it should. -/
theorem step_ok {lib : Lib} {m : Mem} {v : Vals} (hi : Inv lib m) (hr : Refines m v) (op : Op) (hl : Legal v op) :
    ∃ out m', m.step lib op = .ok (out, m') ∧ (out = .badAlloc → op.fails = true) ∧ Inv lib m'
      ∧ Refines m' (v.after op out) := by
  have hcons : ∀ o c f, v o = none → ∃ out m', m.construct lib o c f = (out, m') ∧ (out = .badAlloc → f = true)
      ∧ Inv lib m' ∧ Refines m' (if out = .done then v.set o (some c) else v) := by
    intro o c f ho
    unfold Mem.construct
    by_cases hf : (f && needs lib c) = true
    · rw [if_pos hf]
      exact ⟨_, _, rfl, fun _ => by simp_all, hi, by simpa using hr⟩
    · rw [if_neg hf]
      obtain ⟨h1, h2⟩ := construct_ok hi hr ho c
      exact ⟨_, _, rfl, by simp, h1, by simpa using h2⟩
  cases op with
  | construct o c f =>
    obtain ⟨out, m', h1, h2, h3, h4⟩ := hcons o c f hl
    refine ⟨out, m', by simp [Mem.step, h1], h2, h3, ?_⟩
    cases out <;> simpa [Vals.after] using h4
  | copy o s f =>
    obtain ⟨ho, hs⟩ := hl
    obtain ⟨c, hc⟩ := Option.ne_none_iff_exists'.1 hs
    have hread : m.read s = .ok c := read_iff.2 (hr.some hc)
    obtain ⟨out, m', h1, h2, h3, h4⟩ := hcons o c f ho
    refine ⟨out, m', by simp [Mem.step, Mem.copy, hread, h1], h2, h3, ?_⟩
    cases out <;> simpa [Vals.after, hc] using h4
  | move o s =>
    obtain ⟨ho, hs⟩ := hl
    obtain ⟨ob, hob⟩ := alive_iff hr hs
    obtain ⟨h1, h2⟩ := move_ok hi hr ho hob
    exact ⟨.done, _, by simp [Mem.step, Mem.move, hob, Except.map], by simp, h1, h2⟩
  | assign d s f => exact assign_ok hi hr hl.1 hl.2 f
  | moveAssign d s =>
    obtain ⟨m', h1, h2, h3⟩ := moveAssign_ok hi hr hl.1 hl.2
    exact ⟨.done, m', by simp [Mem.step, h1, Except.map], by simp, h2, h3⟩
  | destroy o =>
    obtain ⟨m', h1, h2, h3⟩ := destroy_ok hi hr (o := o) hl
    exact ⟨.done, m', by simp [Mem.step, h1, Except.map], by simp, h2, h3⟩

theorem init_ok (lib : Lib) : Inv lib Mem.init ∧ Refines Mem.init (fun _ => none) :=
  ⟨by constructor <;> simp [Mem.init], fun _ => rfl⟩

theorem reaches_ok {lib : Lib} {m : Mem} {v : Vals} (h : Reaches lib m v) : Inv lib m ∧ Refines m v := by
  induction h with
  | init => exact init_ok lib
  | step hr hl hs ih =>
    obtain ⟨out, m', h1, _, h3, h4⟩ := step_ok ih.1 ih.2 _ hl
    rw [hs] at h1
    cases h1
    exact ⟨h3, h4⟩

end Blackhole.ValueMem
