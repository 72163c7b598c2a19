import Verif.ValueMem.Lemmas

/-!
# Attribute values behave like values (C96)
-/

namespace Blackhole.ValueMem

/-! ## Values -/

/-- Whatever a program has done with attribute values, each one that is alive holds what was last put into it, as if there
were no memory: copies are independent of each other, a value that was moved is a value again, an assignment that throws
has changed nothing. What is not alive cannot be read. -/
theorem C96_values {lib : Lib} {m : Mem} {v : Vals} (h : Reaches lib m v) (o : Nat) :
    m.read o = match v o with
      | some c => .ok c
      | none => .error .dangling := by
  have hr := (reaches_ok h).2
  cases hv : v o with
  | none => simp [Mem.read, hr.none.1 hv]
  | some c => exact read_iff.2 (hr.some hv)

/-- Nothing that a program may do with attribute values uses memory that is not there, frees memory twice or fails for any
reason but an allocation that has failed. -/
theorem C96_safe {lib : Lib} {m : Mem} {v : Vals} (h : Reaches lib m v) (op : Op) (hl : Legal v op) :
    ∃ out m', m.step lib op = .ok (out, m') ∧ (out = .badAlloc → op.fails = true) := by
  obtain ⟨out, m', h1, h2, _⟩ := step_ok (reaches_ok h).1 (reaches_ok h).2 op hl
  exact ⟨out, m', h1, h2⟩

/-- Only copies of texts that are too long for the string object can throw: numbers, short texts, moves and destructors
never do. -/
theorem C96_throws {lib : Lib} {m m' : Mem} {v : Vals} (h : Reaches lib m v) (op : Op)
    (hs : m.step lib op = .ok (.badAlloc, m')) :
    m' = m ∧ op.fails = true ∧ ∃ t, op.copies v = some (.text t) ∧ lib.sso < t.length := by
  have need : ∀ c : Content, needs lib c = true → ∃ t, c = .text t ∧ lib.sso < t.length := by
    intro c hc
    cases c with
    | flat f => cases hc
    | text t => exact ⟨t, rfl, by simpa [needs] using hc⟩
  have hv : ∀ s c, m.read s = .ok c → v s = some c := by
    intro s c hc
    rw [C96_values h s] at hc
    cases hvs : v s with
    | none => simp [hvs] at hc
    | some c' => simp [hvs] at hc; rw [hc]
  have hcons : ∀ o c f, m.construct lib o c f = (.badAlloc, m') →
      m' = m ∧ f = true ∧ ∃ t, c = .text t ∧ lib.sso < t.length := by
    intro o c f hs
    unfold Mem.construct at hs
    by_cases hf : (f && needs lib c) = true
    · rw [if_pos hf] at hs
      cases hs
      simp only [Bool.and_eq_true] at hf
      exact ⟨rfl, hf.1, need c hf.2⟩
    · rw [if_neg hf] at hs
      cases hs
  cases op with
  | construct o c f =>
    obtain ⟨h1, h2, t, h3, h4⟩ := hcons o c f (by simpa [Mem.step] using hs)
    exact ⟨h1, h2, t, by rw [← h3]; rfl, h4⟩
  | copy o s f =>
    simp only [Mem.step, Mem.copy] at hs
    cases hread : m.read s with
    | error e => simp [hread] at hs
    | ok c =>
      simp only [hread, Except.ok.injEq] at hs
      obtain ⟨h1, h2, t, h3, h4⟩ := hcons o c f hs
      exact ⟨h1, h2, t, by rw [← h3]; exact hv s c hread, h4⟩
  | assign d s f =>
    simp only [Mem.step, Mem.assign] at hs
    by_cases e : d = s
    · rw [if_pos e] at hs
      cases hs
    · rw [if_neg e] at hs
      cases ho : m.objs d with
      | none => simp [ho] at hs
      | some old =>
        cases hread : m.read s with
        | error e => simp [ho, hread] at hs
        | ok c =>
          simp only [ho, hread] at hs
          have other : (if f && needs lib c then Except.ok (Outcome.badAlloc, m)
              else match (newObj lib m c).2.replace d old (newObj lib m c).1 with
                | .error e => .error e
                | .ok m => .ok (.done, m)) = .ok (.badAlloc, m') →
              m' = m ∧ f = true ∧ ∃ t, v s = some (.text t) ∧ lib.sso < t.length := by
            intro hs
            by_cases hf : (f && needs lib c) = true
            · rw [if_pos hf] at hs
              cases hs
              simp only [Bool.and_eq_true] at hf
              obtain ⟨t, h3, h4⟩ := need c hf.2
              exact ⟨rfl, hf.1, t, by rw [← h3]; exact hv s c hread, h4⟩
            · rw [if_neg hf] at hs
              cases hr : (newObj lib m c).2.replace d old (newObj lib m c).1 with
              | error e => simp [hr] at hs
              | ok m1 => simp [hr] at hs
          rcases old with g | (t | a)
          · exact other hs
          · exact other hs
          · rcases c with g | t
            · exact other hs
            · cases hb : m.heap a with
              | none => simp [hb] at hs
              | some b =>
                simp only [hb] at hs
                by_cases hl : t.length ≤ b.room
                · rw [if_pos hl] at hs
                  cases hs
                · rw [if_neg hl] at hs
                  exact other hs
  | move o s =>
    cases hm : m.move o s <;> simp [Mem.step, hm, Except.map] at hs
  | moveAssign d s =>
    cases hm : m.moveAssign lib d s <;> simp [Mem.step, hm, Except.map] at hs
  | destroy o =>
    cases hm : m.destroy o <;> simp [Mem.step, hm, Except.map] at hs

/-- Nothing is lost: every block of memory belongs to exactly one living value, and when the last value is destroyed no
memory is left. -/
theorem C96_no_leak {lib : Lib} {m : Mem} {v : Vals} (h : Reaches lib m v) :
    (∀ a, m.heap a ≠ none → ∃ o, v o ≠ none ∧ m.objs o = some (.string (.long a))
      ∧ ∀ o', m.objs o' = some (.string (.long a)) → o' = o)
    ∧ ((∀ o, v o = none) → ∀ a, m.heap a = none) := by
  obtain ⟨hi, hr⟩ := reaches_ok h
  have own : ∀ a, m.heap a ≠ none → ∃ o, v o ≠ none ∧ m.objs o = some (.string (.long a))
      ∧ ∀ o', m.objs o' = some (.string (.long a)) → o' = o := by
    intro a ha
    obtain ⟨b, hb⟩ := Option.ne_none_iff_exists'.1 ha
    obtain ⟨o, ho⟩ := hi.owner a b hb
    exact ⟨o, fun hv => by simp [hr.none.1 hv] at ho, ho, fun o' ho' => hi.unique o' o a ho' ho⟩
  refine ⟨own, fun hv a => ?_⟩
  by_cases ha : m.heap a = none
  · exact ha
  · obtain ⟨o, h1, _⟩ := own a ha
    exact absurd (hv o) h1

/-! ## Views -/

theorem view_read {m : Mem} {o : Nat} {w : View} (h : m.view o = .ok w) : m.readView w = m.read o := by
  unfold Mem.view at h
  rcases ho : m.objs o with _ | (f | (s | a))
  · simp [ho] at h
  · simp [ho] at h; subst h; simp [Mem.readView, Mem.read, ho]
  · simp [ho] at h; subst h; simp [Mem.readView, Mem.read, ho, Mem.text, first]
  · cases hb : m.heap a with
    | none => simp [ho, hb] at h
    | some b => simp [ho, hb] at h; subst h; simp [Mem.readView, Mem.read, ho, Mem.text, first, hb]

/-- The object and its block are as they were. -/
def Same (m m' : Mem) (o : Nat) : Prop :=
  m'.objs o = m.objs o ∧ ∀ a, m.objs o = some (.string (.long a)) → m'.heap a = m.heap a

theorem newObj_same {lib : Lib} {m : Mem} (hi : Inv lib m) (c : Content) (o : Nat) :
    Same m (newObj lib m c).2 o := by
  rcases c with f | s
  · exact ⟨rfl, fun _ _ => rfl⟩
  · by_cases hs : s.length ≤ lib.sso
    · simp only [newObj, newStr, if_pos hs]
      exact ⟨rfl, fun _ _ => rfl⟩
    · simp only [newObj, newStr, if_neg hs]
      refine ⟨rfl, fun a ha => ?_⟩
      obtain ⟨b, hb⟩ := hi.owned o a ha
      have : a ≠ m.next := by
        rintro rfl
        rw [hi.fresh _ (Nat.le_refl _)] at hb
        cases hb
      simp [Mem.setHeap, this]

theorem Same.trans {m m' m'' : Mem} {o : Nat} (h : Same m m' o) (h' : Same m' m'' o) : Same m m'' o :=
  ⟨h'.1.trans h.1, fun a ha => (h'.2 a (h.1.trans ha)).trans (h.2 a ha)⟩

theorem setObj_same (m : Mem) {x o : Nat} (h : x ≠ o) (ob : Option Obj) : Same m (m.setObj x ob) o :=
  ⟨by simp only [Mem.setObj]; exact if_neg fun e => h e.symm, fun _ _ => rfl⟩

theorem setHeap_same {lib : Lib} {m : Mem} (hi : Inv lib m) {d o a : Nat} (h : d ≠ o)
    (hd : m.objs d = some (.string (.long a))) (b : Option Block) : Same m (m.setHeap a b) o := by
  refine ⟨rfl, fun a' ha => ?_⟩
  have : a' ≠ a := by rintro rfl; exact h (hi.unique d o a' hd ha)
  simp [Mem.setHeap, this]

theorem free_same {lib : Lib} {m m' : Mem} (hi : Inv lib m) {d o : Nat} (h : d ≠ o) {ob : Obj} (hd : m.objs d = some ob)
    (hf : free m ob = .ok m') : Same m m' o := by
  rcases ob with f | (t | a)
  · simp [free] at hf; subst hf; exact ⟨rfl, fun _ _ => rfl⟩
  · simp [free] at hf; subst hf; exact ⟨rfl, fun _ _ => rfl⟩
  · obtain ⟨b, hb⟩ := hi.owned d a hd
    simp [free, hb] at hf
    subst hf
    exact setHeap_same hi h hd none

theorem destroy_same {lib : Lib} {m m' : Mem} (hi : Inv lib m) {d o : Nat} (h : d ≠ o) (hd : m.destroy d = .ok m') :
    Same m m' o := by
  unfold Mem.destroy at hd
  cases ho : m.objs d with
  | none => simp [ho] at hd
  | some ob =>
    simp only [ho] at hd
    cases hf : free m ob with
    | error e => simp [hf] at hd
    | ok m1 =>
      simp only [hf, Except.ok.injEq] at hd
      subst hd
      exact (free_same hi h ho hf).trans (setObj_same _ h _)

theorem assign_same {lib : Lib} {m m' : Mem} {v : Vals} (hi : Inv lib m) (hr : Refines m v) {d s o : Nat} {f : Bool}
    {out : Outcome} (hd : v d ≠ none) (h : d ≠ o) (hs : m.assign lib d s f = .ok (out, m')) : Same m m' o := by
  unfold Mem.assign at hs
  by_cases e : d = s
  · rw [if_pos e] at hs
    cases hs
    exact ⟨rfl, fun _ _ => rfl⟩
  · rw [if_neg e] at hs
    obtain ⟨old, ho⟩ := alive_iff hr hd
    simp only [ho] at hs
    cases hread : m.read s with
    | error e => simp [hread] at hs
    | ok c =>
      simp only [hread] at hs
      obtain ⟨m1, h1, i1, r1⟩ := destroy_ok hi hr hd
      have other : (if f && needs lib c then Except.ok (Outcome.badAlloc, m)
          else match (newObj lib m c).2.replace d old (newObj lib m c).1 with
            | .error e => .error e
            | .ok m => .ok (.done, m)) = .ok (out, m') → Same m m' o := by
        intro hs
        by_cases hf : (f && needs lib c) = true
        · rw [if_pos hf] at hs
          cases hs
          exact ⟨rfl, fun _ _ => rfl⟩
        · rw [if_neg hf, replace_new hi ho c h1] at hs
          cases hs
          exact (destroy_same hi h h1).trans ((newObj_same i1 c o).trans (setObj_same _ h _))
      rcases old with g | (t | a)
      · exact other hs
      · exact other hs
      · rcases c with g | t
        · exact other hs
        · obtain ⟨b, hb⟩ := hi.owned d a ho
          simp only [hb] at hs
          by_cases hl : t.length ≤ b.room
          · rw [if_pos hl] at hs
            cases hs
            exact setHeap_same hi h ho _
          · rw [if_neg hl] at hs
            exact other hs

theorem moveAssign_same {lib : Lib} {m m' : Mem} {v : Vals} (hi : Inv lib m) (hr : Refines m v) {d s o : Nat}
    (hd : v d ≠ none) (hs : v s ≠ none) (h : d ≠ s → d ≠ o ∧ s ≠ o) (he : m.moveAssign lib d s = .ok m') :
    Same m m' o := by
  unfold Mem.moveAssign at he
  by_cases e : d = s
  · rw [if_pos e] at he
    cases he
    exact ⟨rfl, fun _ _ => rfl⟩
  · rw [if_neg e] at he
    obtain ⟨hdo, hso⟩ := h e
    obtain ⟨old, ho⟩ := alive_iff hr hd
    obtain ⟨new, hn⟩ := alive_iff hr hs
    have general : (match m.replace d old new with
        | .error e => Except.error e
        | .ok m => .ok (m.setObj s (some (movedFrom new)))) = .ok m' → Same m m' o := by
      intro he
      unfold Mem.replace at he
      cases hf : free m old with
      | error e => simp [hf] at he
      | ok m1 =>
        simp only [hf, Except.ok.injEq] at he
        subst he
        exact (free_same hi hdo ho hf).trans ((setObj_same _ hdo _).trans (setObj_same _ hso _))
    simp only [ho, hn] at he
    rcases old with f | (t | a)
    · exact general he
    · exact general he
    · obtain ⟨b, hb⟩ := hi.owned d a ho
      rcases new with f | (t | a')
      · exact general he
      · simp only [hb] at he
        by_cases hl : t.length ≤ b.room
        · rw [if_pos hl] at he
          cases he
          exact (setHeap_same hi hdo ho _).trans (setObj_same _ hso _)
        · rw [if_neg hl] at he
          cases he
      · simp only [hb] at he
        cases hsw : lib.swap with
        | true =>
          simp only [hsw, if_true, Except.ok.injEq] at he
          subst he
          exact (setHeap_same hi hdo ho _).trans ((setObj_same _ hdo _).trans (setObj_same _ hso _))
        | false =>
          simp only [hsw, Bool.false_eq_true, if_false, Except.ok.injEq] at he
          subst he
          exact (setHeap_same hi hdo ho _).trans ((setObj_same _ hdo _).trans (setObj_same _ hso _))

theorem step_same {lib : Lib} {m m' : Mem} {v : Vals} (hi : Inv lib m) (hr : Refines m v) {op : Op} {out : Outcome}
    (hl : Legal v op) (hs : m.step lib op = .ok (out, m')) {o : Nat} (hw : ¬op.writes o) : Same m m' o := by
  have hcons : ∀ x c f, x ≠ o → m.construct lib x c f = (out, m') → Same m m' o := by
    intro x c f hx hs
    unfold Mem.construct at hs
    by_cases hf : (f && needs lib c) = true
    · rw [if_pos hf] at hs
      cases hs
      exact ⟨rfl, fun _ _ => rfl⟩
    · rw [if_neg hf] at hs
      cases hs
      exact (newObj_same hi c o).trans (setObj_same _ hx _)
  cases op with
  | construct x c f => exact hcons x c f hw (by simpa [Mem.step] using hs)
  | copy x s f =>
    simp only [Mem.step, Mem.copy] at hs
    cases hread : m.read s with
    | error e => simp [hread] at hs
    | ok c =>
      simp only [hread, Except.ok.injEq] at hs
      exact hcons x c f hw hs
  | move x s =>
    simp only [Op.writes, not_or] at hw
    simp only [Mem.step, Mem.move] at hs
    cases hob : m.objs s with
    | none => simp [hob, Except.map] at hs
    | some ob =>
      simp only [hob, Except.map, Except.ok.injEq, Prod.mk.injEq] at hs
      rw [← hs.2]
      exact (setObj_same _ hw.2 _).trans (setObj_same _ hw.1 _)
  | assign d s f =>
    by_cases e : d = s
    · simp only [Mem.step, Mem.assign, if_pos e, Except.ok.injEq, Prod.mk.injEq] at hs
      rw [← hs.2]
      exact ⟨rfl, fun _ _ => rfl⟩
    · exact assign_same hi hr hl.1 (fun h => hw ⟨h, e⟩) hs
  | moveAssign d s =>
    cases hm : m.moveAssign lib d s with
    | error e => simp [Mem.step, hm, Except.map] at hs
    | ok m1 =>
      simp only [Mem.step, hm, Except.map, Except.ok.injEq, Prod.mk.injEq] at hs
      rw [← hs.2]
      exact moveAssign_same hi hr hl.1 hl.2 (fun e => ⟨fun h => hw ⟨.inl h, e⟩, fun h => hw ⟨.inr h, e⟩⟩) hm
  | destroy x =>
    cases hm : m.destroy x with
    | error e => simp [Mem.step, hm, Except.map] at hs
    | ok m1 =>
      simp only [Mem.step, hm, Except.map, Except.ok.injEq, Prod.mk.injEq] at hs
      rw [← hs.2]
      exact destroy_same hi hw hm

theorem run_same {lib : Lib} {m m' : Mem} {v v' : Vals} {ops : List Op} (h : Run lib m v ops m' v') {o : Nat}
    (hi : Inv lib m) (hr : Refines m v) (hw : ∀ op ∈ ops, ¬op.writes o) : Same m m' o := by
  induction h with
  | nil => exact ⟨rfl, fun _ _ => rfl⟩
  | cons hl hs _ ih =>
    have s1 := step_same hi hr hl hs (hw _ (.head _))
    obtain ⟨_, _, h1, _, h3, h4⟩ := step_ok hi hr _ hl
    rw [hs] at h1
    cases h1
    exact s1.trans (ih h3 h4 fun op hop => hw op (.tail _ hop))

/-- A view that was made of a value shows what the value held then, for as long as the value itself is not written, moved or
destroyed, whatever else happens to others: copies of it are made and destroyed, others are assigned and moved. -/
theorem C96_views {lib : Lib} {m m' : Mem} {v v' : Vals} (h : Reaches lib m v) {o : Nat} {w : View}
    (hw : m.view o = .ok w) {ops : List Op} (hrun : Run lib m v ops m' v') (ho : ∀ op ∈ ops, ¬op.writes o) :
    m'.readView w = match v o with
      | some c => .ok c
      | none => .error .dangling := by
  obtain ⟨hi, hr⟩ := reaches_ok h
  rw [← C96_values h o, ← view_read hw]
  obtain ⟨h1, h2⟩ := run_same hrun hi hr ho
  unfold Mem.view at hw
  rcases hob : m.objs o with _ | (f | (s | a))
  · simp [hob] at hw
  · simp [hob] at hw; subst hw; rfl
  · simp [hob] at hw; subst hw; simp [Mem.readView, h1, hob]
  · have h3 := h2 a hob
    cases hb : m.heap a with
    | none => simp [hob, hb] at hw
    | some b => simp [hob, hb] at hw; subst hw; simp [Mem.readView, h3, hb]

/-- Every living value can be viewed. -/
theorem C96_views_exist {lib : Lib} {m : Mem} {v : Vals} (h : Reaches lib m v) {o : Nat} (ho : v o ≠ none) :
    ∃ w, m.view o = .ok w := by
  obtain ⟨hi, hr⟩ := reaches_ok h
  obtain ⟨ob, hob⟩ := alive_iff hr ho
  rcases ob with f | (s | a)
  · exact ⟨.flat f, by simp only [Mem.view, hob]⟩
  · exact ⟨.text (.inObj o) s.length, by simp only [Mem.view, hob]⟩
  · obtain ⟨b, hb⟩ := hi.owned o a hob
    exact ⟨.text (.heap a) b.text.length, by simp only [Mem.view, hob, hb]⟩

/-! ## What a view does not survive -/

/-- Moving a value leaves a view of it behind: one of a text in a block goes on showing it, one of a text inside the object
is invalid. -/
theorem C96_view_of_moved {lib : Lib} {m m' : Mem} {v : Vals} (h : Reaches lib m v) {o x : Nat} {w : View} {out : Outcome}
    (hl : Legal v (.move x o)) (hw : m.view o = .ok w) (hm : m.step lib (.move x o) = .ok (out, m')) :
    m'.readView w = if w.inside o then .error .outOfBounds else m.readView w := by
  obtain ⟨hi, hr⟩ := reaches_ok h
  obtain ⟨ob, hob⟩ := alive_iff hr hl.2
  have hne : o ≠ x := by
    rintro rfl
    exact hl.2 hl.1
  simp only [Mem.step, Mem.move, hob, Except.map, Except.ok.injEq, Prod.mk.injEq] at hm
  obtain ⟨_, rfl⟩ := hm
  simp only [Mem.view, hob] at hw
  rcases ob with f | (s | a)
  · cases hw
    simp [Mem.readView, View.inside]
  · cases hw
    cases s with
    | nil => simp [Mem.readView, Mem.setObj, hne, hob, movedFrom, View.inside]
    | cons c s => simp [Mem.readView, Mem.setObj, hne, movedFrom, first, View.inside]
  · obtain ⟨b, hb⟩ := hi.owned o a hob
    simp only [hb, Except.ok.injEq] at hw
    subst hw
    simp [Mem.readView, Mem.setObj, hb, View.inside]

/-- So it depends on the length of a text whether a view of a value survives that the value is moved, as it is when a vector
of attributes grows: `value_t a(text); view_t w(a); value_t b(std::move(a));` with at most 15 characters leaves `w`
invalid, with more it does not. -/
theorem C96_moved_text (text : Str) (hn : text ≠ []) :
    ∃ m1 m2 w, Mem.init.step {} (.construct 0 (.text text) false) = .ok (.done, m1)
      ∧ m1.view 0 = .ok w ∧ m1.step {} (.move 1 0) = .ok (.done, m2)
      ∧ m2.readView w = if text.length ≤ 15 then .error .outOfBounds else .ok (.text text) := by
  by_cases h : text.length ≤ 15
  · refine ⟨Mem.init.setObj 0 (some (.string (.short text))), _, .text (.inObj 0) text.length, ?_, rfl, rfl, ?_⟩
    · simp [Mem.step, Mem.construct, newObj, newStr, h]
    · simp [Mem.readView, Mem.setObj, movedFrom, first, h, hn]
  · refine ⟨({ Mem.init.setHeap 0 (some { text := text, room := text.length }) with next := 1 } : Mem).setObj 0
        (some (.string (.long 0))), _, .text (.heap 0) text.length, ?_, rfl, rfl, ?_⟩
    · simp [Mem.step, Mem.construct, newObj, newStr, h, Mem.init]
    · simp [Mem.readView, Mem.setObj, Mem.setHeap, first, h]

/-! ## Cases that meet the hypotheses -/

theorem reaches_run {lib : Lib} {m m' : Mem} {v v' : Vals} {ops : List Op} (hr : Run lib m v ops m' v')
    (h : Reaches lib m v) : Reaches lib m' v' := by
  induction hr with
  | nil => exact h
  | cons hl hs _ ih => exact ih (.step h hl hs)

/-- A copy that fails for lack of memory, a copy that does not, an assignment in place, one that fails, moves, a swap of
blocks, and the end of all of them. -/
example :
    let long := List.replicate 40 'x'
    let longer := List.replicate 50 'y'
    let ops : List Op := [.construct 0 (.text long) false, .copy 1 0 true, .copy 1 0 false,
      .construct 2 (.flat (.bool true)) true, .assign 1 2 false, .assign 2 0 true, .assign 2 0 false,
      .construct 3 (.text longer) false, .moveAssign 2 3, .assign 3 0 false, .assign 0 0 false]
    ∃ m v, Reaches {} m v ∧ Run {} Mem.init (fun _ => none) ops m v
      ∧ v 0 = some (.text long) ∧ v 1 = some (.flat (.bool true)) ∧ v 2 = some (.text longer)
      ∧ v 3 = some (.text long) := by
  intro long longer ops
  have h : ∃ m v, Run {} Mem.init (fun _ => none) ops m v
      ∧ v 0 = some (.text long) ∧ v 1 = some (.flat (.bool true)) ∧ v 2 = some (.text longer)
      ∧ v 3 = some (.text long) :=
    ⟨_, _, .cons rfl rfl (.cons ⟨rfl, nofun⟩ rfl (.cons ⟨rfl, nofun⟩ rfl (.cons rfl rfl (.cons ⟨nofun, nofun⟩ rfl
      (.cons ⟨nofun, nofun⟩ rfl (.cons ⟨nofun, nofun⟩ rfl (.cons rfl rfl (.cons ⟨nofun, nofun⟩ rfl
      (.cons ⟨nofun, nofun⟩ rfl (.cons ⟨nofun, nofun⟩ rfl .nil)))))))))), rfl, rfl, rfl, rfl⟩
  obtain ⟨m, v, hr, hv⟩ := h
  exact ⟨m, v, reaches_run hr .init, hr, hv⟩

end Blackhole.ValueMem
