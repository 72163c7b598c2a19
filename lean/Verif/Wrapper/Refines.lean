import Verif.Wrapper.Lemmas

/-! # Memory with wrappers does what the specification says -/

namespace Blackhole.Wrapper

/-- The storage of a wrapper, whose blocks were made for object `b`. -/
def StorOk (h : Heap) (b : Nat) (st : Stor) : Prop :=
  ∃ es as, st.elems h = some es ∧ Rep h b 0 es as ∧ ∀ a, st = .block a → a = (b, 0)

/-- Wrapper `w` holds what the views look at. -/
def Held (m : Mem) (birth : Nat → Nat) (k : Kept) (vs : List (SV × VV)) (w : Nat) : Prop :=
  ∃ ob es, m.objs[w]? = some (some ob) ∧ ob.storage.elems m.heap = some es ∧ Rep m.heap (birth w) 0 es k.attributes
    ∧ Looks (ob.storage.place w) 0 es k.attributes vs ∧ k.steady = ob.storage.steady
    ∧ ∀ a, ob.storage = .block a → a = (birth w, 0)

/-- The views are of what constructor call `k` was given. -/
structure Seen (m : Mem) (birth : Nat → Nat) (k : Kept) (vs : List (SV × VV)) : Prop where
  shape : Shape k.attributes vs
  held : ∀ w, k.holder = some w → Held m birth k vs w
  lost : k.holder = none → (∃ a ∈ k.attributes, HasText a) → HasDead m vs

/-- Object `birth o` is the one for which the storage that `o` has now was made. -/
structure Refines (m : Mem) (s : SState) (birth : Nat → Nat) : Prop where
  len : m.objs.length = s.cells.length
  lt : ∀ o, o < m.objs.length → birth o < m.objs.length
  inj : ∀ o o', o < m.objs.length → o' < m.objs.length → birth o = birth o' → o = o'
  destroyed : ∀ o : Nat, s.cells[o]? = some .destroyed → m.objs[o]? = some none
  moved : ∀ o : Nat, s.cells[o]? = some .moved → m.objs[o]? = some (some ⟨.inside [], []⟩)
  looks : ∀ (o t : Nat), s.cells[o]? = some (.looks t) → ∃ ob k, m.objs[o]? = some (some ob) ∧ s.kept[t]? = some k
    ∧ StorOk m.heap (birth o) ob.storage ∧ Seen m birth k ob.view

theorem StorOk.frame {h h' : Heap} {b : Nat} {st : Stor} (hs : StorOk h b st) (e : ∀ k, h' (b, k) = h (b, k)) :
    StorOk h' b st := by
  obtain ⟨es, as, h1, h2, h3⟩ := hs
  refine ⟨es, as, ?_, h2.frame fun k _ => e k, h3⟩
  cases st with
  | inside _ => exact h1
  | block a =>
    have := h3 a rfl
    subst this
    simp only [Stor.elems, e] at h1 ⊢
    exact h1

theorem elemsAt_place {m : Mem} {w : Nat} {ob : Obj} {es : List Elem} (h1 : m.objs[w]? = some (some ob))
    (h2 : ob.storage.elems m.heap = some es) : m.elemsAt (ob.storage.place w) = some es := by
  obtain ⟨st, v⟩ := ob
  cases st with
  | inside es' =>
    simp only [Stor.elems, Option.some.injEq] at h2
    simp only [Stor.place, Mem.elemsAt, h1, h2]
  | block a => exact h2

/-- What the wrappers show. -/
theorem Refines.log {m : Mem} {s : SState} {birth : Nat → Nat} (h : Refines m s birth) {o : Nat} {r : Except UB AttrList}
    (hl : s.Log o r) : m.log o = r := by
  cases hl with
  | @shows t k hc hk hh =>
    obtain ⟨ob, k', h1, h2, -, h4⟩ := h.looks o t hc
    rw [hk] at h2
    cases h2
    simp only [Mem.log, h1]
    rcases hh with hh | hh
    · cases hw : k.holder with
      | none => exact absurd hw hh
      | some w =>
        obtain ⟨obw, es, e1, e2, e3, e4, -⟩ := h4.held w hw
        exact readList_looks e3 e4 (pre := []) (elemsAt_place e1 e2) rfl
    · exact readList_shape h4.shape hh
  | @lost t k hc hk hh ht =>
    obtain ⟨ob, k', h1, h2, -, h4⟩ := h.looks o t hc
    rw [hk] at h2
    cases h2
    simp only [Mem.log, h1]
    exact readList_dead (h4.lost hh ht)

theorem Held.frame {m m' : Mem} {birth birth' : Nat → Nat} {k : Kept} {vs : List (SV × VV)} {w : Nat}
    (h : Held m birth k vs w) (ho : m'.objs[w]? = m.objs[w]?) (hb : birth' w = birth w)
    (hh : ∀ j, m'.heap (birth w, j) = m.heap (birth w, j)) (k' : Kept) (ha : k'.attributes = k.attributes)
    (hst : k'.steady = k.steady) : Held m' birth' k' vs w := by
  obtain ⟨ob, es, h1, h2, h3, h4, h5, h6⟩ := h
  refine ⟨ob, es, by rw [ho, h1], ?_, by rw [hb, ha]; exact h3.frame fun j _ => hh j, by rw [ha]; exact h4, by rw [hst, h5],
    fun a e => by rw [hb]; exact h6 a e⟩
  cases hs : ob.storage with
  | inside _ => rw [hs] at h2; exact h2
  | block a =>
    have := h6 a hs
    subst this
    rw [hs] at h2
    simp only [Stor.elems, hh] at h2 ⊢
    exact h2

theorem Held.lt {m : Mem} {birth : Nat → Nat} {k : Kept} {vs : List (SV × VV)} {w : Nat} (h : Held m birth k vs w) :
    w < m.objs.length := by
  obtain ⟨ob, es, h1, -⟩ := h
  exact (List.getElem?_eq_some_iff.1 h1).1

/-! ## A new object with storage of its own -/

/-- A new object `n`, and new blocks for it. -/
structure Added (m m' : Mem) (ob : Obj) : Prop where
  objs : m'.objs = m.objs ++ [some ob]
  heap : ∀ x : Addr, x.1 ≠ m.objs.length → m'.heap x = m.heap x

/-- The new object's storage is its own. -/
def added (birth : Nat → Nat) (n : Nat) : Nat → Nat := fun o => if o = n then n else birth o

theorem Added.old {m m' : Mem} {ob : Obj} (h : Added m m' ob) {o : Nat} (ho : o < m.objs.length) :
    m'.objs[o]? = m.objs[o]? := by
  rw [h.objs, List.getElem?_append_left ho]

theorem Added.dead {m m' : Mem} {ob : Obj} (h : Added m m' ob) (p : Place) (hp : DeadP m p) : DeadP m' p := by
  cases p with
  | obj o =>
    have ho : o < m.objs.length := by
      rcases hp with hp | ⟨v, hp⟩ <;> exact (List.getElem?_eq_some_iff.1 hp).1
    simp only [DeadP] at hp ⊢
    rw [h.old ho]
    exact hp
  | block a =>
    obtain ⟨h1, h2⟩ := hp
    refine ⟨by rw [h.heap a (Nat.ne_of_lt h2), h1], ?_⟩
    rw [h.objs, List.length_append]
    exact Nat.lt_add_right _ h2

theorem Added.seen {m m' : Mem} {s : SState} {birth : Nat → Nat} (hr : Refines m s birth) {ob : Obj} (h : Added m m' ob)
    {k : Kept} {vs : List (SV × VV)} (hs : Seen m birth k vs) : Seen m' (added birth m.objs.length) k vs where
  shape := hs.shape
  held w hw := by
    have h1 := hs.held w hw
    have hlt := h1.lt
    refine h1.frame (h.old hlt) ?_ ?_ k rfl rfl
    · simp [added, Nat.ne_of_lt hlt]
    · exact fun j => h.heap _ (Nat.ne_of_lt (hr.lt w hlt))
  lost h1 h2 := (hs.lost h1 h2).mono h.dead

theorem Added.refines {m m' : Mem} {s : SState} {birth : Nat → Nat} (hr : Refines m s birth) {ob : Obj} (h : Added m m' ob)
    (hst : StorOk m'.heap m.objs.length ob.storage) (c : Cell) (kept : List Kept)
    (hk : ∀ (t : Nat) (k : Kept), s.kept[t]? = some k → kept[t]? = some k) (hd : c ≠ .destroyed)
    (hm : c = .moved → ob = ⟨.inside [], []⟩)
    (hl : ∀ t, c = .looks t → ∃ k, kept[t]? = some k ∧ Seen m' (added birth m.objs.length) k ob.view) :
    Refines m' ⟨s.cells ++ [c], kept⟩ (added birth m.objs.length) := by
  have hlen : m'.objs.length = m.objs.length + 1 := by rw [h.objs]; simp
  have hcases : ∀ (o : Nat) (x : Cell), (s.cells ++ [c])[o]? = some x →
      (o < m.objs.length ∧ s.cells[o]? = some x) ∨ (o = m.objs.length ∧ x = c) := by
    intro o x hx
    by_cases ho : o < s.cells.length
    · left
      rw [List.getElem?_append_left ho] at hx
      exact ⟨by rw [hr.len]; exact ho, hx⟩
    · right
      rw [List.getElem?_append_right (by omega)] at hx
      have : o - s.cells.length = 0 := by
        have := (List.getElem?_eq_some_iff.1 hx).1
        simp at this
        exact this
      rw [this] at hx
      have hlen' := hr.len
      simp only [List.getElem?_cons_zero, Option.some.injEq] at hx
      exact ⟨by omega, hx.symm⟩
  have hnew : m'.objs[m.objs.length]? = some (some ob) := by rw [h.objs]; simp
  refine ⟨by simp [hlen, hr.len], ?_, ?_, ?_, ?_, ?_⟩
  · intro o ho
    unfold added
    rw [hlen] at ho ⊢
    split
    · omega
    · have := hr.lt o (by omega)
      omega
  · intro o o' ho ho' e
    unfold added at e
    rw [hlen] at ho ho'
    split at e <;> split at e
    · omega
    · have := hr.lt o' (by omega)
      omega
    · have := hr.lt o (by omega)
      omega
    · exact hr.inj o o' (by omega) (by omega) e
  · intro o hc
    rcases hcases o _ hc with ⟨ho, hc⟩ | ⟨ho, hc⟩
    · rw [h.old ho]; exact hr.destroyed o hc
    · exact absurd hc.symm hd
  · intro o hc
    rcases hcases o _ hc with ⟨ho, hc⟩ | ⟨ho, hc⟩
    · rw [h.old ho]; exact hr.moved o hc
    · rw [ho, hnew, hm hc.symm]
  · intro o t hc
    rcases hcases o _ hc with ⟨ho, hc⟩ | ⟨ho, hc⟩
    · obtain ⟨ob', k, h1, h2, h3, h4⟩ := hr.looks o t hc
      refine ⟨ob', k, by rw [h.old ho, h1], hk t k h2, ?_, Added.seen hr h h4⟩
      have : added birth m.objs.length o = birth o := by simp [added, Nat.ne_of_lt ho]
      rw [this]
      exact h3.frame fun j => h.heap _ (Nat.ne_of_lt (hr.lt o ho))
    · obtain ⟨k, h1, h2⟩ := hl t hc.symm
      refine ⟨ob, k, by rw [ho, hnew], h1, ?_, h2⟩
      rw [ho]
      simpa [added] using hst

theorem construct_refines (lib : Lib) {m : Mem} {s : SState} {birth : Nat → Nat} (hr : Refines m s birth) (spilled : Bool)
    (gs : List Given) :
    Refines (m.construct lib spilled gs)
      ⟨s.cells ++ [.looks s.kept.length], s.kept ++ [⟨attributesOf gs, steady lib spilled gs, some s.cells.length⟩]⟩
      (added birth m.objs.length) := by
  obtain ⟨es, e1, e2, e3, e4, -⟩ := store_spec lib m.objs.length spilled gs m.heap
  have e5 := store_steady lib m.objs.length spilled gs m.heap
  unfold Mem.construct
  simp only
  generalize store lib m.objs.length spilled gs m.heap = st at e1 e2 e3 e4 e5 ⊢
  rw [e1, Option.getD_some]
  have hl := viewOfElems_looks e2 (st.1.place m.objs.length)
  refine Added.refines (ob := ⟨st.1, viewOfElems (st.1.place m.objs.length) 0 es⟩) hr ⟨rfl, e4⟩ ⟨es, _, e1, e2, e3⟩ _ _ ?_
    (by simp) (by simp) ?_
  · intro t k h
    rw [List.getElem?_append_left (List.getElem?_eq_some_iff.1 h).1, h]
  · intro t ht
    injection ht with ht
    subst ht
    refine ⟨_, List.getElem?_concat_length, ⟨hl.shape, ?_, by simp⟩⟩
    intro w hw
    injection hw with hw
    subst hw
    refine ⟨⟨st.1, viewOfElems (st.1.place m.objs.length) 0 es⟩, es, ?_, e1, ?_, ?_, e5.symm, ?_⟩
    · rw [← hr.len]; simp
    · rw [← hr.len]; simpa [added] using e2
    · rw [← hr.len]; exact hl
    · rw [← hr.len]; simpa [added] using e3

theorem alive {m : Mem} {s : SState} {birth : Nat → Nat} (hr : Refines m s birth) {w : Nat} {c : Cell}
    (hc : s.cells[w]? = some c) (hd : c ≠ .destroyed) :
    ∃ ob, m.objs[w]? = some (some ob) ∧ (StorOk m.heap (birth w) ob.storage)
      ∧ (c = .moved → ob = ⟨.inside [], []⟩)
      ∧ ∀ t, c = .looks t → ∃ k, s.kept[t]? = some k ∧ Seen m birth k ob.view := by
  cases c with
  | destroyed => exact absurd rfl hd
  | moved => exact ⟨_, hr.moved w hc, ⟨[], [], rfl, .nil, by simp⟩, fun _ => rfl, by simp⟩
  | looks t =>
    obtain ⟨ob, k, h1, h2, h3, h4⟩ := hr.looks w t hc
    refine ⟨ob, h1, h3, by simp, ?_⟩
    intro t' ht
    injection ht with ht
    subst ht
    exact ⟨k, h2, h4⟩

theorem copy_refines (lib : Lib) {m : Mem} {s : SState} {birth : Nat → Nat} (hr : Refines m s birth) {w : Nat} {c : Cell}
    (hc : s.cells[w]? = some c) (hd : c ≠ .destroyed) :
    ∃ m', m.copy lib w = .ok m' ∧ Refines m' ⟨s.cells ++ [c], s.kept⟩ (added birth m.objs.length) := by
  obtain ⟨ob, h1, ⟨es, as, h2, h3, h4⟩, h5, h6⟩ := alive hr hc hd
  obtain ⟨gs, g1, g2⟩ := contents_rep h3
  obtain ⟨es', e1, e2, e3, e4, e5⟩ := store_spec lib m.objs.length false gs m.heap
  refine ⟨_, by simp only [Mem.copy, h1, h2, g1]; rfl, ?_⟩
  refine Added.refines (ob := ⟨(store lib m.objs.length false gs m.heap).1, ob.view⟩) hr ⟨rfl, e4⟩ ⟨es', _, e1, e2, e3⟩ _ _
    (fun _ _ h => h) hd ?_ ?_
  · intro hm
    have := h5 hm
    subst this
    simp only [Stor.elems, Option.some.injEq] at h2
    subst h2
    cases g1
    rfl
  · intro t ht
    obtain ⟨k, k1, k2⟩ := h6 t ht
    exact ⟨k, k1, Added.seen hr ⟨rfl, e4⟩ k2⟩

/-! ## Moves -/

def swapped (birth : Nat → Nat) (w n : Nat) : Nat → Nat := fun o => if o = n then birth w else if o = w then n else birth o

theorem move_dead {m : Mem} (w : Nat) (ob : Obj) (p : Place) (hp : DeadP m p) :
    DeadP { m with objs := m.objs.set w (some ⟨.inside [], []⟩) ++ [some ob] } p := by
  cases p with
  | obj o =>
    have ho : o < m.objs.length := by
      rcases hp with hp | ⟨v, hp⟩ <;> exact (List.getElem?_eq_some_iff.1 hp).1
    simp only [DeadP] at hp ⊢
    rw [List.getElem?_append_left (by simpa using ho), List.getElem?_set]
    split
    · rename_i e
      subst e
      rw [if_pos ho]
      exact .inr ⟨[], rfl⟩
    · exact hp
  | block a =>
    obtain ⟨h2, h3⟩ := hp
    refine ⟨h2, ?_⟩
    simp only [List.length_append, List.length_set]
    exact Nat.lt_add_right _ h3

theorem move_seen {m : Mem} {birth : Nat → Nat} {w : Nat} {ob : Obj}
    (h1 : m.objs[w]? = some (some ob)) {k : Kept} {vs : List (SV × VV)} (hs : Seen m birth k vs) :
    Seen { m with objs := m.objs.set w (some ⟨.inside [], []⟩) ++ [some ob] } (swapped birth w m.objs.length)
      (k.moved w m.objs.length) vs := by
  have hw : w < m.objs.length := (List.getElem?_eq_some_iff.1 h1).1
  have hnew : (m.objs.set w (some ⟨.inside [], []⟩) ++ [some ob])[m.objs.length]? = some (some ob) := by
    rw [List.getElem?_append_right (by simp)]
    simp
  have hold : (m.objs.set w (some (⟨.inside [], []⟩ : Obj)) ++ [some ob])[w]? = some (some ⟨.inside [], []⟩) := by
    rw [List.getElem?_append_left (by simpa using hw), List.getElem?_set]
    simp [hw]
  unfold Kept.moved
  split
  · rename_i hh
    obtain ⟨ob', es, e1, e2, e3, e4, e5, e6⟩ := hs.held w hh
    rw [h1] at e1
    cases e1
    refine ⟨hs.shape, ?_, ?_⟩
    · intro w' hw'
      simp only at hw'
      split at hw'
      · rename_i hst
        injection hw' with hw'
        subst hw'
        have hb : swapped birth w m.objs.length m.objs.length = birth w := by simp [swapped]
        refine ⟨ob, es, hnew, e2, by rw [hb]; exact e3, ?_, e5, by rw [hb]; exact e6⟩
        rw [e5] at hst
        cases hos : ob.storage with
        | block a => rw [hos] at e4; exact e4
        | inside es' =>
          rw [hos] at e4 e2 hst
          simp only [Stor.elems, Option.some.injEq] at e2
          subst e2
          exact e4.moved e3 hst
      · cases hw'
    · intro hn _
      simp only at hn
      split at hn
      · cases hn
      · rename_i hst
        have hst : k.steady = false := by simpa using hst
        rw [e5] at hst
        cases hos : ob.storage with
        | block a => rw [hos] at hst; cases hst
        | inside es' =>
          rw [hos] at e4 e2 hst
          simp only [Stor.elems, Option.some.injEq] at e2
          subst e2
          refine e4.dead_moved e3 hst ?_
          exact .inr ⟨[], hold⟩
  · rename_i hh
    refine ⟨hs.shape, ?_, fun a b => (hs.lost a b).mono (move_dead w ob)⟩
    intro w' hw'
    have hd := hs.held w' hw'
    have hlt := hd.lt
    have hne : w' ≠ w := by rintro rfl; exact hh hw'
    refine hd.frame (birth' := swapped birth w m.objs.length) ?_ ?_ ?_ k rfl rfl
    · simp only
      rw [List.getElem?_append_left (by simpa using hlt), List.getElem?_set, if_neg (Ne.symm hne)]
    · simp [swapped, Nat.ne_of_lt hlt, hne]
    · exact fun _ => rfl

theorem move_refines {m : Mem} {s : SState} {birth : Nat → Nat} (hr : Refines m s birth) {w : Nat} {c : Cell}
    (hc : s.cells[w]? = some c) (hd : c ≠ .destroyed) :
    ∃ m', m.move w = .ok m'
      ∧ Refines m' ⟨s.cells.set w .moved ++ [c], s.kept.map (Kept.moved w s.cells.length)⟩ (swapped birth w m.objs.length) := by
  obtain ⟨ob, h1, h2, h3, h4⟩ := alive hr hc hd
  have hw : w < m.objs.length := (List.getElem?_eq_some_iff.1 h1).1
  refine ⟨_, by simp only [Mem.move, h1]; rfl, ?_⟩
  have hlen : (m.objs.set w (some ⟨.inside [], []⟩) ++ [some ob]).length = m.objs.length + 1 := by simp
  have hold : (m.objs.set w (some (⟨.inside [], []⟩ : Obj)) ++ [some ob])[w]? = some (some ⟨.inside [], []⟩) := by
    rw [List.getElem?_append_left (by simpa using hw), List.getElem?_set]
    simp [hw]
  have hnew : (m.objs.set w (some ⟨.inside [], []⟩) ++ [some ob])[m.objs.length]? = some (some ob) := by
    rw [List.getElem?_append_right (by simp)]
    simp
  have helse : ∀ o, o < m.objs.length → o ≠ w →
      (m.objs.set w (some (⟨.inside [], []⟩ : Obj)) ++ [some ob])[o]? = m.objs[o]? := by
    intro o ho hne
    rw [List.getElem?_append_left (by simpa using ho), List.getElem?_set, if_neg (Ne.symm hne)]
  have hcases : ∀ (o : Nat) (x : Cell), (s.cells.set w .moved ++ [c])[o]? = some x →
      (o < m.objs.length ∧ o ≠ w ∧ s.cells[o]? = some x) ∨ (o = w ∧ x = .moved) ∨ (o = m.objs.length ∧ x = c) := by
    intro o x hx
    by_cases ho : o < s.cells.length
    · rw [List.getElem?_append_left (by simpa using ho), List.getElem?_set] at hx
      split at hx
      · rename_i e
        rw [if_pos (by omega)] at hx
        injection hx with hx
        exact .inr (.inl ⟨e.symm, hx.symm⟩)
      · rename_i e
        exact .inl ⟨by rw [hr.len]; exact ho, Ne.symm e, hx⟩
    · rw [List.getElem?_append_right (by simp; omega)] at hx
      have : o - (s.cells.set w Cell.moved).length = 0 := by
        have := (List.getElem?_eq_some_iff.1 hx).1
        simp at this ⊢
        omega
      rw [this] at hx
      simp only [List.getElem?_cons_zero, Option.some.injEq] at hx
      have hl := hr.len
      simp only [List.length_set] at this
      exact .inr (.inr ⟨by omega, hx.symm⟩)
  have hkept : ∀ (t : Nat) (k : Kept), s.kept[t]? = some k →
      (s.kept.map (Kept.moved w s.cells.length))[t]? = some (k.moved w m.objs.length) := by
    intro t k hk
    rw [List.getElem?_map, hk, Option.map_some, hr.len]
  have hbn : swapped birth w m.objs.length m.objs.length = birth w := by simp [swapped]
  refine ⟨by simp [hr.len], ?_, ?_, ?_, ?_, ?_⟩
  · intro o ho
    simp only [hlen] at ho ⊢
    unfold swapped
    have := hr.lt w hw
    split
    · omega
    · split
      · omega
      · have := hr.lt o (by omega)
        omega
  · intro o o' ho ho' e
    simp only [hlen] at ho ho'
    have bw := hr.lt w hw
    have bo := hr.lt o
    have bo' := hr.lt o'
    have i1 := hr.inj w o' hw
    have i2 := hr.inj o w
    have i3 := hr.inj o o'
    unfold swapped at e
    by_cases c1 : o = m.objs.length <;> by_cases c2 : o' = m.objs.length <;> by_cases c3 : o = w <;> by_cases c4 : o' = w <;>
      simp only [c1, c2, c3, c4, if_true, if_false] at e <;> grind
  · intro o ho
    rcases hcases o _ ho with ⟨a, b, e⟩ | ⟨a, b⟩ | ⟨a, b⟩
    · exact (helse o a b).trans (hr.destroyed o e)
    · cases b
    · exact absurd b.symm hd
  · intro o ho
    rcases hcases o _ ho with ⟨a, b, e⟩ | ⟨a, b⟩ | ⟨a, b⟩
    · exact (helse o a b).trans (hr.moved o e)
    · subst a; exact hold
    · subst a; rw [h3 b.symm] at hnew ⊢; exact hnew
  · intro o t ho
    rcases hcases o _ ho with ⟨a, b, e⟩ | ⟨a, b⟩ | ⟨a, b⟩
    · obtain ⟨ob', k, k1, k2, k3, k4⟩ := hr.looks o t e
      refine ⟨ob', _, (helse o a b).trans k1, hkept t k k2, ?_, move_seen h1 k4⟩
      have : swapped birth w m.objs.length o = birth o := by simp [swapped, Nat.ne_of_lt a, b]
      rw [this]
      exact k3
    · cases b
    · subst a
      obtain ⟨k, k1, k2⟩ := h4 t b.symm
      refine ⟨ob, _, hnew, hkept t k k1, ?_, move_seen h1 k2⟩
      rw [hbn]
      exact h2

/-! ## Destruction -/

theorem freeStor_none {h : Heap} {a : Addr} (st : Stor) (ha : h a = none) : freeStor h st a = none := by
  cases st with
  | inside es => exact freeElems_none es ha
  | block b =>
    unfold freeStor
    cases hb : h b with
    | none => simp only [hb]; exact ha
    | some x =>
      cases x with
      | chars t => simp only [hb]; exact ha
      | elems es => simp only [hb, put, freeElems_none _ ha, ite_self]

theorem freeStor_other {h : Heap} {b : Nat} {st : Stor} (hs : StorOk h b st) {x : Addr} (hx : x.1 ≠ b) :
    freeStor h st x = h x := by
  obtain ⟨es, as, h1, h2, h3⟩ := hs
  cases st with
  | inside es' =>
    simp only [Stor.elems, Option.some.injEq] at h1
    subst h1
    exact freeElems_other h2 hx
  | block a =>
    have := h3 a rfl
    subst this
    simp only [Stor.elems] at h1
    split at h1
    · rename_i es' he
      simp only [Option.some.injEq] at h1
      subst h1
      simp only [freeStor, he]
      rw [put_other (by intro e; rw [e] at hx; exact hx rfl)]
      exact freeElems_other h2 hx
    · cases h1

theorem destroy_dead {m : Mem} (w : Nat) (ob : Obj) (p : Place) (hp : DeadP m p) :
    DeadP { objs := m.objs.set w none, heap := freeStor m.heap ob.storage } p := by
  cases p with
  | obj o =>
    have ho : o < m.objs.length := by
      rcases hp with hp | ⟨v, hp⟩ <;> exact (List.getElem?_eq_some_iff.1 hp).1
    simp only [DeadP] at hp ⊢
    rw [List.getElem?_set]
    split
    · rename_i e
      subst e
      rw [if_pos ho]
      exact .inl rfl
    · exact hp
  | block a =>
    obtain ⟨h2, h3⟩ := hp
    exact ⟨freeStor_none _ h2, by simpa using h3⟩

theorem destroy_seen {m : Mem} {s : SState} {birth : Nat → Nat} (hr : Refines m s birth) {w : Nat} {ob : Obj}
    (h1 : m.objs[w]? = some (some ob)) (h2 : StorOk m.heap (birth w) ob.storage) {k : Kept} {vs : List (SV × VV)}
    (hs : Seen m birth k vs) :
    Seen { objs := m.objs.set w none, heap := freeStor m.heap ob.storage } birth (k.destroyed w) vs := by
  have hw : w < m.objs.length := (List.getElem?_eq_some_iff.1 h1).1
  unfold Kept.destroyed
  split
  · rename_i hh
    obtain ⟨ob', es, e1, e2, e3, e4, e5, e6⟩ := hs.held w hh
    rw [h1] at e1
    cases e1
    refine ⟨hs.shape, by simp, fun _ ht => ?_⟩
    cases hos : ob.storage with
    | inside es' =>
      rw [hos] at e2 e4
      simp only [Stor.elems, Option.some.injEq] at e2
      subst e2
      refine e4.dead_freed e3 ht (.inl ?_) ?_ (h0 := m.heap) (fun a ha => ha)
      · simp [hw]
      · simpa using hr.lt w hw
    | block a =>
      rw [hos] at e2 e4
      have := e6 a hos
      subst this
      simp only [Stor.elems] at e2
      split at e2
      · rename_i es' he
        simp only [Option.some.injEq] at e2
        subst e2
        refine e4.dead_freed e3 ht ⟨?_, ?_⟩ ?_ (h0 := m.heap) (fun a ha => ?_)
        · simp [freeStor, he, put]
        · simpa using hr.lt w hw
        · simpa using hr.lt w hw
        · simp only [freeStor, he, put, ha, ite_self]
      · cases e2
  · rename_i hh
    refine ⟨hs.shape, ?_, fun a b => (hs.lost a b).mono (destroy_dead w ob)⟩
    intro w' hw'
    have hd := hs.held w' hw'
    have hlt := hd.lt
    have hne : w' ≠ w := by rintro rfl; exact hh hw'
    refine hd.frame ?_ rfl (fun j => ?_) k rfl rfl
    · simp only
      rw [List.getElem?_set, if_neg (Ne.symm hne)]
    · exact freeStor_other h2 fun e => hne (hr.inj _ _ hlt hw e)

theorem destroy_refines {m : Mem} {s : SState} {birth : Nat → Nat} (hr : Refines m s birth) {w : Nat} {c : Cell}
    (hc : s.cells[w]? = some c) (hd : c ≠ .destroyed) :
    ∃ m', m.destroy w = .ok m'
      ∧ Refines m' ⟨s.cells.set w .destroyed, s.kept.map (Kept.destroyed w)⟩ birth := by
  obtain ⟨ob, h1, h2, -, -⟩ := alive hr hc hd
  have hw : w < m.objs.length := (List.getElem?_eq_some_iff.1 h1).1
  refine ⟨_, by simp only [Mem.destroy, h1]; rfl, ?_⟩
  have hcases : ∀ (o : Nat) (x : Cell), (s.cells.set w .destroyed)[o]? = some x →
      (o ≠ w ∧ o < m.objs.length ∧ s.cells[o]? = some x) ∨ (o = w ∧ x = .destroyed) := by
    intro o x hx
    rw [List.getElem?_set] at hx
    split at hx
    · rename_i e
      have hl := hr.len
      rw [if_pos (by omega)] at hx
      injection hx with hx
      exact .inr ⟨e.symm, hx.symm⟩
    · rename_i e
      exact .inl ⟨Ne.symm e, by rw [hr.len]; exact (List.getElem?_eq_some_iff.1 hx).1, hx⟩
  have helse : ∀ o, o ≠ w → (m.objs.set w none)[o]? = m.objs[o]? := fun o hne => by
    rw [List.getElem?_set, if_neg (Ne.symm hne)]
  refine ⟨by simp [hr.len], by simpa using hr.lt, by simpa using hr.inj, ?_, ?_, ?_⟩
  · intro o ho
    rcases hcases o _ ho with ⟨a, _, b⟩ | ⟨a, b⟩
    · exact (helse o a).trans (hr.destroyed o b)
    · subst a; simp [hw]
  · intro o ho
    rcases hcases o _ ho with ⟨a, _, b⟩ | ⟨a, b⟩
    · exact (helse o a).trans (hr.moved o b)
    · cases b
  · intro o t ho
    rcases hcases o _ ho with ⟨a, lt, b⟩ | ⟨a, b⟩
    · obtain ⟨ob', k, k1, k2, k3, k4⟩ := hr.looks o t b
      refine ⟨ob', _, (helse o a).trans k1, by rw [List.getElem?_map, k2]; rfl, ?_, destroy_seen hr h1 h2 k4⟩
      exact k3.frame fun j => freeStor_other h2 fun e => a (hr.inj _ _ lt hw e)
    · cases b

/-! ## Runs -/

theorem step_refines (lib : Lib) {m : Mem} {s s' : SState} {birth : Nat → Nat} (hr : Refines m s birth) {op : Op}
    (hs : s.step lib op = some s') : ∃ m' birth', m.step lib op = .ok m' ∧ Refines m' s' birth' := by
  cases op with
  | construct spilled gs =>
    injection hs with hs
    subst hs
    exact ⟨_, _, rfl, construct_refines lib hr spilled gs⟩
  | copy w =>
    simp only [SState.step] at hs
    split at hs
    · cases hs
    · cases hs
    · rename_i c hd hc
      injection hs with hs
      subst hs
      obtain ⟨m', h1, h2⟩ := copy_refines lib hr hc (by rintro rfl; exact hd rfl)
      exact ⟨m', _, h1, h2⟩
  | move w =>
    simp only [SState.step] at hs
    split at hs
    · cases hs
    · cases hs
    · rename_i c hd hc
      injection hs with hs
      subst hs
      obtain ⟨m', h1, h2⟩ := move_refines hr hc (by rintro rfl; exact hd rfl)
      exact ⟨m', _, h1, h2⟩
  | destroy w =>
    simp only [SState.step] at hs
    split at hs
    · cases hs
    · cases hs
    · rename_i c hd hc
      injection hs with hs
      subst hs
      obtain ⟨m', h1, h2⟩ := destroy_refines hr hc (by rintro rfl; exact hd rfl)
      exact ⟨m', _, h1, h2⟩

theorem run_refines (lib : Lib) (ops : List Op) {m : Mem} {s s' : SState} {birth : Nat → Nat} (hr : Refines m s birth)
    (hs : s.run lib ops = some s') : ∃ m' birth', m.run lib ops = .ok m' ∧ Refines m' s' birth' := by
  induction ops generalizing m s birth with
  | nil => cases hs; exact ⟨m, birth, rfl, hr⟩
  | cons op ops ih =>
    simp only [SState.run] at hs
    cases h : s.step lib op with
    | none => rw [h] at hs; cases hs
    | some s1 =>
      rw [h] at hs
      obtain ⟨m1, b1, e1, e2⟩ := step_refines lib hr h
      obtain ⟨m', b', e3, e4⟩ := ih e2 hs
      exact ⟨m', b', by simp only [Mem.run, e1, e3], e4⟩

theorem init_refines : Refines Mem.init SState.init id :=
  ⟨rfl, by simp [Mem.init], by simp [Mem.init], by simp [SState.init], by simp [SState.init], by simp [SState.init]⟩

end Blackhole.Wrapper
