import Verif.RecordBuf.Spec

namespace Blackhole.RecordBuf

open Blackhole.Attr (Value View)
open Blackhole.Root (Rec)

/-- String object `s` holds text `t`. -/
def StrIs (heap : Nat → Option Block) (t : Str) : SObj → Prop
  | .short s => s = t
  | .long a n => heap a = some (.str t) ∧ n = t.length

/-- Container `v` holds the elements `es`. -/
def VecIs (heap : Nat → Option Block) (es : List (Str × Value)) : VObj → Prop
  | .inline es' => es' = es
  | .heap a => heap a = some (.vec es)

/-- Where the elements of the container of object `o` are. -/
def VObj.place (o : Nat) : VObj → Place
  | .inline _ => .inObj o
  | .heap a => .heap a

/-- Object `ob` at address `o` represents the record `r`, with views only into itself and its own blocks. -/
structure Reps (heap : Nat → Option Block) (o : Nat) (ob : Obj) (r : Rec) : Prop where
  message : StrIs heap r.message ob.message
  messageView : ob.messageView = viewOfStr o .message ob.message
  formatted : StrIs heap r.formatted ob.formatted
  formattedView : ob.formattedView = viewOfStr o .formatted ob.formatted
  vec : ∃ es, VecIs heap es ob.vec ∧ ob.attrView = viewOfElems (ob.vec.place o) 0 es ∧
    r.attributes = [es.map fun e => (e.1, View.ofValue e.2)]
  pack : ob.pack = [o]
  inner : ob.inner = some { message := (o, .message), formatted := (o, .formatted), severity := r.severity,
                            timestamp := r.timestamp, tid := r.tid, attributes := o }

structure Inv (m : Mem) : Prop where
  lt : ∀ o ob, m.objs o = some ob → ∀ a ∈ ob.owns, a < m.next
  nodup : ∀ o ob, m.objs o = some ob → ob.owns.Nodup
  disj : ∀ o o' ob ob', o ≠ o' → m.objs o = some ob → m.objs o' = some ob' → ∀ a ∈ ob.owns, a ∉ ob'.owns

/-- A cell of the specification and the memory agree about object `o`. -/
def Agree (m : Mem) (o : Nat) : Cell → Prop
  | .absent => m.objs o = none
  | .empty => ∃ ob, m.objs o = some ob
  | .holds r => ∃ ob, m.objs o = some ob ∧ Reps m.heap o ob r

structure Refines (m : Mem) (s : SState) : Prop where
  inv : Inv m
  foreign : m.foreign = s.foreign
  cells : ∀ o, Agree m o (s.cell o)

/-! ## Reading what is represented -/

theorem readSV_str {m : Mem} {o : Nat} {ob : Obj} {f : Fld} {t : Str} (ho : m.objs o = some ob)
    (h : StrIs m.heap t (ob.str f)) : m.readSV (viewOfStr o f (ob.str f)) = .ok t := by
  cases hs : ob.str f with
  | short s =>
    rw [hs] at h
    simp only [StrIs] at h
    subst h
    simp [viewOfStr, Mem.readSV, Mem.readLoc, ho, hs, bind, Except.bind]
  | long a n =>
    rw [hs] at h
    simp only [StrIs] at h
    obtain ⟨h1, rfl⟩ := h
    simp [viewOfStr, Mem.readSV, Mem.readLoc, h1, bind, Except.bind]

theorem readPlace_vec {m : Mem} {o : Nat} {ob : Obj} {es : List (Str × Value)} (ho : m.objs o = some ob)
    (h : VecIs m.heap es ob.vec) : m.readPlace (ob.vec.place o) = some es := by
  cases hv : ob.vec with
  | inline es' =>
    rw [hv] at h
    simp only [VObj.place, Mem.readPlace, ho, hv]
    exact congrArg _ h
  | heap a =>
    rw [hv] at h
    simp only [VObj.place, Mem.readPlace, show m.heap a = some (.vec es) from h]

theorem viewOfVec_eq {m : Mem} {o : Nat} {v : VObj} {es : List (Str × Value)} (h : VecIs m.heap es v) :
    m.viewOfVec o v = viewOfElems (v.place o) 0 es := by
  cases v with
  | inline es' => cases h; rfl
  | heap a => simp only [Mem.viewOfVec, show m.heap a = some (.vec es) from h, VObj.place]

theorem readList_elems {m : Mem} {a : Place} {es : List (Str × Value)} (h : m.readPlace a = some es) :
    ∀ (rest pre : List (Str × Value)), pre ++ rest = es →
      m.readList (viewOfElems a pre.length rest) = .ok (rest.map fun e => (e.1, View.ofValue e.2)) := by
  intro rest
  induction rest with
  | nil => intro pre _; rfl
  | cons e rest ih =>
    intro pre hp
    have hget : es[pre.length]? = some e := by subst hp; simp
    have hk : m.readSV (viewOfElem a pre.length e).1 = .ok e.1 := by
      simp [viewOfElem, Mem.readSV, Mem.readLoc, h, hget, bind, Except.bind]
    have hv : m.readVV (viewOfElem a pre.length e).2 = .ok (View.ofValue e.2) := by
      obtain ⟨k, v⟩ := e
      cases v <;>
        simp [viewOfElem, Mem.readVV, View.ofValue, Mem.readSV, Mem.readLoc, h, hget, bind, Except.bind]
    have hr := ih (pre ++ [e]) (by simpa using hp)
    simp only [List.length_append, List.length_singleton] at hr
    have hk' : (viewOfElem a pre.length e) =
      ((viewOfElem a pre.length e).1, (viewOfElem a pre.length e).2) := rfl
    rw [viewOfElems, hk', Mem.readList, hk, hv, hr]
    rfl

theorem intoView_of_reps {m : Mem} {o : Nat} {ob : Obj} {r : Rec} (ho : m.objs o = some ob)
    (h : Reps m.heap o ob r) : m.intoView o = .ok r := by
  obtain ⟨h1, h2, h3, h4, ⟨es, h6, h7, h8⟩, h9, h10⟩ := h
  have e1 : m.readSV ob.messageView = .ok r.message := by
    rw [h2]; exact readSV_str (f := .message) ho h1
  have e2 : m.readSV ob.formattedView = .ok r.formatted := by
    rw [h4]; exact readSV_str (f := .formatted) ho h3
  have e3 := readList_elems (readPlace_vec ho h6) es [] rfl
  simp only [List.length_nil] at e3
  rw [← h7] at e3
  simp only [Mem.intoView, ho, h10, Mem.readRef, Obj.view, e1, e2, h9, Mem.readPack, e3, bind, Except.bind]
  rw [← h8]

/-! ## Frame -/

theorem StrIs.frame {heap heap' : Nat → Option Block} {t : Str} {s : SObj} (h : StrIs heap t s)
    (hf : ∀ a ∈ s.owns, heap' a = heap a) : StrIs heap' t s := by
  cases s with
  | short _ => exact h
  | long a n => exact ⟨by rw [hf a (by simp [SObj.owns])]; exact h.1, h.2⟩

theorem VecIs.frame {heap heap' : Nat → Option Block} {es : List (Str × Value)} {v : VObj} (h : VecIs heap es v)
    (hf : ∀ a ∈ v.owns, heap' a = heap a) : VecIs heap' es v := by
  cases v with
  | inline _ => exact h
  | heap a => exact (hf a (by simp [VObj.owns])).trans h

theorem Reps.frame {heap heap' : Nat → Option Block} {o : Nat} {ob : Obj} {r : Rec}
    (h : Reps heap o ob r) (hf : ∀ a ∈ ob.owns, heap' a = heap a) : Reps heap' o ob r := by
  obtain ⟨h1, h2, h3, h4, ⟨es, h6, h7, h8⟩, h9, h10⟩ := h
  refine ⟨h1.frame fun a ha => hf a ?_, h2, h3.frame fun a ha => hf a ?_, h4,
    ⟨es, h6.frame fun a ha => hf a ?_, h7, h8⟩, h9, h10⟩ <;> simp [Obj.owns, ha]

theorem Agree.frame {m m' : Mem} {o : Nat} {c : Cell} (h : Agree m o c) (ho : m'.objs o = m.objs o)
    (hf : ∀ ob, m.objs o = some ob → ∀ a ∈ ob.owns, m'.heap a = m.heap a) : Agree m' o c := by
  cases c with
  | absent => simp only [Agree] at *; rw [ho]; exact h
  | empty => simp only [Agree] at *; rw [ho]; exact h
  | holds r =>
    simp only [Agree] at *
    obtain ⟨ob, h1, h2⟩ := h
    exact ⟨ob, by rw [ho]; exact h1, h2.frame (hf ob h1)⟩

theorem kept_eq (eval : Nat → Str) (v : View) : View.ofValue (Value.ofView eval v) = kept eval v := by
  cases v <;> rfl

/-! ## Construction -/

theorem newStr_spec (m : Mem) (s : Str) :
    (m.newStr s).2.objs = m.objs ∧ (m.newStr s).2.foreign = m.foreign ∧
    m.next ≤ (m.newStr s).2.next ∧
    (∀ a, a < m.next → (m.newStr s).2.heap a = m.heap a) ∧
    StrIs (m.newStr s).2.heap s (m.newStr s).1 ∧
    (∀ a ∈ (m.newStr s).1.owns, m.next ≤ a ∧ a < (m.newStr s).2.next) ∧
    (m.newStr s).1.owns.Nodup := by
  unfold Mem.newStr
  split
  · simp [StrIs, SObj.owns]
  · refine ⟨rfl, rfl, by simp, ?_, ?_, ?_, ?_⟩
    · intro a ha; simp [Mem.setHeap]; omega
    · simp [StrIs, Mem.setHeap]
    · simp [SObj.owns]
    · simp [SObj.owns]

theorem newVec_spec (m : Mem) (es : List (Str × Value)) :
    (m.newVec es).2.objs = m.objs ∧ (m.newVec es).2.foreign = m.foreign ∧
    m.next ≤ (m.newVec es).2.next ∧
    (∀ a, a < m.next → (m.newVec es).2.heap a = m.heap a) ∧
    VecIs (m.newVec es).2.heap es (m.newVec es).1 ∧
    (∀ a ∈ (m.newVec es).1.owns, m.next ≤ a ∧ a < (m.newVec es).2.next) ∧
    (m.newVec es).1.owns.Nodup := by
  unfold Mem.newVec
  split
  · simp [VecIs, VObj.owns]
  · refine ⟨rfl, rfl, by simp, ?_, ?_, ?_, ?_⟩
    · intro a ha; simp [Mem.setHeap]; omega
    · simp [VecIs, Mem.setHeap]
    · simp [VObj.owns]
    · simp [VObj.owns]

theorem construct_refines {m : Mem} {s : SState} (h : Refines m s) {o : Nat} (ho : s.cell o = .absent)
    (eval : Nat → Str) (r : Rec) : Refines (m.construct o eval r) (s.set o (.holds (owned eval r))) := by
  have hob : m.objs o = none := by have := h.cells o; rw [ho] at this; exact this
  have a1 := newStr_spec m r.message
  have a2 := newStr_spec (m.newStr r.message).2 r.formatted
  have a3 := newVec_spec ((m.newStr r.message).2.newStr r.formatted).2 (flatten eval r.attributes)
  revert a1 a2 a3
  unfold Mem.construct
  generalize m.newStr r.message = p1
  obtain ⟨msg, m1⟩ := p1
  dsimp only
  generalize m1.newStr r.formatted = p2
  obtain ⟨fmt, m2⟩ := p2
  dsimp only
  generalize m2.newVec (flatten eval r.attributes) = p3
  obtain ⟨vec, m3⟩ := p3
  dsimp only
  rintro ⟨b1, b2, b3, b4, b5, b6, b7⟩ ⟨c1, c2, c3, c4, c5, c6, c7⟩ ⟨d1, d2, d3, d4, d5, d6, d7⟩
  obtain ⟨⟨i1, i2, i3⟩, hf, hc⟩ := h
  have hobjs : m3.objs = m.objs := by rw [d1, c1, b1]
  -- blocks below the new ones are unchanged
  have hheap : ∀ a, a < m.next → m3.heap a = m.heap a := by
    intro a ha
    rw [d4 a (by omega), c4 a (by omega), b4 a ha]
  refine ⟨⟨?_, ?_, ?_⟩, ?_, ?_⟩
  · intro x ob hx a ha
    simp only [Mem.setObj] at hx ⊢
    split at hx
    · simp only [Option.some.injEq] at hx; subst hx
      simp only [Obj.owns, List.mem_append] at ha
      rcases ha with (ha | ha) | ha
      · have := b6 a ha; omega
      · have := c6 a ha; omega
      · have := d6 a ha; omega
    · rw [hobjs] at hx
      have := i1 x ob hx a ha; omega
  · intro x ob hx
    simp only [Mem.setObj] at hx
    split at hx
    · simp only [Option.some.injEq] at hx; subst hx
      simp only [Obj.owns]
      rw [List.nodup_append, List.nodup_append]
      refine ⟨⟨b7, c7, ?_⟩, d7, ?_⟩
      · intro a ha b hb e
        have := b6 a ha; have := c6 b hb; omega
      · intro a ha b hb e
        simp only [List.mem_append] at ha
        have := d6 b hb
        rcases ha with ha | ha
        · have := b6 a ha; omega
        · have := c6 a ha; omega
    · rw [hobjs] at hx; exact i2 x ob hx
  · intro x y obx oby hne hx hy a ha hay
    simp only [Mem.setObj, hobjs] at hx hy
    have fresh : ∀ z obz, m.objs z = some obz → a ∈ obz.owns → a < m.next := fun z obz hz haz => i1 z obz hz a haz
    have new : ∀ {ob : Obj}, ob.message = msg → ob.formatted = fmt → ob.vec = vec → a ∈ ob.owns →
        m.next ≤ a := by
      intro ob e1 e2 e3 hm
      simp only [Obj.owns, e1, e2, e3, List.mem_append] at hm
      rcases hm with (hm | hm) | hm
      · exact (b6 a hm).1
      · have := (c6 a hm).1; omega
      · have := (d6 a hm).1; omega
    split at hx <;> split at hy
    · omega
    · simp only [Option.some.injEq] at hx; subst hx
      have := fresh y oby hy hay
      have := new rfl rfl rfl ha
      omega
    · simp only [Option.some.injEq] at hy; subst hy
      have := fresh x obx hx ha
      have := new rfl rfl rfl hay
      omega
    · exact i3 x y obx oby hne hx hy a ha hay
  · simp only [Mem.setObj, SState.set, d2, c2, b2, hf]
  · intro x
    by_cases e : x = o
    · subst e
      simp only [SState.set, if_true, Agree, Mem.setObj]
      refine ⟨_, rfl, ?_⟩
      constructor
      · refine StrIs.frame b5 ?_
        intro a ha
        have := b6 a ha
        rw [d4 a (by omega), c4 a (by omega)]
      · rfl
      · refine StrIs.frame c5 ?_
        intro a ha
        have := c6 a ha
        rw [d4 a (by omega)]
      · rfl
      · refine ⟨flatten eval r.attributes, d5, viewOfVec_eq d5, ?_⟩
        simp [owned, flatten, kept_eq, Function.comp_def]
      · rfl
      · rfl
    · have hcx := hc x
      simp only [SState.set, e, if_false]
      refine hcx.frame ?_ ?_
      · simp only [Mem.setObj, e, if_false, hobjs]
      · intro ob hx a ha
        exact hheap a (i1 x ob hx a ha)

/-! ## Moves and destruction -/

theorem freeStr_heap (m : Mem) (s : SObj) (a : Nat) :
    (m.freeStr s).heap a = if a ∈ s.owns then none else m.heap a := by
  cases s <;> simp [Mem.freeStr, SObj.owns, Mem.setHeap]

theorem freeVec_heap (m : Mem) (v : VObj) (a : Nat) :
    (m.freeVec v).heap a = if a ∈ v.owns then none else m.heap a := by
  cases v <;> simp [Mem.freeVec, VObj.owns, Mem.setHeap]

@[simp] theorem freeStr_objs (m : Mem) (s : SObj) : (m.freeStr s).objs = m.objs := by cases s <;> rfl
@[simp] theorem freeStr_next (m : Mem) (s : SObj) : (m.freeStr s).next = m.next := by cases s <;> rfl
@[simp] theorem freeStr_foreign (m : Mem) (s : SObj) : (m.freeStr s).foreign = m.foreign := by cases s <;> rfl
@[simp] theorem freeVec_objs (m : Mem) (s : VObj) : (m.freeVec s).objs = m.objs := by cases s <;> rfl
@[simp] theorem freeVec_next (m : Mem) (s : VObj) : (m.freeVec s).next = m.next := by cases s <;> rfl
@[simp] theorem freeVec_foreign (m : Mem) (s : VObj) : (m.freeVec s).foreign = m.foreign := by
  cases s <;> rfl

theorem free_heap (m : Mem) (ob : Obj) (a : Nat) :
    (((m.freeStr ob.message).freeStr ob.formatted).freeVec ob.vec).heap a =
      if a ∈ ob.owns then none else m.heap a := by
  rw [freeVec_heap, freeStr_heap, freeStr_heap]
  simp only [Obj.owns, List.mem_append]
  by_cases h1 : a ∈ ob.message.owns <;> by_cases h2 : a ∈ ob.formatted.owns <;>
    by_cases h3 : a ∈ ob.vec.owns <;> simp [h1, h2, h3]

/-- What one of the three assignments does to blocks: `dst` and `src` are those owned before, `dst'` and `src'` those owned
after. -/
structure Assigned (m m' : Mem) (dst src dst' src' : List Nat) : Prop where
  objs : m'.objs = m.objs
  next : m'.next = m.next
  foreign : m'.foreign = m.foreign
  count : ∀ a, dst'.count a + src'.count a ≤ dst.count a + src.count a
  frame : ∀ a, a ∉ dst → m'.heap a = m.heap a
  live : ∀ a ∈ dst, a ∉ src → ((m'.heap a).isSome ↔ a ∈ dst' ∨ a ∈ src')
  taken : ∀ a ∈ src, a ∈ dst'

theorem assignStr_assigned (m : Mem) (dst src : SObj) :
    Assigned m (m.assignStr dst src).2.2 dst.owns src.owns (m.assignStr dst src).1.owns (m.assignStr dst src).2.1.owns := by
  cases src with
  | short s =>
    cases dst with
    | short t => constructor <;> simp [Mem.assignStr, SObj.owns]
    | long a n =>
      simp only [Mem.assignStr]
      split <;> constructor <;> simp [SObj.owns, Mem.setHeap] <;> intros <;> simp_all
  | long b k =>
    cases dst with
    | short t => constructor <;> simp [Mem.assignStr, SObj.owns]
    | long a n =>
      simp only [Mem.assignStr]
      split <;> constructor <;> simp [SObj.owns, Mem.setHeap, Nat.add_comm] <;> intros <;> simp_all

theorem assignStr_is (m : Mem) (dst src : SObj) (t : Str) (h : StrIs m.heap t src) (hd : ∀ a ∈ dst.owns, a ∉ src.owns) :
    StrIs (m.assignStr dst src).2.2.heap t (m.assignStr dst src).1 := by
  cases src with
  | short s =>
    cases h
    cases dst with
    | short _ => simp [Mem.assignStr, StrIs]
    | long a n =>
      simp only [Mem.assignStr]
      split <;> simp [StrIs, Mem.setHeap]
  | long b k =>
    cases dst with
    | short _ => exact h
    | long a n =>
      have hab : b ≠ a := by
        intro e
        exact hd a (by simp [SObj.owns]) (by simp [SObj.owns, e])
      simp only [Mem.assignStr]
      split <;> simpa [StrIs, Mem.setHeap, hab] using h

theorem assignVec_assigned (m : Mem) (dst src : VObj) :
    Assigned m (m.assignVec dst src).2.2 dst.owns src.owns (m.assignVec dst src).1.owns (m.assignVec dst src).2.1.owns := by
  cases src with
  | inline s =>
    cases dst with
    | inline t => constructor <;> simp [Mem.assignVec, VObj.owns]
    | heap a =>
      simp only [Mem.assignVec]
      split <;> constructor <;> simp [VObj.owns, Mem.setHeap] <;> intros <;> simp_all
  | heap b =>
    cases dst with
    | inline t => constructor <;> simp [Mem.assignVec, VObj.owns]
    | heap a =>
      constructor <;> simp [Mem.assignVec, VObj.owns, Mem.setHeap] <;> intros <;> simp_all

theorem assignVec_is (m : Mem) (dst src : VObj) (es : List (Str × Value)) (h : VecIs m.heap es src)
    (hd : ∀ a ∈ dst.owns, a ∉ src.owns) : VecIs (m.assignVec dst src).2.2.heap es (m.assignVec dst src).1 := by
  cases src with
  | inline s =>
    cases h
    cases dst with
    | inline _ => simp [Mem.assignVec, VecIs]
    | heap a =>
      simp only [Mem.assignVec]
      split <;> simp [VecIs, Mem.setHeap]
  | heap b =>
    cases dst with
    | inline _ => exact h
    | heap a =>
      have hab : b ≠ a := by
        intro e
        exact hd a (by simp [VObj.owns]) (by simp [VObj.owns, e])
      simpa [VecIs, Mem.assignVec, Mem.setHeap, hab] using h

/-- Object `d` gets new members `on` and object `src` keeps `oe`; the blocks of both are taken from those they had. -/
theorem transfer_refines {m : Mem} {s : SState} (h : Refines m s) {d src : Nat} {osrc on oe : Obj} {r : Rec}
    (m₁ : Mem) (hne : d ≠ src) (hsrc : m.objs src = some osrc)
    (ho : m₁.objs = m.objs) (hn : m₁.next = m.next) (hf : m₁.foreign = m.foreign)
    (hh : ∀ a, a ∉ osrc.owns → (∀ od, m.objs d = some od → a ∉ od.owns) → m₁.heap a = m.heap a)
    (hsub : ∀ a ∈ on.owns ++ oe.owns, a ∈ osrc.owns ∨ ∃ od, m.objs d = some od ∧ a ∈ od.owns)
    (hnd : (on.owns ++ oe.owns).Nodup) (hr : Reps m₁.heap d on r) :
    Refines ((m₁.setObj src (some oe)).setObj d (some on)) ((s.set src .empty).set d (.holds r)) := by
  obtain ⟨⟨i1, i2, i3⟩, hfor, hc⟩ := h
  have hobjs : ∀ x, ((m₁.setObj src (some oe)).setObj d (some on)).objs x =
      if x = d then some on else if x = src then some oe else m.objs x := by
    intro x
    rw [← ho]
    rfl
  rw [List.nodup_append] at hnd
  -- a block of the two is not a block of anybody else
  have hout : ∀ x ob, x ≠ d → x ≠ src → m.objs x = some ob → ∀ a ∈ on.owns ++ oe.owns, a ∉ ob.owns := by
    intro x ob hxd hxs hx a ha hax
    rcases hsub a ha with ha | ⟨od, hd, ha⟩
    · exact i3 x src ob osrc hxs hx hsrc a hax ha
    · exact i3 x d ob od hxd hx hd a hax ha
  refine ⟨⟨?_, ?_, ?_⟩, ?_, ?_⟩
  · intro x ob hx a ha
    rw [hobjs] at hx
    show a < m₁.next
    rw [hn]
    have two : ∀ a ∈ on.owns ++ oe.owns, a < m.next := by
      intro a ha
      rcases hsub a ha with ha | ⟨od, hd, ha⟩
      · exact i1 src osrc hsrc a ha
      · exact i1 d od hd a ha
    split at hx
    · cases hx; exact two a (List.mem_append_left _ ha)
    · split at hx
      · cases hx; exact two a (List.mem_append_right _ ha)
      · exact i1 x ob hx a ha
  · intro x ob hx
    rw [hobjs] at hx
    split at hx
    · cases hx; exact hnd.1
    · split at hx
      · cases hx; exact hnd.2.1
      · exact i2 x ob hx
  · intro x y obx oby hxy hx hy a ha hay
    rw [hobjs] at hx hy
    split at hx
    · cases hx
      split at hy
      · omega
      · rename_i hyd
        split at hy
        · cases hy; exact hnd.2.2 a ha a hay rfl
        · rename_i hys
          exact hout y oby hyd hys hy a (List.mem_append_left _ ha) hay
    · rename_i hxd
      split at hx
      · cases hx
        split at hy
        · cases hy; exact hnd.2.2 a hay a ha rfl
        · rename_i hyd
          split at hy
          · omega
          · rename_i hys
            exact hout y oby hyd hys hy a (List.mem_append_right _ ha) hay
      · rename_i hxs
        split at hy
        · cases hy; exact hout x obx hxd hxs hx a (List.mem_append_left _ hay) ha
        · split at hy
          · cases hy; exact hout x obx hxd hxs hx a (List.mem_append_right _ hay) ha
          · exact i3 x y obx oby hxy hx hy a ha hay
  · simp [Mem.setObj, SState.set, hf, hfor]
  · intro x
    by_cases e1 : x = d
    · subst e1
      simp only [SState.set, if_true, Agree]
      exact ⟨on, by rw [hobjs, if_pos rfl], hr⟩
    · by_cases e2 : x = src
      · subst e2
        simp only [SState.set, e1, if_false, if_true, Agree]
        exact ⟨oe, by rw [hobjs, if_neg e1, if_pos rfl]⟩
      · simp only [SState.set, e1, e2, if_false]
        refine (hc x).frame (by rw [hobjs, if_neg e1, if_neg e2]) ?_
        intro ob hx a ha
        exact hh a (i3 x src ob osrc e2 hx hsrc a ha) fun od hd hda => i3 x d ob od e1 hx hd a ha hda

/-- The blocks of the source and the destination of a move assignment, which are all different, and what the three
assignments do to them. -/
theorem assign_all {m : Mem} (hi : Inv m) {d src : Nat} {od os : Obj} (hne : d ≠ src) (hd : m.objs d = some od)
    (hs : m.objs src = some os) :
    ∃ message message' m1 formatted formatted' m2 vec vec' m3,
      m.assignStr od.message os.message = (message, message', m1)
      ∧ m1.assignStr od.formatted os.formatted = (formatted, formatted', m2)
      ∧ m2.assignVec od.vec os.vec = (vec, vec', m3)
      ∧ Assigned m m3 od.owns os.owns (message.owns ++ formatted.owns ++ vec.owns)
          (message'.owns ++ formatted'.owns ++ vec'.owns)
      ∧ (∀ a ∈ od.owns, a ∉ os.owns)
      ∧ (∀ t, StrIs m.heap t os.message → StrIs m3.heap t message)
      ∧ (∀ t, StrIs m.heap t os.formatted → StrIs m3.heap t formatted)
      ∧ (∀ es, VecIs m.heap es os.vec → VecIs m3.heap es vec) := by
  have hdis := hi.disj d src od os hne hd hs
  have n1 := List.nodup_iff_count.1 (hi.nodup d od hd)
  have n2 := List.nodup_iff_count.1 (hi.nodup src os hs)
  -- together every block is counted once
  have n3 : ∀ a, od.message.owns.count a + od.formatted.owns.count a + od.vec.owns.count a
      + (os.message.owns.count a + os.formatted.owns.count a + os.vec.owns.count a) ≤ 1 := by
    intro a
    have h1 := n1 a
    have h2 := n2 a
    simp only [Obj.owns, List.count_append] at h1 h2
    by_cases ha : a ∈ od.owns
    · have h3 := List.count_eq_zero.2 (hdis a ha)
      simp only [Obj.owns, List.count_append] at h3
      omega
    · have h3 := List.count_eq_zero.2 ha
      simp only [Obj.owns, List.count_append] at h3
      omega
  have a1 := assignStr_assigned m od.message os.message
  have c1 := assignStr_is m od.message os.message
  have a2 := assignStr_assigned (m.assignStr od.message os.message).2.2 od.formatted os.formatted
  have c2 := assignStr_is (m.assignStr od.message os.message).2.2 od.formatted os.formatted
  have a3 := assignVec_assigned ((m.assignStr od.message os.message).2.2.assignStr od.formatted os.formatted).2.2 od.vec os.vec
  have c3 := assignVec_is ((m.assignStr od.message os.message).2.2.assignStr od.formatted os.formatted).2.2 od.vec os.vec
  revert a1 c1 a2 c2 a3 c3
  generalize h1 : m.assignStr od.message os.message = p1
  obtain ⟨message, message', m1⟩ := p1
  dsimp only
  generalize h2 : m1.assignStr od.formatted os.formatted = p2
  obtain ⟨formatted, formatted', m2⟩ := p2
  dsimp only
  generalize h3 : m2.assignVec od.vec os.vec = p3
  obtain ⟨vec, vec', m3⟩ := p3
  dsimp only
  intro a1 c1 a2 c2 a3 c3
  have hc : ∀ a, message.owns.count a + message'.owns.count a ≤ od.message.owns.count a + os.message.owns.count a := a1.count
  have hc2 := a2.count
  have hc3 := a3.count
  -- membership as counting
  have pos : ∀ (l : List Nat) a, a ∈ l ↔ 0 < l.count a := fun l a => List.count_pos_iff.symm
  have apart : ∀ {l l' : List Nat}, (∀ a, l.count a + l'.count a ≤ 1) → ∀ a ∈ l, a ∉ l' := by
    intro l l' h a ha ha'
    rw [pos] at ha ha'
    have := h a
    omega
  refine ⟨message, message', m1, formatted, formatted', m2, vec, vec', m3, rfl, h2, h3, ⟨?_, ?_, ?_, ?_, ?_, ?_, ?_⟩, hdis,
    ?_, ?_, ?_⟩
  · rw [a3.objs, a2.objs, a1.objs]
  · rw [a3.next, a2.next, a1.next]
  · rw [a3.foreign, a2.foreign, a1.foreign]
  · intro a
    have := hc a
    have := hc2 a
    have := hc3 a
    simp only [Obj.owns, List.count_append]
    omega
  · intro a ha
    simp only [Obj.owns, List.mem_append, not_or] at ha
    rw [a3.frame a ha.2, a2.frame a ha.1.2, a1.frame a ha.1.1]
  · intro a ha _
    have q1 := hc a
    have q2 := hc2 a
    have q3 := hc3 a
    have q := n3 a
    simp only [Obj.owns, List.mem_append] at ha ⊢
    rcases ha with (ha | ha) | ha
    · have ha' := ha
      rw [pos] at ha'
      rw [a3.frame a (by rw [pos]; omega), a2.frame a (by rw [pos]; omega), a1.live a ha (by rw [pos]; omega)]
      have z2 : a ∉ formatted.owns ∧ a ∉ formatted'.owns ∧ a ∉ vec.owns ∧ a ∉ vec'.owns := by
        simp only [pos]; omega
      simp [z2.1, z2.2.1, z2.2.2.1, z2.2.2.2]
    · have ha' := ha
      rw [pos] at ha'
      rw [a3.frame a (by rw [pos]; omega), a2.live a ha (by rw [pos]; omega)]
      have z2 : a ∉ message.owns ∧ a ∉ message'.owns ∧ a ∉ vec.owns ∧ a ∉ vec'.owns := by
        simp only [pos]; omega
      simp [z2.1, z2.2.1, z2.2.2.1, z2.2.2.2]
    · have ha' := ha
      rw [pos] at ha'
      rw [a3.live a ha (by rw [pos]; omega)]
      have z2 : a ∉ message.owns ∧ a ∉ message'.owns ∧ a ∉ formatted.owns ∧ a ∉ formatted'.owns := by
        simp only [pos]; omega
      simp [z2.1, z2.2.1, z2.2.2.1, z2.2.2.2]
  · intro a ha
    simp only [Obj.owns, List.mem_append] at ha ⊢
    rcases ha with (ha | ha) | ha
    · exact .inl (.inl (a1.taken a ha))
    · exact .inl (.inr (a2.taken a ha))
    · exact .inr (a3.taken a ha)
  · intro t ht
    have h1 := c1 t ht (apart fun a => by have := n3 a; omega)
    refine h1.frame fun a ha => ?_
    have q1 := hc a
    have q := n3 a
    rw [pos] at ha
    rw [a3.frame a (by rw [pos]; omega), a2.frame a (by rw [pos]; omega)]
  · intro t ht
    have h1 := c2 t (ht.frame fun a ha => a1.frame a (by have q := n3 a; rw [pos] at ha ⊢; omega))
      (apart fun a => by have := n3 a; omega)
    refine h1.frame fun a ha => ?_
    have q1 := hc2 a
    have q := n3 a
    rw [pos] at ha
    rw [a3.frame a (by rw [pos]; omega)]
  · intro es hes
    exact c3 es (hes.frame fun a ha => by
      have q := n3 a
      rw [pos] at ha
      rw [a2.frame a (by rw [pos]; omega), a1.frame a (by rw [pos]; omega)]) (apart fun a => by have := n3 a; omega)

theorem settled_reps {m m' : Mem} {src d : Nat} {os : Obj} {inner : Inner} {r : Rec} {message formatted : SObj} {vec : VObj}
    (h : Reps m.heap src os r) (hi : os.inner = some inner)
    (h1 : ∀ t, StrIs m.heap t os.message → StrIs m'.heap t message)
    (h2 : ∀ t, StrIs m.heap t os.formatted → StrIs m'.heap t formatted)
    (h3 : ∀ es, VecIs m.heap es os.vec → VecIs m'.heap es vec) :
    Reps m'.heap d (m'.settled d message formatted vec inner) r := by
  obtain ⟨g1, g2, g3, g4, ⟨es, g6, g7, g8⟩, g9, g10⟩ := h
  rw [g10] at hi
  cases hi
  exact ⟨h1 _ g1, rfl, h2 _ g3, rfl, ⟨es, h3 _ g6, viewOfVec_eq (h3 _ g6), g8⟩, rfl, rfl⟩

theorem SObj.moved_owns (s : SObj) : s.moved.1 = s ∧ s.moved.2.owns = [] := by cases s <;> exact ⟨rfl, rfl⟩

theorem VObj.moved_owns (v : VObj) : v.moved.1 = v ∧ v.moved.2.owns = [] := by cases v <;> exact ⟨rfl, rfl⟩

theorem step_refines {m : Mem} {s s' : SState} (h : Refines m s) {op : Op} (hs : s.step op = some s') :
    ∃ m', m.step op = .ok m' ∧ Refines m' s' := by
  cases op with
  | capture o eval r =>
    simp only [SState.step] at hs
    split at hs
    · rename_i c ho hc
      simp only [Option.some.injEq] at hs; subst hs
      have hob : m.objs o = none := by have := h.cells o; rw [ho] at this; exact this
      exact ⟨_, by simp only [Mem.step, hob, h.foreign, hc], construct_refines h ho eval c⟩
    · simp at hs
  | recapture o src eval =>
    simp only [SState.step] at hs
    split at hs
    · rename_i r ho hc
      simp only [Option.some.injEq] at hs; subst hs
      have hob : m.objs o = none := by have := h.cells o; rw [ho] at this; exact this
      have hsrc := h.cells src
      rw [hc] at hsrc
      obtain ⟨ob, h1, h2⟩ := hsrc
      exact ⟨_, by simp only [Mem.step, hob, intoView_of_reps h1 h2, bind, Except.bind],
        construct_refines h ho eval r⟩
    · simp at hs
  | default o =>
    simp only [SState.step] at hs
    split at hs
    · rename_i ho
      simp only [Option.some.injEq] at hs; subst hs
      have hob : m.objs o = none := by have := h.cells o; rw [ho] at this; exact this
      refine ⟨_, by simp only [Mem.step, hob]; rfl, ?_⟩
      obtain ⟨⟨i1, i2, i3⟩, hf, hc⟩ := h
      refine ⟨⟨?_, ?_, ?_⟩, ?_, ?_⟩
      · intro x ob hx a ha
        simp only [Mem.constructDefault, Mem.setObj] at hx ⊢
        split at hx
        · simp only [Option.some.injEq] at hx; subst hx; simp [Obj.owns, SObj.owns, VObj.owns] at ha
        · exact i1 x ob hx a ha
      · intro x ob hx
        simp only [Mem.constructDefault, Mem.setObj] at hx
        split at hx
        · simp only [Option.some.injEq] at hx; subst hx; simp [Obj.owns, SObj.owns, VObj.owns]
        · exact i2 x ob hx
      · intro x y obx oby hne hx hy a ha hay
        simp only [Mem.constructDefault, Mem.setObj] at hx hy
        split at hx
        · simp only [Option.some.injEq] at hx; subst hx; simp [Obj.owns, SObj.owns, VObj.owns] at ha
        · split at hy
          · simp only [Option.some.injEq] at hy; subst hy; simp [Obj.owns, SObj.owns, VObj.owns] at hay
          · exact i3 x y obx oby hne hx hy a ha hay
      · exact hf
      · intro x
        by_cases e : x = o
        · subst e
          simp only [SState.set, if_true, Agree, Mem.constructDefault, Mem.setObj]
          exact ⟨_, rfl⟩
        · simp only [SState.set, e, if_false]
          refine (hc x).frame ?_ (fun _ _ _ _ => rfl)
          simp only [Mem.constructDefault, Mem.setObj, e, if_false]
    · simp at hs
  | moveConstruct d src =>
    simp only [SState.step] at hs
    split at hs
    · rename_i r hd hc
      simp only [Option.some.injEq] at hs; subst hs
      have hod : m.objs d = none := by have := h.cells d; rw [hd] at this; exact this
      have hsrc := h.cells src
      rw [hc] at hsrc
      obtain ⟨ob, h1, h2⟩ := hsrc
      have hne : d ≠ src := by intro e; subst e; rw [hd] at hc; simp at hc
      refine ⟨_, by simp only [Mem.step, Mem.moveConstruct, hod, h1, h2.pack, h2.inner]; rfl, ?_⟩
      have k1 := ob.message.moved_owns
      have k2 := ob.formatted.moved_owns
      have k3 := ob.vec.moved_owns
      rw [k1.1, k2.1, k3.1]
      refine transfer_refines h m hne h1 rfl rfl rfl (fun _ _ _ => rfl) ?_ ?_
        (settled_reps h2 h2.inner (fun _ h => h) (fun _ h => h) (fun _ h => h))
      · intro a ha
        simp only [Obj.owns, Mem.settled, k1.2, k2.2, k3.2, List.append_nil] at ha ⊢
        exact .inl ha
      · simp only [Obj.owns, Mem.settled, k1.2, k2.2, k3.2, List.append_nil]
        exact h.inv.nodup src ob h1
    · simp at hs
  | moveAssign d src =>
    simp only [SState.step] at hs
    split at hs
    · simp at hs
    · simp at hs
    · rename_i hd hs'
      have hod : ∃ od, m.objs d = some od := by
        have := h.cells d
        cases hcd : s.cell d with
        | absent => exact absurd hcd hd
        | empty => rw [hcd] at this; exact this
        | holds r => rw [hcd] at this; obtain ⟨ob, h1, -⟩ := this; exact ⟨ob, h1⟩
      obtain ⟨od, hod⟩ := hod
      have hos : ∃ os, m.objs src = some os := by
        have := h.cells src
        cases hcd : s.cell src with
        | absent => exact absurd hcd hs'
        | empty => rw [hcd] at this; exact this
        | holds r => rw [hcd] at this; obtain ⟨ob, h1, -⟩ := this; exact ⟨ob, h1⟩
      obtain ⟨os, hos⟩ := hos
      split at hs
      · rename_i e
        simp only [Option.some.injEq] at hs; subst hs
        exact ⟨m, by simp only [Mem.step, Mem.moveAssign, hos, e, if_true], h⟩
      · rename_i hne
        split at hs
        · rename_i r hc
          simp only [Option.some.injEq] at hs; subst hs
          have hsrc := h.cells src
          rw [hc] at hsrc
          obtain ⟨ob, h1, h2⟩ := hsrc
          rw [h1] at hos
          simp only [Option.some.injEq] at hos; subst hos
          obtain ⟨message, message', m1, formatted, formatted', m2, vec, vec', m3, e1, e2, e3, k, hdis, k1, k2, k3⟩ :=
            assign_all h.inv hne hod h1
          refine ⟨_, by
            simp only [Mem.step, Mem.moveAssign, hod, h1, hne, if_false, h2.pack, h2.inner, e1, e2, e3]; rfl, ?_⟩
          refine transfer_refines h m3 hne h1 k.objs k.next k.foreign (fun a _ ha => k.frame a (ha od hod)) ?_ ?_
            (settled_reps h2 h2.inner k1 k2 k3)
          · intro a ha
            have hc := k.count a
            rw [List.mem_append] at ha
            simp only [Obj.owns, Mem.settled] at ha
            have : 0 < od.owns.count a + ob.owns.count a := by
              rcases ha with ha | ha <;> (rw [← List.count_pos_iff] at ha; omega)
            by_cases hz : 0 < ob.owns.count a
            · exact .inl (List.count_pos_iff.1 hz)
            · exact .inr ⟨od, hod, List.count_pos_iff.1 (by omega)⟩
          · rw [List.nodup_iff_count]
            intro a
            have hc := k.count a
            have n1 := List.nodup_iff_count.1 (h.inv.nodup d od hod) a
            have n2 := List.nodup_iff_count.1 (h.inv.nodup src ob h1) a
            have n3 : od.owns.count a = 0 ∨ ob.owns.count a = 0 := by
              by_cases ha : a ∈ od.owns
              · exact .inr (List.count_eq_zero.2 (hdis a ha))
              · exact .inl (List.count_eq_zero.2 ha)
            rw [List.count_append]
            simp only [Obj.owns, Mem.settled] at hc n1 n2 n3 ⊢
            omega
        · simp at hs
  | destroy o =>
    simp only [SState.step] at hs
    split at hs
    · simp at hs
    · rename_i hd
      simp only [Option.some.injEq] at hs; subst hs
      have hod : ∃ od, m.objs o = some od := by
        have := h.cells o
        cases hcd : s.cell o with
        | absent => exact absurd hcd hd
        | empty => rw [hcd] at this; exact this
        | holds r => rw [hcd] at this; obtain ⟨ob, h1, -⟩ := this; exact ⟨ob, h1⟩
      obtain ⟨od, hod⟩ := hod
      refine ⟨_, by simp only [Mem.step, Mem.destroy, hod]; rfl, ?_⟩
      obtain ⟨⟨i1, i2, i3⟩, hf, hc⟩ := h
      refine ⟨⟨?_, ?_, ?_⟩, ?_, ?_⟩
      · intro x ob hx a ha
        simp only [Mem.setObj, freeVec_objs, freeStr_objs, freeVec_next, freeStr_next] at hx ⊢
        split at hx
        · simp at hx
        · exact i1 x ob hx a ha
      · intro x ob hx
        simp only [Mem.setObj, freeVec_objs, freeStr_objs] at hx
        split at hx
        · simp at hx
        · exact i2 x ob hx
      · intro x y obx oby hne hx hy a ha hay
        simp only [Mem.setObj, freeVec_objs, freeStr_objs] at hx hy
        split at hx
        · simp at hx
        · split at hy
          · simp at hy
          · exact i3 x y obx oby hne hx hy a ha hay
      · simp [Mem.setObj, SState.set, hf]
      · intro x
        by_cases e : x = o
        · subst e; simp [SState.set, Agree, Mem.setObj]
        · simp only [SState.set, e, if_false]
          refine (hc x).frame ?_ ?_
          · simp only [Mem.setObj, e, if_false, freeVec_objs, freeStr_objs]
          · intro ob hx a ha
            simp only [Mem.setObj]
            rw [free_heap, if_neg (i3 x o ob od e hx hod a ha)]
  | foreign a x =>
    simp only [SState.step, Option.some.injEq] at hs
    subst hs
    refine ⟨_, rfl, ?_⟩
    obtain ⟨⟨i1, i2, i3⟩, hf, hc⟩ := h
    exact ⟨⟨i1, i2, i3⟩, by simp [hf], fun o => (hc o).frame rfl (fun _ _ _ _ => rfl)⟩

theorem init_refines (lib : Lib) : Refines (Mem.init lib) SState.init := by
  refine ⟨⟨?_, ?_, ?_⟩, rfl, fun _ => rfl⟩ <;> simp [Mem.init]

theorem run_refines {m : Mem} {s s' : SState} (ops : List Op) (h : Refines m s) (hs : s.run ops = some s') :
    ∃ m', m.run ops = .ok m' ∧ Refines m' s' := by
  induction ops generalizing m s with
  | nil => simp [SState.run] at hs; subst hs; exact ⟨m, rfl, h⟩
  | cons op ops ih =>
    simp only [SState.run, Option.bind_eq_some_iff] at hs
    obtain ⟨s1, h1, h2⟩ := hs
    obtain ⟨m1, e1, r1⟩ := step_refines h h1
    obtain ⟨m2, e2, r2⟩ := ih r1 h2
    exact ⟨m2, by simp [Mem.run, e1, e2, bind, Except.bind], r2⟩

end Blackhole.RecordBuf
