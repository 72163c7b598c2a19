import Verif.RecordBuf.Blocks

/-!
# Property C08: captured records

`SState` (Spec.lean) says what each buffer holds as a plain value. The theorems say that memory agrees with it
after every history of captures, moves, destructions and changes of foreign storage.
-/

namespace Blackhole.RecordBuf

open Blackhole.Attr (Value View)
open Blackhole.Root (Rec)

/-- **C08.** Every history that the value semantics allows runs without undefined behaviour, and every buffer that
should hold record `r` really shows `r`: message, text, severity, timestamp, thread and attributes in order, lazy
attributes as the text they produced at capture. Foreign storage may be changed or freed at any point. -/
theorem C08_owned_copy (lib : Lib) (ops : List Op) (s : SState) (h : SState.init.run ops = some s) :
    ∃ m, (Mem.init lib).run ops = .ok m ∧ ∀ o r, s.cell o = .holds r → m.intoView o = .ok r := by
  obtain ⟨m, h1, h2⟩ := run_refines ops (init_refines lib) h
  refine ⟨m, h1, fun o r ho => ?_⟩
  have := h2.cells o
  rw [ho] at this
  obtain ⟨ob, a, b⟩ := this
  exact intoView_of_reps a b

/-- A location inside object `o` or inside a heap block that the object owns. -/
def Inside (o : Nat) (ob : Obj) : Loc → Prop
  | .inObj o' _ => o' = o
  | .heap a => ob.message = .long a ob.messageView.len ∨ ob.formatted = .long a ob.formattedView.len
  | .key (.inObj o') _ => o' = o
  | .key (.heap a) _ => ob.vec = .heap a
  | .val (.inObj o') _ => o' = o
  | .val (.heap a) _ => ob.vec = .heap a

theorem elems_inside (o : Nat) (ob : Obj) :
    ∀ (es : List (Str × Value)) (i : Nat), ∀ kv ∈ viewOfElems (ob.vec.place o) i es,
      Inside o ob kv.1.loc ∧ ∀ v, kv.2 = .string v → Inside o ob v.loc := by
  intro es
  induction es with
  | nil => intro i kv hkv; simp [viewOfElems] at hkv
  | cons e es ih =>
    intro i kv hkv
    simp only [viewOfElems, List.mem_cons] at hkv
    rcases hkv with hkv | hkv
    · subst hkv
      obtain ⟨k, v⟩ := e
      have hp : ∀ i, Inside o ob (.key (ob.vec.place o) i) ∧ Inside o ob (.val (ob.vec.place o) i) := by
        intro i
        cases hv : ob.vec <;> simp [VObj.place, Inside, hv]
      refine ⟨(hp i).1, ?_⟩
      intro w hw
      cases v <;> simp [viewOfElem] at hw
      subst hw
      exact (hp i).2
    · exact ih (i + 1) kv hkv

/-- **C08, no view outside the buffer.** In a buffer that holds a record, every view (message, text, each key and
each string value) and every reference points into the buffer itself or a block it owns. -/
theorem C08_views_stay_inside (lib : Lib) (ops : List Op) (s : SState) (h : SState.init.run ops = some s) (o : Nat) (r : Rec)
    (ho : s.cell o = .holds r) :
    ∃ m ob inner, (Mem.init lib).run ops = .ok m ∧ m.objs o = some ob ∧ ob.inner = some inner ∧
      inner.message = (o, .message) ∧ inner.formatted = (o, .formatted) ∧ inner.attributes = o ∧
      ob.pack = [o] ∧ Inside o ob ob.messageView.loc ∧ Inside o ob ob.formattedView.loc ∧
      ∀ kv ∈ ob.attrView, Inside o ob kv.1.loc ∧ ∀ v, kv.2 = .string v → Inside o ob v.loc := by
  obtain ⟨m, h1, h2⟩ := run_refines ops (init_refines lib) h
  have := h2.cells o
  rw [ho] at this
  obtain ⟨ob, a, b⟩ := this
  refine ⟨m, ob, _, h1, a, b.inner, rfl, rfl, rfl, b.pack, ?_, ?_, ?_⟩
  · rw [b.messageView]
    cases hm : ob.message with
    | short _ => rfl
    | long a n => left; rw [b.messageView, hm]; rfl
  · rw [b.formattedView]
    cases hm : ob.formatted with
    | short _ => rfl
    | long a n => right; rw [b.formattedView, hm]; rfl
  · obtain ⟨es, -, e2, -⟩ := b.vec
    rw [e2]
    exact elems_inside o ob es 0

/-- **C08, ownership.** A block is on the heap exactly if a string or vector of an existing buffer owns it, and then it has
this one owner: nothing leaks, nothing is freed that is in use, and nothing is freed twice. -/
theorem C08_blocks (lib : Lib) (ops : List Op) (s : SState) (h : SState.init.run ops = some s) :
    ∃ m, (Mem.init lib).run ops = .ok m ∧
      (∀ a, (m.heap a).isSome ↔ ∃ o ob, m.objs o = some ob ∧ a ∈ ob.owns) ∧
      (∀ o ob, m.objs o = some ob → ob.owns.Nodup) ∧
      ∀ a o o' ob ob', m.objs o = some ob → m.objs o' = some ob' → a ∈ ob.owns → a ∈ ob'.owns → o = o' := by
  obtain ⟨m, h1, h2, h3⟩ := run_own ops (init_refines lib) (own_init lib) h
  refine ⟨m, h1, h3, h2.inv.nodup, fun a o o' ob ob' ho ho' ha ha' => ?_⟩
  by_cases hne : o = o'
  · exact hne
  · exact absurd ha' (h2.inv.disj o o' ob ob' hne ho ho' a ha)

/-- In particular nothing is left when all buffers are destroyed. -/
theorem C08_nothing_left (lib : Lib) (ops : List Op) (s : SState) (h : SState.init.run ops = some s) (he : ∀ o, s.cell o = .absent) :
    ∃ m, (Mem.init lib).run ops = .ok m ∧ ∀ a, m.heap a = none := by
  obtain ⟨m, h1, h2, h3⟩ := run_own ops (init_refines lib) (own_init lib) h
  refine ⟨m, h1, fun a => ?_⟩
  cases ha : m.heap a with
  | none => rfl
  | some b =>
    obtain ⟨o, ob, ho, -⟩ := (h3 a).1 (by rw [ha]; rfl)
    have := h2.cells o
    rw [he o] at this
    have : m.objs o = none := this
    rw [this] at ho
    cases ho

/-- Moving from a buffer that was default-constructed, or already moved from, fails the assertion on the pack:
the one use the class excludes. -/
theorem C08_default_move_asserts (m : Mem) (d s : Nat) (hd : m.objs d = none) (hs : m.objs s = none) (hne : d ≠ s) :
    (m.run [.default s, .moveConstruct d s]) = .error .assertion := by
  simp [Mem.run, Mem.step, hs, Mem.constructDefault, Mem.moveConstruct, Mem.setObj, hd, hne, bind, Except.bind]

/-- Two moves out of the same buffer: the second one fails the assertion, if a pack that was moved from is empty (as a
`std::vector` is; a `small_vector` keeps its entry, and the assertion does not notice). -/
theorem C08_moved_from_asserts (m : Mem) (d d' s : Nat) (m' : Mem) (hd' : m.objs d' = none) (h1 : d' ≠ d)
    (h2 : d' ≠ s) (hds : d ≠ s) (hp : m.lib.keepsPack = false) (h : m.step (.moveConstruct d s) = .ok m') :
    m'.step (.moveConstruct d' s) = .error .assertion := by
  simp only [Mem.step, Mem.moveConstruct] at h
  split at h
  · split at h
    · simp only [Except.ok.injEq] at h
      subst h
      simp [Mem.step, Mem.moveConstruct, Mem.setObj, hd', h1, h2, Ne.symm hds, Mem.oldPack, hp]
    · simp at h
  · simp at h

/-! ## Witnesses -/

section
private def longText : Str := List.replicate 40 'x'
private def rec0 : FRec :=
  { message := ⟨0, 2⟩, formatted := ⟨1, 40⟩, severity := -3, timestamp := 9, tid := 4
    attributes := [[(⟨0, 1⟩, .string ⟨1, 20⟩)], [], [(⟨0, 2⟩, .function 7), (⟨0, 2⟩, .uint 5)]] }

/-- A history with a short and a long string, a lazy attribute, a foreign overwrite, both kinds of moves, an
assignment over a live buffer, and destruction of the buffers moved from. -/
private def ops0 : List Op :=
  [.foreign 0 (some ['h', 'i', '!']), .foreign 1 (some longText), .capture 0 (fun _ => ['l']) rec0,
   .foreign 0 none, .foreign 1 (some []), .moveConstruct 1 0, .destroy 0, .default 2, .moveAssign 2 1,
   .moveAssign 2 2, .foreign 0 (some ['o']), .recapture 0 2 (fun _ => []), .moveAssign 0 2, .destroy 2, .destroy 1]

example : ∃ s r, SState.init.run ops0 = some s ∧ s.cell 0 = .holds r ∧ r.message = ['h', 'i'] ∧
    r.attributes = [[(['h'], .string (longText.take 20)), (['h', 'i'], .string ['l']), (['h', 'i'], .uint 5)]] :=
  ⟨_, _, rfl, rfl, rfl, rfl⟩

/-- The attributes are inside the object with a `small_vector`, in a block with a `std::vector`. -/
example : ∃ m ob, (Mem.init {}).run ops0 = .ok m ∧ m.objs 0 = some ob ∧
    ob.attrView = [({ loc := .key (.inObj 0) 0, len := 1 }, .string { loc := .val (.inObj 0) 0, len := 20 }),
      ({ loc := .key (.inObj 0) 1, len := 2 }, .string { loc := .val (.inObj 0) 1, len := 1 }),
      ({ loc := .key (.inObj 0) 2, len := 2 }, .uint 5)] := ⟨_, _, rfl, rfl, rfl⟩

example : ∃ m ob a, (Mem.init { small := 0, reuse := false }).run ops0 = .ok m ∧ m.objs 0 = some ob ∧ ob.vec = .heap a ∧
    m.readPlace (.heap a) = some [(['h'], .string (longText.take 20)), (['h', 'i'], .string ['l']), (['h', 'i'], .uint 5)] :=
  ⟨_, _, _, rfl, rfl, rfl, rfl⟩

/-- A block of the destination is used again: short contents are assigned over long ones. -/
private def big : FRec :=
  { message := ⟨0, 40⟩, formatted := ⟨0, 40⟩, severity := 0, timestamp := 9, tid := 4
    attributes := [[(⟨0, 1⟩, .null), (⟨0, 1⟩, .bool true)]] }

private def tiny : FRec :=
  { message := ⟨0, 2⟩, formatted := ⟨0, 3⟩, severity := 0, timestamp := 9, tid := 4
    attributes := [[(⟨0, 2⟩, .null)]] }

private def ops1 : List Op :=
  [.foreign 0 (some longText), .capture 0 (fun _ => []) big, .capture 1 (fun _ => []) tiny, .moveAssign 0 1]

example : ∃ m ob a b, (Mem.init { small := 1 }).run ops1 = .ok m ∧ m.objs 0 = some ob ∧ ob.message = .long a 2 ∧
    ob.vec = .heap b ∧ m.heap a = some (.str ['x', 'x']) ∧ m.heap b = some (.vec [(['x', 'x'], .null)]) :=
  ⟨_, _, 0, 2, rfl, rfl, rfl, rfl, rfl, rfl⟩
end

end Blackhole.RecordBuf
