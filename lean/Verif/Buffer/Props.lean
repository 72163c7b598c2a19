import Verif.Buffer.Model

/-! # Properties of the writer's buffer: C63 -/

namespace Blackhole.Buffer

/-! ## Specification -/

/-- What one operation does to the text, if it is carried out. -/
def effect (text : Str) : Op → Str
  | .append _ s => text ++ s
  | .push _ c => text ++ [c]
  | .region _ s => text ++ s
  | .reserve _ _ => text
  | .clear => []

/-- The text after operations of which those flagged were carried out: each adds its characters to the end; those that
threw add nothing; `clear` starts anew. -/
def textOf (text : Str) : List Op → List Bool → Str
  | o :: os, true :: fs => textOf (effect text o) os fs
  | _ :: os, false :: fs => textOf text os fs
  | _, _ => text

/-- Requests that can be made at all: no string and no reservation of 2^63 bytes or more. -/
def Op.Sane : Op → Prop
  | .append _ s => s.length < 2 ^ 63
  | .push _ _ => True
  | .region _ s => s.length < 2 ^ 63
  | .reserve _ n => n < 2 ^ 64
  | .clear => True

/-- The operation was denied memory, or wanted more than the allocator ever gives. -/
def Denied (text : Str) : Op → Prop
  | .append room s => room = false ∨ 2 ^ 62 ≤ text.length + s.length
  | .push room _ => room = false ∨ 2 ^ 62 ≤ text.length + 1
  | .region room s => room = false ∨ 2 ^ 62 ≤ text.length + s.length
  | .reserve room n => room = false ∨ 2 ^ 62 ≤ n
  | .clear => False

/-! ## Invariant -/

structure Good (b : Buf) (text : Str) : Prop where
  arr : b.arr.length = b.capacity
  size : b.size = text.length
  le : text.length ≤ b.capacity
  text : b.arr.take text.length = text.map some
  cap : b.capacity < 2 ^ 63
  inl : b.inl.length = inlineSize
  fits : b.heap = none → b.capacity = inlineSize
  min : inlineSize ≤ b.capacity

theorem Good.init : Good Buf.init [] := by
  constructor <;> simp only [Buf.init, Buf.arr, List.length_replicate, List.length_nil, List.take_zero, List.map_nil,
    Nat.zero_le, implies_true]
  decide
  exact Nat.le_refl _

theorem arr_setArr (b : Buf) (a : Arr) : (b.setArr a).arr = a := by
  unfold Buf.setArr Buf.arr
  cases b.heap <;> rfl

/-- Copying into the storage. -/
theorem copyTo_spec (s : Str) : ∀ (b : Buf) (i : Nat), i + s.length ≤ b.arr.length →
    ∃ b', b.copyTo i s = .ok b' ∧ b'.arr = b.arr.take i ++ s.map some ++ b.arr.drop (i + s.length)
      ∧ b'.size = b.size ∧ b'.capacity = b.capacity ∧ b'.inl.length = b.inl.length
      ∧ (b'.heap = none ↔ b.heap = none) := by
  induction s with
  | nil => intro b i h; exact ⟨b, rfl, by simp, rfl, rfl, rfl, Iff.rfl⟩
  | cons c s ih =>
    intro b i h
    simp only [List.length_cons] at h
    have hlt : i < b.arr.length := by omega
    have h1 : (b.setArr (b.arr.set i (some c))).arr = b.arr.set i (some c) := arr_setArr _ _
    obtain ⟨b', e, ha, hs, hc, hl, hn⟩ := ih (b.setArr (b.arr.set i (some c))) (i + 1) (by rw [h1]; simp; omega)
    refine ⟨b', ?_, ?_, ?_, ?_, ?_, ?_⟩
    · simp [Buf.copyTo, Buf.set, hlt, e]
    · rw [ha, h1]
      have ht : (b.arr.set i (some c)).take (i + 1) = b.arr.take i ++ [some c] := by
        rw [List.take_add_one]
        simp [hlt, List.take_set]
        exact List.set_eq_of_length_le (by simp; omega)
      have hd : (b.arr.set i (some c)).drop (i + 1 + s.length) = b.arr.drop (i + 1 + s.length) :=
        List.drop_set_of_lt (by omega)
      rw [ht, hd]
      simp only [List.length_cons, List.map_cons, List.append_assoc, List.singleton_append]
      rw [show i + (s.length + 1) = i + 1 + s.length from by omega]
    · rw [hs]; unfold Buf.setArr; split <;> rfl
    · rw [hc]; unfold Buf.setArr; split <;> rfl
    · rw [hl]; unfold Buf.setArr Buf.arr; split
      · rfl
      · simp
    · rw [hn]; unfold Buf.setArr; split <;> simp_all

theorem readRaw_good {b : Buf} {text : Str} (g : Good b text) : readRaw b.arr b.size = .ok (text.map some) := by
  unfold readRaw
  rw [if_pos (by rw [g.arr, g.size]; exact g.le), g.size, g.text]

/-- Growing keeps the text and makes room, or there is no memory. -/
theorem grow_spec {b : Buf} {text : Str} (g : Good b text) (room : Bool) (n : Nat) (h : b.capacity < n) (hn : n < 2 ^ 64) :
    (b.grow room n = .error .alloc ∧ (room = false ∨ 2 ^ 62 ≤ n))
    ∨ ∃ b', b.grow room n = .ok b' ∧ Good b' text ∧ n ≤ b'.capacity ∧ room = true ∧ n < 2 ^ 63 := by
  have hc := g.cap
  unfold Buf.grow
  simp only [readRaw_good g]
  have hmod : (b.capacity + b.capacity / 2) % 2 ^ 64 = b.capacity + b.capacity / 2 := Nat.mod_eq_of_lt (by omega)
  rw [hmod]
  generalize hm : max n (b.capacity + b.capacity / 2) = m
  have hnm : n ≤ m := by omega
  split
  · rename_i hh
    left
    refine ⟨rfl, ?_⟩
    cases room with
    | false => exact .inl rfl
    | true => right; simp at hh; omega
  · rename_i hh
    have hle := g.le
    have hsz := g.size
    have hroom : room = true ∧ m < 2 ^ 63 := by
      cases room with
      | false => simp at hh
      | true => simp at hh; exact ⟨rfl, by omega⟩
    rw [if_pos (by omega)]
    right
    refine ⟨_, rfl, ?_, hnm, hroom.1, by omega⟩
    constructor
    · simp [Buf.arr]; omega
    · exact hsz
    · show text.length ≤ m; omega
    · simp [Buf.arr]
    · exact hroom.2
    · exact g.inl
    · intro hh; cases hh
    · show inlineSize ≤ m; have := g.min; omega

theorem take_text (t s : Str) (rest : Arr) :
    (t.map some ++ s.map some ++ rest).take (t ++ s).length = (t ++ s).map some := by
  rw [← List.map_append]
  exact List.take_left' (by simp)

/-- Writing characters after the text. -/
theorem copy_good {b : Buf} {text : Str} (g : Good b text) (s : Str) (h : text.length + s.length ≤ b.capacity) :
    ∃ b', b.copyTo b.size s = .ok b' ∧ b'.size = b.size ∧ Good { b' with size := b.size + s.length } (text ++ s) := by
  obtain ⟨b', e, ha, hs, hc, hl, hn⟩ := copyTo_spec s b b.size (by rw [g.size, g.arr]; omega)
  refine ⟨b', e, hs, ?_⟩
  have harr : (Buf.arr { b' with size := b.size + s.length }) = b'.arr := rfl
  constructor
  · rw [harr, ha]
    simp only [List.length_append, List.length_take, List.length_drop, List.length_map, g.arr, g.size, hc]
    omega
  · simp [g.size]
  · simp only [List.length_append, hc]; exact h
  · rw [harr, ha, g.size, g.text]
    exact take_text _ _ _
  · simp only [hc]; exact g.cap
  · simp only [hl]; exact g.inl
  · intro hh
    simp only [hc]
    exact g.fits (hn.1 hh)
  · simp only [hc]; exact g.min

theorem op_spec {b : Buf} {text : Str} (g : Good b text) (o : Op) (h : o.Sane) :
    (b.op o = .error .alloc ∧ Denied text o) ∨ ∃ b', b.op o = .ok b' ∧ Good b' (effect text o) := by
  have hc := g.cap
  have hsz := g.size
  have hle := g.le
  cases o with
  | append room s =>
    simp only [Op.Sane] at h
    have hmod : (b.size + s.length) % 2 ^ 64 = text.length + s.length := by
      rw [hsz]; exact Nat.mod_eq_of_lt (by omega)
    simp only [Buf.op, Buf.append, hmod, bind, Except.bind]
    split
    · rename_i hgt
      rcases grow_spec g room _ hgt (by omega) with ⟨e, hd⟩ | ⟨b1, e, g1, h1, _⟩
      · left; rw [e]; exact ⟨rfl, hd⟩
      · right
        rw [e]
        obtain ⟨b2, e2, hs2, g2⟩ := copy_good g1 s h1
        simp only [e2, hs2]
        exact ⟨_, rfl, g2⟩
    · rename_i hgt
      right
      obtain ⟨b2, e2, hs2, g2⟩ := copy_good g s (by omega)
      simp only [e2, hs2]
      exact ⟨_, rfl, g2⟩
  | push room c =>
    have hmod : (b.size + 1) % 2 ^ 64 = text.length + 1 := by
      rw [hsz]; exact Nat.mod_eq_of_lt (by omega)
    have hset : ∀ b : Buf, b.copyTo b.size [c] = b.set b.size c := by
      intro b; simp only [Buf.copyTo]; cases b.set b.size c <;> rfl
    simp only [Buf.op, Buf.pushBack, hmod, bind, Except.bind]
    split
    · rename_i heq
      rcases grow_spec g room (text.length + 1) (by omega) (by omega) with ⟨e, hd⟩ | ⟨b1, e, g1, h1, _⟩
      · left; rw [e]; exact ⟨rfl, hd⟩
      · right
        rw [e]
        obtain ⟨b2, e2, hs2, g2⟩ := copy_good g1 [c] h1
        rw [hset] at e2
        simp only [e2, hs2]
        exact ⟨_, rfl, g2⟩
    · rename_i hne
      right
      obtain ⟨b2, e2, hs2, g2⟩ := copy_good g [c] (by simp only [List.length_singleton]; omega)
      rw [hset] at e2
      simp only [e2, hs2]
      exact ⟨_, rfl, g2⟩
  | region room s =>
    simp only [Op.Sane] at h
    have hmod : (b.size + s.length) % 2 ^ 64 = text.length + s.length := by
      rw [hsz]; exact Nat.mod_eq_of_lt (by omega)
    have key : ∀ b1 : Buf, Good b1 text → text.length + s.length ≤ b1.capacity →
        ∃ b', Buf.copyTo { b1 with size := text.length + s.length } b.size s = .ok b' ∧ Good b' (text ++ s) := by
      intro b1 g1 h1
      have g1sz := g1.size
      obtain ⟨b2, e2, ha, hs, hcc, hl, hn⟩ := copyTo_spec s { b1 with size := text.length + s.length } b.size (by
        show _ ≤ b1.arr.length
        rw [g1.arr, hsz]; exact h1)
      refine ⟨b2, e2, ?_⟩
      have harr : (Buf.arr { b1 with size := text.length + s.length }) = b1.arr := rfl
      rw [harr] at ha
      constructor
      · rw [ha]
        simp only [List.length_append, List.length_take, List.length_drop, List.length_map, g1.arr, hsz, hcc]
        omega
      · rw [hs]; simp
      · simp only [List.length_append, hcc]; exact h1
      · rw [ha, hsz, g1.text]; exact take_text _ _ _
      · rw [hcc]; exact g1.cap
      · rw [hl]; exact g1.inl
      · intro hh; rw [hcc]; exact g1.fits (hn.1 hh)
      · rw [hcc]; exact g1.min
    simp only [Buf.op, Buf.region, hmod, bind, Except.bind, Buf.resize]
    by_cases hgt : text.length + s.length > b.capacity
    · simp only [if_pos hgt]
      rcases grow_spec g room _ hgt (by omega) with ⟨e, hd⟩ | ⟨b1, e, g1, h1, _⟩
      · left; rw [e]; exact ⟨rfl, hd⟩
      · right; rw [e]; exact key b1 g1 h1
    · simp only [if_neg hgt]
      right; exact key b g (by omega)
  | reserve room n =>
    simp only [Op.Sane] at h
    simp only [Buf.op, Buf.reserve]
    split
    · rename_i hgt
      rcases grow_spec g room _ hgt h with ⟨e, hd⟩ | ⟨b1, e, g1, h1, _⟩
      · left; exact ⟨e, hd⟩
      · right; exact ⟨b1, e, g1⟩
    · right; exact ⟨b, rfl, g⟩
  | clear =>
    right
    refine ⟨_, rfl, ?_⟩
    constructor
    · exact g.arr
    · rfl
    · exact Nat.zero_le _
    · simp [effect]
    · exact g.cap
    · exact g.inl
    · exact g.fits
    · exact g.min

theorem run_spec (os : List Op) (hs : ∀ o ∈ os, o.Sane) : ∀ {b : Buf} {text : Str}, Good b text →
    ∃ b' fs, b.run os = .ok (b', fs) ∧ fs.length = os.length ∧ Good b' (textOf text os fs) := by
  induction os with
  | nil => intro b text g; exact ⟨b, [], rfl, rfl, g⟩
  | cons o os ih =>
    intro b text g
    have hs' : ∀ o ∈ os, o.Sane := fun x hx => hs x (List.mem_cons_of_mem _ hx)
    rcases op_spec g o (hs o (List.mem_cons_self ..)) with ⟨e, _⟩ | ⟨b1, e, g1⟩
    · obtain ⟨b', fs, e', hl, g'⟩ := ih hs' g
      refine ⟨b', false :: fs, ?_, by simp [hl], g'⟩
      simp only [Buf.run, e, e', Except.map]
    · obtain ⟨b', fs, e', hl, g'⟩ := ih hs' g1
      refine ⟨b', true :: fs, ?_, by simp [hl], g'⟩
      simp only [Buf.run, e, e', Except.map]

theorem read_good {b : Buf} {text : Str} (g : Good b text) : b.read = .ok text := by
  unfold Buf.read
  rw [readRaw_good g]
  have : (text.map some).mapM id = some text := by
    clear g
    induction text with
    | nil => rfl
    | cons c t ih => simp [List.mapM_cons, ih]
  simp [this]

/-! ## Theorems -/

/-- Whatever is written through a fresh writer, by whichever of its operations, in pieces of whatever sizes, and however
the allocator answers: no access is out of bounds, no unwritten byte is read, and the text read back is exactly the
characters of the operations that did not throw since the last `clear`. -/
theorem C63_contents (os : List Op) (hs : ∀ o ∈ os, o.Sane) :
    ∃ b fs, Buf.init.run os = .ok (b, fs) ∧ fs.length = os.length ∧ b.read = .ok (textOf [] os fs) := by
  obtain ⟨b, fs, e, hl, g⟩ := run_spec os hs Good.init
  exact ⟨b, fs, e, hl, read_good g⟩

/-- In particular, if there is memory and the text stays below 2^62 bytes, nothing throws and the text is the
concatenation of all pieces. -/
theorem C63_concatenation (pieces : List Str) (hlen : pieces.flatten.length < 2 ^ 62) :
    ∃ b, Buf.init.run (pieces.map (.append true)) = .ok (b, pieces.map fun _ => true)
      ∧ b.read = .ok pieces.flatten := by
  have key : ∀ (pieces : List Str) (b : Buf) (text : Str), Good b text →
      text.length + pieces.flatten.length < 2 ^ 62 →
      ∃ b', b.run (pieces.map (.append true)) = .ok (b', pieces.map fun _ => true)
        ∧ Good b' (text ++ pieces.flatten) := by
    intro pieces
    induction pieces with
    | nil => intro b text g _; exact ⟨b, rfl, by simpa using g⟩
    | cons p ps ih =>
      intro b text g h
      simp only [List.flatten_cons, List.length_append] at h
      rcases op_spec g (.append true p) (by simp only [Op.Sane]; omega) with ⟨_, hd⟩ | ⟨b1, e, g1⟩
      · simp only [Denied, Bool.true_eq_false, false_or] at hd
        omega
      · obtain ⟨b', e', g'⟩ := ih b1 (text ++ p) g1 (by simp only [List.length_append]; omega)
        refine ⟨b', ?_, by simpa [effect] using g'⟩
        simp only [List.map_cons, Buf.run, e, e', Except.map]
  obtain ⟨b, e, g⟩ := key pieces Buf.init [] Good.init (by simpa using hlen)
  exact ⟨b, e, read_good (by simpa using g)⟩

/-- An operation throws only if memory is refused or more than 2^62 bytes are wanted, in every state that can be
reached. -/
theorem C63_throws (os : List Op) (hs : ∀ o ∈ os, o.Sane) (b : Buf) (fs : List Bool)
    (hrun : Buf.init.run os = .ok (b, fs)) (o : Op) (ho : o.Sane) (e : Err) (he : b.op o = .error e) :
    e = .alloc ∧ Denied (textOf [] os fs) o := by
  obtain ⟨b', fs', e', _, g⟩ := run_spec os hs Good.init
  rw [hrun] at e'
  cases e'
  rcases op_spec g o ho with ⟨e2, hd⟩ | ⟨b1, e2, _⟩
  · rw [he] at e2; cases e2; exact ⟨rfl, hd⟩
  · rw [he] at e2; cases e2

theorem move_spec {b : Buf} {text : Str} (g : Good b text) (target : Arr) (ht : target.length = inlineSize) :
    ∃ b' rest, Buf.move target b = .ok (b', rest) ∧ Good b' text ∧ (b.heap = none → rest = b) := by
  have hle := g.le
  have hsz := g.size
  unfold Buf.move
  cases hh : b.heap with
  | none =>
    have harr : b.arr = b.inl := by simp [Buf.arr, hh]
    have hr := readRaw_good g
    rw [harr] at hr
    have hf := g.fits hh
    simp only [hr]
    rw [if_pos (by omega)]
    refine ⟨_, _, rfl, ?_, fun _ => rfl⟩
    constructor
    · simp [Buf.arr, hf, ht]; omega
    · exact hsz
    · exact hle
    · simp [Buf.arr]
    · exact g.cap
    · simp [ht]; omega
    · exact fun _ => hf
    · exact g.min
  | some a =>
    refine ⟨_, _, rfl, ?_, by simp⟩
    have harr : b.arr = a := by simp [Buf.arr, hh]
    constructor
    · simpa [Buf.arr, hh] using g.arr
    · exact hsz
    · exact hle
    · simpa [Buf.arr, hh] using g.text
    · exact g.cap
    · exact ht
    · intro h; cases h
    · exact g.min

/-- Moving a writer, by construction or by assignment over any other writer, carries the text along: the new writer has
it, and whatever is then written to the new one works as before. -/
theorem C63_move (os os' more : List Op) (hs : ∀ o ∈ os, o.Sane) (hs' : ∀ o ∈ os', o.Sane)
    (hm : ∀ o ∈ more, o.Sane) (b b' : Buf) (fs fs' : List Bool) (hb : Buf.init.run os = .ok (b, fs))
    (hb' : Buf.init.run os' = .ok (b', fs')) (m : Except Err (Buf × Buf)) (h : m = b.moved ∨ m = b'.assign b) :
    ∃ n rest, m = .ok (n, rest) ∧ n.read = b.read
      ∧ ∃ n' gs, n.run more = .ok (n', gs) ∧ n'.read = .ok (textOf (textOf [] os fs) more gs) := by
  obtain ⟨c, gs, e, _, g⟩ := run_spec os hs Good.init
  rw [hb] at e
  cases e
  obtain ⟨c, gs', e, _, g'⟩ := run_spec os' hs' Good.init
  rw [hb'] at e
  cases e
  have : ∃ target : Arr, target.length = inlineSize ∧ m = Buf.move target b := by
    rcases h with h | h
    · exact ⟨_, by simp, h⟩
    · exact ⟨_, g'.inl, h⟩
  obtain ⟨target, ht, rfl⟩ := this
  obtain ⟨n, rest, e1, gn, _⟩ := move_spec g target ht
  obtain ⟨n', hs2, e2, _, g2⟩ := run_spec more hm gn
  exact ⟨n, rest, e1, by rw [read_good gn, read_good g], n', hs2, e2, read_good g2⟩

/-- A writer whose text is still inside of the object keeps it when moved from. -/
theorem C63_moved_from_inline (os : List Op) (hs : ∀ o ∈ os, o.Sane) (b : Buf) (fs : List Bool)
    (hb : Buf.init.run os = .ok (b, fs)) (hin : b.heap = none) :
    ∃ n, b.moved = .ok (n, b) := by
  obtain ⟨c, gs, e, _, g⟩ := run_spec os hs Good.init
  rw [hb] at e
  cases e
  obtain ⟨n, rest, e1, _, hr⟩ := move_spec g (List.replicate inlineSize none) (by simp)
  exact ⟨n, by rw [Buf.moved, e1, hr hin]⟩

theorem heap_of_long {b : Buf} {text : Str} (g : Good b text) (h : inlineSize < text.length) : ∃ a, b.heap = some a := by
  cases hh : b.heap with
  | none => have := g.fits hh; have := g.le; omega
  | some a => exact ⟨a, rfl⟩

/-- The full property fails for a writer that has been moved from once its text has left the object, as any text of more
than 500 characters has: it still claims the size and capacity of the array that is gone. Reading it is undefined, and
so is writing to it... -/
theorem C63_fails_moved_from (os : List Op) (hs : ∀ o ∈ os, o.Sane) (b : Buf) (fs : List Bool)
    (hb : Buf.init.run os = .ok (b, fs)) (hlong : 500 < (textOf [] os fs).length)
    (hlen : (textOf [] os fs).length < 2 ^ 62) :
    ∃ n rest, b.moved = .ok (n, rest) ∧ rest.read = .error (.ub .outOfBounds)
      ∧ ∀ c, rest.pushBack true c = .error (.ub .outOfBounds) := by
  obtain ⟨c, gs, e, _, g⟩ := run_spec os hs Good.init
  rw [hb] at e
  cases e
  obtain ⟨a, ha⟩ := heap_of_long g hlong
  have hinl : b.inl.length = 500 := g.inl
  have hsz := g.size
  have hbig : b.inl.length < b.size := by omega
  have hraw : readRaw b.inl b.size = .error (.ub .outOfBounds) := by
    unfold readRaw; rw [if_neg (by omega)]
  refine ⟨_, { b with heap := none }, by simp only [Buf.moved, Buf.move, ha]; rfl, ?_, ?_⟩
  · simp only [Buf.read, Buf.arr, hraw]
  · intro c
    simp only [Buf.pushBack, bind, Except.bind]
    by_cases hcap : b.size = b.capacity
    · have hmod : (b.size + 1) % 2 ^ 64 = b.size + 1 := Nat.mod_eq_of_lt (by omega)
      have hmod2 : (b.capacity + b.capacity / 2) % 2 ^ 64 = b.capacity + b.capacity / 2 := Nat.mod_eq_of_lt (by omega)
      simp only [if_pos hcap, Buf.grow, Buf.arr, hraw, hmod, hmod2]
      rw [if_neg (by simp; omega)]
    · have hset : Buf.set { b with heap := none } b.size c = .error (.ub .outOfBounds) := by
        unfold Buf.set
        rw [if_neg (by show ¬ b.size < b.inl.length; omega)]
      simp only [if_neg hcap, hset]

/-- ... even after it has been cleared: a text that fits in the array that is gone but not in the object is written out
of bounds. -/
theorem C63_fails_moved_from_cleared (os : List Op) (hs : ∀ o ∈ os, o.Sane) (b : Buf) (fs : List Bool)
    (hb : Buf.init.run os = .ok (b, fs)) (hlong : 500 < (textOf [] os fs).length) (s : Str)
    (hs1 : 500 < s.length) (hs2 : s.length ≤ (textOf [] os fs).length) :
    ∃ n rest, b.moved = .ok (n, rest) ∧ rest.clear.append true s = .error (.ub .outOfBounds) := by
  obtain ⟨c, gs, e, _, g⟩ := run_spec os hs Good.init
  rw [hb] at e
  cases e
  obtain ⟨a, ha⟩ := heap_of_long g hlong
  have hinl : b.inl.length = 500 := g.inl
  have hle := g.le
  have hcap := g.cap
  refine ⟨_, { b with heap := none }, by simp only [Buf.moved, Buf.move, ha]; rfl, ?_⟩
  have key : ∀ (s : Str) (b : Buf) (i : Nat), i ≤ b.arr.length → b.arr.length < i + s.length →
      b.copyTo i s = .error (.ub .outOfBounds) := by
    intro s
    induction s with
    | nil => intro b i h1 h2; simp at h2; omega
    | cons c s ih =>
      intro b i h1 h2
      simp only [List.length_cons] at h2
      simp only [Buf.copyTo, Buf.set]
      by_cases hi : i < b.arr.length
      · rw [if_pos hi]
        exact ih _ (i + 1) (by rw [arr_setArr]; simp; omega) (by rw [arr_setArr]; simp; omega)
      · rw [if_neg hi]
  have hmod : (0 + s.length) % 2 ^ 64 = s.length := by rw [Nat.zero_add]; exact Nat.mod_eq_of_lt (by omega)
  simp only [Buf.append, Buf.clear, hmod, bind, Except.bind]
  rw [if_neg (by omega)]
  rw [key s _ 0 (Nat.zero_le _) (by show b.inl.length < _; omega)]

/-- A writer may be given its own text while that is inside of the object... -/
theorem C63_own_inline (os : List Op) (hs : ∀ o ∈ os, o.Sane) (b : Buf) (fs : List Bool)
    (hb : Buf.init.run os = .ok (b, fs)) (hin : b.heap = none) :
    ∃ b', b.appendOwn true 0 b.size = .ok b' ∧ b'.read = .ok (textOf [] os fs ++ textOf [] os fs) := by
  obtain ⟨c, gs, e, _, g⟩ := run_spec os hs Good.init
  rw [hb] at e
  cases e
  have hf := g.fits hin
  have hle := g.le
  have hinl : inlineSize = 500 := rfl
  have hm : ((b.arr.take b.size).drop 0).mapM id = some (textOf [] os fs) := by
    rw [g.size, g.text, List.drop_zero]
    generalize textOf [] os fs = t
    induction t with
    | nil => rfl
    | cons c t ih => simp [List.mapM_cons, ih]
  simp only [Buf.appendOwn, hin, Option.isSome_none, Bool.false_eq_true, and_false, if_false, hm]
  rcases op_spec g (.append true (textOf [] os fs)) (by simp only [Op.Sane]; omega) with ⟨_, hd⟩ | ⟨b1, e, g1⟩
  · simp only [Denied, Bool.true_eq_false, false_or] at hd; omega
  · exact ⟨b1, e, read_good g1⟩

/-- ... but not once it has left it: if the doubled text does not fit, the old array is freed before it is copied. -/
theorem C63_fails_own (os : List Op) (hs : ∀ o ∈ os, o.Sane) (b : Buf) (fs : List Bool)
    (hb : Buf.init.run os = .ok (b, fs)) (hlong : 500 < (textOf [] os fs).length)
    (hlen : (textOf [] os fs).length < 2 ^ 61) (hfull : b.capacity < 2 * (textOf [] os fs).length) :
    b.appendOwn true 0 b.size = .error (.ub .dangling) := by
  obtain ⟨c, gs, e, _, g⟩ := run_spec os hs Good.init
  rw [hb] at e
  cases e
  obtain ⟨a, ha⟩ := heap_of_long g hlong
  have hsz := g.size
  have hmod : (b.size + (b.size - 0)) % 2 ^ 64 = b.size + b.size := Nat.mod_eq_of_lt (by omega)
  simp only [Buf.appendOwn, ha, hmod, Option.isSome_some, and_true]
  rw [if_pos (by omega)]
  rcases grow_spec g true (b.size + b.size) (by omega) (by omega) with ⟨_, hd⟩ | ⟨b1, e, _⟩
  · rcases hd with hd | hd
    · cases hd
    · omega
  · rw [e]

/-! ## Concrete cases -/

/-- Six hundred characters in two pieces: nothing throws, and the text has left the object, as the theorems about moved
writers require. -/
example : ∃ b, Buf.init.run ([List.replicate 300 'a', List.replicate 300 'b'].map (.append true)) = .ok (b, [true, true])
    ∧ b.read = .ok (List.replicate 300 'a' ++ List.replicate 300 'b')
    ∧ 500 < (textOf [] ([List.replicate 300 'a', List.replicate 300 'b'].map (.append true)) [true, true]).length := by
  obtain ⟨b, h1, h2⟩ := C63_concatenation [List.replicate 300 'a', List.replicate 300 'b'] (by
    simp only [List.flatten_cons, List.flatten_nil, List.append_nil, List.length_append, List.length_replicate]; decide)
  refine ⟨b, h1, by simpa only [List.flatten_cons, List.flatten_nil, List.append_nil] using h2, ?_⟩
  simp only [List.map_cons, List.map_nil, textOf, effect, List.length_append, List.length_replicate, List.length_nil]
  decide

set_option maxRecDepth 100000 in
/-- Every operation once; a character is kept after a reservation that was refused. -/
example : (Buf.init.run [.append true (ch! "xyz"), .clear, .region true (ch! "ab"), .reserve false 501, .push false 'c']).map
    (fun r => (r.1.read, r.1.capacity, r.2)) = .ok (.ok (ch! "abc"), 500, [true, true, true, false, true]) := by rfl

end Blackhole.Buffer
