import Verif.Wrapper.Refines

/-!
# C85: wrappers as objects

A wrapper shows its own attributes for as long as it lives, whatever happens to others (`C85_own_partial`). That a copy
shows them as well is true only while the original is neither moved from nor destroyed (`C85_copy_partial`,
`C85_fails_copy`): its views are of the original's attributes. That a wrapper which was moved shows them is true only if
moving does not move the texts (`C85_move_partial`, `C85_fails_move`). `C85_exact` says for every history of constructor
calls, copies, moves and destructions what a log call through each wrapper shows, or that it is undefined behaviour.
-/

namespace Blackhole.Wrapper

open Attr (Value)

/-! ## Runs -/

theorem SState.run_append (lib : Lib) (ops ops' : List Op) (s : SState) :
    s.run lib (ops ++ ops') = (s.run lib ops).bind (·.run lib ops') := by
  induction ops generalizing s with
  | nil => rfl
  | cons op ops ih =>
    simp only [List.cons_append, SState.run]
    cases s.step lib op with
    | none => rfl
    | some s1 => simp only [Option.bind_some]; exact ih s1

theorem step_length (lib : Lib) {s s' : SState} {op : Op} (h : s.step lib op = some s') :
    s'.cells.length = s.cells.length + made [op] := by
  cases op with
  | construct spilled gs => cases h; simp [made]
  | copy w => simp only [SState.step] at h; split at h <;> cases h; simp [made]
  | move w => simp only [SState.step] at h; split at h <;> cases h; simp [made]
  | destroy w => simp only [SState.step] at h; split at h <;> cases h; simp [made]

theorem made_cons (op : Op) (ops : List Op) : made (op :: ops) = made [op] + made ops := by
  cases op <;> simp [made] <;> omega

theorem run_length (lib : Lib) (ops : List Op) {s s' : SState} (h : s.run lib ops = some s') :
    s'.cells.length = s.cells.length + made ops := by
  induction ops generalizing s with
  | nil => cases h; rfl
  | cons op ops ih =>
    simp only [SState.run] at h
    cases h1 : s.step lib op with
    | none => rw [h1] at h; cases h
    | some s1 =>
      rw [h1] at h
      rw [ih h, step_length lib h1, made_cons op ops]
      omega

theorem step_cell (lib : Lib) {s s' : SState} {op : Op} (h : s.step lib op = some s') {w : Nat} {c : Cell}
    (hc : s.cells[w]? = some c) (hu : op ≠ .move w ∧ op ≠ .destroy w) : s'.cells[w]? = some c := by
  have hw : w < s.cells.length := (List.getElem?_eq_some_iff.1 hc).1
  cases op with
  | construct spilled gs => cases h; simp only; rw [List.getElem?_append_left hw, hc]
  | copy v =>
    simp only [SState.step] at h
    split at h <;> cases h
    simp only
    rw [List.getElem?_append_left hw, hc]
  | move v =>
    simp only [SState.step] at h
    have hne : v ≠ w := by rintro rfl; exact hu.1 rfl
    split at h <;> cases h
    simp only
    rw [List.getElem?_append_left (by simpa using hw), List.getElem?_set, if_neg hne, hc]
  | destroy v =>
    simp only [SState.step] at h
    have hne : v ≠ w := by rintro rfl; exact hu.2 rfl
    split at h <;> cases h
    simp only
    rw [List.getElem?_set, if_neg hne, hc]

theorem step_kept (lib : Lib) {s s' : SState} {op : Op} (h : s.step lib op = some s') {w t : Nat} {k : Kept}
    (hk : s.kept[t]? = some k) (hh : k.holder = some w) (hu : op ≠ .move w ∧ op ≠ .destroy w) : s'.kept[t]? = some k := by
  have ht : t < s.kept.length := (List.getElem?_eq_some_iff.1 hk).1
  cases op with
  | construct spilled gs => cases h; simp only; rw [List.getElem?_append_left ht, hk]
  | copy v =>
    simp only [SState.step] at h
    split at h <;> cases h
    exact hk
  | move v =>
    simp only [SState.step] at h
    have hne : w ≠ v := by rintro rfl; exact hu.1 rfl
    split at h <;> cases h
    simp only [List.getElem?_map, hk, Option.map_some, Kept.moved, hh, Option.some.injEq, hne, if_false]
  | destroy v =>
    simp only [SState.step] at h
    have hne : w ≠ v := by rintro rfl; exact hu.2 rfl
    split at h <;> cases h
    simp only [List.getElem?_map, hk, Option.map_some, Kept.destroyed, hh, Option.some.injEq, hne, if_false]

theorem run_cell (lib : Lib) (ops : List Op) {s s' : SState} (h : s.run lib ops = some s') {w : Nat} {c : Cell}
    (hc : s.cells[w]? = some c) (hu : Untouched w ops) : s'.cells[w]? = some c := by
  induction ops generalizing s with
  | nil => cases h; exact hc
  | cons op ops ih =>
    simp only [SState.run] at h
    cases h1 : s.step lib op with
    | none => rw [h1] at h; cases h
    | some s1 =>
      rw [h1] at h
      exact ih h (step_cell lib h1 hc (hu op List.mem_cons_self)) fun o ho => hu o (List.mem_cons_of_mem _ ho)

theorem run_kept (lib : Lib) (ops : List Op) {s s' : SState} (h : s.run lib ops = some s') {w t : Nat} {k : Kept}
    (hk : s.kept[t]? = some k) (hh : k.holder = some w) (hu : Untouched w ops) : s'.kept[t]? = some k := by
  induction ops generalizing s with
  | nil => cases h; exact hk
  | cons op ops ih =>
    simp only [SState.run] at h
    cases h1 : s.step lib op with
    | none => rw [h1] at h; cases h
    | some s1 =>
      rw [h1] at h
      exact ih h (step_kept lib h1 hk hh (hu op List.mem_cons_self)) fun o ho => hu o (List.mem_cons_of_mem _ ho)

/-- What the specification does not allow is undefined behaviour. -/
theorem step_none (lib : Lib) {m : Mem} {s : SState} {birth : Nat → Nat} (hr : Refines m s birth) {op : Op}
    (h : s.step lib op = none) : m.step lib op = .error .dangling := by
  have hdead : ∀ w : Nat, (s.cells[w]? = some .destroyed ∨ s.cells[w]? = none) →
      m.objs[w]? = some none ∨ m.objs[w]? = none := by
    intro w hw
    rcases hw with hw | hw
    · exact .inl (hr.destroyed w hw)
    · right
      rw [List.getElem?_eq_none_iff] at hw ⊢
      rw [hr.len]
      exact hw
  cases op with
  | construct spilled gs => cases h
  | copy w =>
    have : s.cells[w]? = some .destroyed ∨ s.cells[w]? = none := by
      simp only [SState.step] at h
      split at h
      · rename_i e; exact .inl e
      · rename_i e; exact .inr e
      · cases h
    rcases hdead w this with e | e <;> simp only [Mem.step, Mem.copy, e]
  | move w =>
    have : s.cells[w]? = some .destroyed ∨ s.cells[w]? = none := by
      simp only [SState.step] at h
      split at h
      · rename_i e; exact .inl e
      · rename_i e; exact .inr e
      · cases h
    rcases hdead w this with e | e <;> simp only [Mem.step, Mem.move, e]
  | destroy w =>
    have : s.cells[w]? = some .destroyed ∨ s.cells[w]? = none := by
      simp only [SState.step] at h
      split at h
      · rename_i e; exact .inl e
      · rename_i e; exact .inr e
      · cases h
    rcases hdead w this with e | e <;> simp only [Mem.step, Mem.destroy, e]

theorem run_none (lib : Lib) (ops : List Op) {m : Mem} {s : SState} {birth : Nat → Nat} (hr : Refines m s birth)
    (h : s.run lib ops = none) : m.run lib ops = .error .dangling := by
  induction ops generalizing m s birth with
  | nil => cases h
  | cons op ops ih =>
    simp only [SState.run] at h
    cases h1 : s.step lib op with
    | none => simp only [Mem.run, step_none lib hr h1]
    | some s1 =>
      rw [h1] at h
      obtain ⟨m1, b1, e1, e2⟩ := step_refines lib hr h1
      simp only [Mem.run, e1]
      exact ih e2 h

/-! ## The exact meaning -/

/-- **C85.** For every history: if it uses a wrapper that does not exist (any more), it is undefined behaviour; if not,
then it is not, and a log call through each wrapper that exists afterwards and was not moved from (nor made from such a
one) does exactly what the specification says. -/
theorem C85_exact (lib : Lib) (ops : List Op) :
    match SState.init.run lib ops with
    | none => Mem.init.run lib ops = .error .dangling
    | some s => ∃ m, Mem.init.run lib ops = .ok m
        ∧ (∀ w t : Nat, s.cells[w]? = some (.looks t) → ∃ r, s.Log w r)
        ∧ (∀ (w : Nat) r, s.Log w r → m.log w = r) := by
  cases h : SState.init.run lib ops with
  | none => exact run_none lib ops init_refines h
  | some s =>
    obtain ⟨m, birth, h1, h2⟩ := run_refines lib ops init_refines h
    refine ⟨m, h1, ?_, fun w r hl => h2.log hl⟩
    intro w t hc
    obtain ⟨ob, k, -, h4, -⟩ := h2.looks w t hc
    by_cases ht : ∃ a ∈ k.attributes, HasText a
    · cases hk : k.holder with
      | none => exact ⟨_, .lost hc h4 hk ht⟩
      | some v => exact ⟨_, .shows hc h4 (.inl (by simp [hk]))⟩
    · exact ⟨_, .shows hc h4 (.inr fun a ha hx => ht ⟨a, ha, hx⟩)⟩

theorem exact_of {lib : Lib} {ops : List Op} {m : Mem} (h : Mem.init.run lib ops = .ok m) :
    ∃ s, SState.init.run lib ops = some s ∧ ∀ (w : Nat) r, s.Log w r → m.log w = r := by
  have := C85_exact lib ops
  cases hs : SState.init.run lib ops with
  | none => rw [hs] at this; simp only at this; rw [h] at this; cases this
  | some s =>
    rw [hs] at this
    obtain ⟨m', h1, -, h2⟩ := this
    rw [h] at h1
    cases h1
    exact ⟨s, rfl, h2⟩

/-- Splits a run. -/
theorem run_split {lib : Lib} {s s' : SState} {op : Op} {before after : List Op}
    (h : s.run lib (before ++ op :: after) = some s') :
    ∃ s1 s2, s.run lib before = some s1 ∧ s1.step lib op = some s2 ∧ s2.run lib after = some s' := by
  rw [SState.run_append] at h
  cases h1 : s.run lib before with
  | none => rw [h1] at h; cases h
  | some s1 =>
    rw [h1] at h
    simp only [Option.bind_some, SState.run] at h
    cases h2 : s1.step lib op with
    | none => rw [h2] at h; cases h
    | some s2 => rw [h2] at h; exact ⟨s1, s2, rfl, h2, h⟩

/-- A new wrapper looks at what it holds. -/
theorem constructed {lib : Lib} {s s' : SState} {spilled : Bool} {gs : List Given}
    (h : s.step lib (.construct spilled gs) = some s') :
    s'.cells[s.cells.length]? = some (.looks s.kept.length)
    ∧ s'.kept[s.kept.length]? = some ⟨attributesOf gs, steady lib spilled gs, some s.cells.length⟩ := by
  cases h
  simp

/-! ## What users rely on -/

/-- **C85 (a wrapper of its own).** A wrapper that is made by its constructor, and then neither moved from nor destroyed,
shows the attributes it was given, whatever happens before, and whatever other wrappers are made, copied (this one too),
moved and destroyed afterwards. -/
theorem C85_own_partial (lib : Lib) (before after : List Op) (spilled : Bool) (gs : List Given) (m : Mem)
    (hrun : Mem.init.run lib (before ++ .construct spilled gs :: after) = .ok m) (hu : Untouched (made before) after) :
    m.log (made before) = .ok (viewsOf (attributesOf gs)) := by
  obtain ⟨s, h1, h2⟩ := exact_of hrun
  obtain ⟨s1, s2, e1, e2, e3⟩ := run_split h1
  have hl := run_length lib before e1
  simp only [SState.init, List.length_nil, Nat.zero_add] at hl
  obtain ⟨c1, c2⟩ := constructed e2
  rw [hl] at c1 c2
  exact h2 _ _ (.shows (run_cell lib after e3 c1 hu) (run_kept lib after e3 c2 rfl hu) (.inl (by simp)))

/-- **C85 (copies).** A copy shows the attributes of the original as long as the original is neither moved from nor
destroyed (and the copy is not either). -/
theorem C85_copy_partial (lib : Lib) (before between after : List Op) (spilled : Bool) (gs : List Given) (m : Mem)
    (hrun : Mem.init.run lib (before ++ .construct spilled gs :: (between ++ .copy (made before) :: after)) = .ok m)
    (hb : Untouched (made before) between) (ha : Untouched (made before) after)
    (hc : Untouched (made before + 1 + made between) after) :
    m.log (made before + 1 + made between) = .ok (viewsOf (attributesOf gs)) := by
  obtain ⟨s, h1, h2⟩ := exact_of hrun
  obtain ⟨s1, s2, e1, e2, e3⟩ := run_split h1
  obtain ⟨s3, s4, e4, e5, e6⟩ := run_split e3
  have hl := run_length lib before e1
  simp only [SState.init, List.length_nil, Nat.zero_add] at hl
  have hl2 := step_length lib e2
  have hl3 := run_length lib between e4
  simp only [made] at hl2
  obtain ⟨c1, c2⟩ := constructed e2
  rw [hl] at c1 c2
  have d1 := run_cell lib between e4 c1 hb
  have d2 := run_kept lib between e4 c2 rfl hb
  have k := step_kept lib e5 d2 rfl (by simp)
  simp only [SState.step, d1, Option.some.injEq] at e5
  have hnew : s4.cells[made before + 1 + made between]? = some (.looks s1.kept.length) := by
    rw [← e5]
    have : made before + 1 + made between = s3.cells.length := by omega
    simp [this]
  exact h2 _ _ (.shows (run_cell lib after e6 hnew hc) (run_kept lib after e6 k rfl ha) (.inl (by simp)))

/-- **C85 (moves).** A wrapper that was made by moving shows the attributes of the one it was moved from, even after that
one is destroyed, if the elements of that one were on the heap or all their texts were (or were empty). -/
theorem C85_move_partial (lib : Lib) (before between after : List Op) (spilled : Bool) (gs : List Given) (m : Mem)
    (hrun : Mem.init.run lib (before ++ .construct spilled gs :: (between ++ .move (made before) :: after)) = .ok m)
    (hs : steady lib spilled gs = true) (hb : Untouched (made before) between)
    (hc : Untouched (made before + 1 + made between) after) :
    m.log (made before + 1 + made between) = .ok (viewsOf (attributesOf gs)) := by
  obtain ⟨s, h1, h2⟩ := exact_of hrun
  obtain ⟨s1, s2, e1, e2, e3⟩ := run_split h1
  obtain ⟨s3, s4, e4, e5, e6⟩ := run_split e3
  have hl := run_length lib before e1
  simp only [SState.init, List.length_nil, Nat.zero_add] at hl
  have hl2 := step_length lib e2
  have hl3 := run_length lib between e4
  simp only [made] at hl2
  obtain ⟨c1, c2⟩ := constructed e2
  rw [hl] at c1 c2
  have d1 := run_cell lib between e4 c1 hb
  have d2 := run_kept lib between e4 c2 rfl hb
  have hn : made before + 1 + made between = s3.cells.length := by omega
  simp only [SState.step, d1, Option.some.injEq] at e5
  have hnew : s4.cells[made before + 1 + made between]? = some (.looks s1.kept.length) := by
    rw [← e5]
    simp [hn]
  have k : s4.kept[s1.kept.length]? = some ⟨attributesOf gs, steady lib spilled gs, some (made before + 1 + made between)⟩ := by
    rw [← e5]
    simp [d2, Kept.moved, hs, hn]
  exact h2 _ _ (.shows (run_cell lib after e6 hnew hc) (run_kept lib after e6 k rfl hc) (.inl (by simp)))

theorem text_of_unsteady {lib : Lib} {gs : List Given} (hs : steady lib false gs = false) :
    ∃ a ∈ attributesOf gs, HasText a := by
  simp only [steady, Bool.false_or, Bool.or_eq_false_iff, List.all_eq_false] at hs
  obtain ⟨-, g, hg, h⟩ := hs
  refine ⟨(g.key, g.value), List.mem_map.2 ⟨g, hg, rfl⟩, ?_⟩
  have he : ∀ (r : Bool) (t : Str), steadyText lib r t = false → t ≠ [] := by
    rintro r t ht rfl
    simp [steadyText] at ht
  have h : steadyText lib g.roomyKey g.key = false ∨ steadyValue lib g.roomyValue g.value = false := by
    cases h1 : steadyText lib g.roomyKey g.key with
    | false => exact .inl rfl
    | true =>
      cases h2 : steadyValue lib g.roomyValue g.value with
      | false => exact .inr rfl
      | true => rw [h1, h2] at h; exact absurd rfl h
  rcases h with h | h
  · exact .inl (he _ _ h)
  · cases hv : g.value with
    | string t => rw [hv] at h; exact .inr (.inl ⟨t, rfl, he _ _ h⟩)
    | function i => exact .inr (.inr ⟨i, rfl⟩)
    | _ => rw [hv] at h; cases h

/-! ## Where the code fails -/

/-- **C85 fails: copies.** Whatever attributes with a name a wrapper is given, and whatever the library: once the original
is destroyed, a log call through its copy is undefined behaviour. -/
theorem C85_fails_copy (lib : Lib) (spilled : Bool) (gs : List Given) (ht : ∃ g ∈ gs, g.key ≠ []) :
    ∃ m, Mem.init.run lib [.construct spilled gs, .copy 0, .destroy 0] = .ok m ∧ m.log 1 = .error .dangling := by
  have h := C85_exact lib [.construct spilled gs, .copy 0, .destroy 0]
  obtain ⟨m, h1, -, h2⟩ := h
  refine ⟨m, h1, h2 1 _ (.lost (t := 0) (k := ⟨attributesOf gs, steady lib spilled gs, none⟩) rfl rfl rfl ?_)⟩
  obtain ⟨g, hg, hk⟩ := ht
  exact ⟨(g.key, g.value), List.mem_map.2 ⟨g, hg, rfl⟩, .inl hk⟩

/-- **C85 fails: copies of originals that are moved.** The same, when the original is moved and it has short texts inside. -/
theorem C85_fails_copy_moved (lib : Lib) (gs : List Given) (hs : steady lib false gs = false) :
    ∃ m, Mem.init.run lib [.construct false gs, .copy 0, .move 0] = .ok m ∧ m.log 1 = .error .dangling := by
  have h := C85_exact lib [.construct false gs, .copy 0, .move 0]
  obtain ⟨m, h1, -, h2⟩ := h
  refine ⟨m, h1, h2 1 _ (.lost (t := 0) (k := ⟨attributesOf gs, steady lib false gs, none⟩) rfl ?_ rfl ?_)⟩
  · simp [SState.init, Kept.moved, hs]
  · exact text_of_unsteady hs

/-- **C85 fails: moves.** With `small_vector`, up to `room` attributes, and a name that is not empty and short enough to
be kept inside its string: a log call through a wrapper that was moved is undefined behaviour, at once. -/
theorem C85_fails_move (lib : Lib) (gs : List Given) (hlen : gs.length ≤ lib.room)
    (hk : ∃ g ∈ gs, g.key ≠ [] ∧ g.key.length ≤ lib.sso ∧ g.roomyKey = false) :
    ∃ m, Mem.init.run lib [.construct false gs, .move 0] = .ok m ∧ m.log 1 = .error .dangling := by
  have hs : steady lib false gs = false := by
    obtain ⟨g, hg, h1, h2, h3⟩ := hk
    simp only [steady, Bool.false_or, Bool.or_eq_false_iff, decide_eq_false_iff_not, List.all_eq_false]
    refine ⟨by omega, g, hg, ?_⟩
    have : g.key.isEmpty = false := by simpa using h1
    simp [steadyText, this, h3, Nat.not_lt.2 h2]
  have h := C85_exact lib [.construct false gs, .move 0]
  obtain ⟨m, h1, -, h2⟩ := h
  refine ⟨m, h1, h2 1 _ (.lost (t := 0) (k := ⟨attributesOf gs, steady lib false gs, none⟩) rfl ?_ rfl ?_)⟩
  · simp [SState.init, Kept.moved, hs]
  · exact text_of_unsteady hs

/-! ## Examples -/

/-- `{"host", "h1"}` and `{"id", 42}`: both names fit into a string. -/
def sample : List Given := [⟨"host".toList, .string "h1".toList, false, false⟩, ⟨"id".toList, .sint 42, false, false⟩]

/-- The usual library: strings with 15 bytes inside, `small_vector<…, 16>`. -/
def usual : Lib := ⟨15, 16⟩

/-- With `std::vector`. -/
def vectors : Lib := ⟨15, 0⟩

/-- A name with 16 bytes. -/
def longs : List Given := [⟨"request_identity".toList, .uint 7, false, false⟩]

/-- `C85_own_partial`: there is another one before, and a copy of it is made and destroyed, and it is copied itself. -/
example : ∃ m, Mem.init.run usual ([.construct false longs] ++ .construct false sample :: [.copy 0, .copy 1, .destroy 0, .move 2]) = .ok m
    ∧ Untouched (made [.construct false longs]) [.copy 0, .copy 1, .destroy 0, .move 2]
    ∧ m.log 1 = .ok (viewsOf (attributesOf sample)) := by
  have hu : Untouched (made [.construct false longs]) [.copy 0, .copy 1, .destroy 0, .move 2] := by
    intro op hop
    simp [made] at hop ⊢
    rcases hop with rfl | rfl | rfl | rfl <;> simp
  obtain ⟨m, h1, -, h2⟩ := C85_exact usual ([.construct false longs] ++ .construct false sample :: [.copy 0, .copy 1, .destroy 0, .move 2])
  exact ⟨m, h1, hu, C85_own_partial usual [.construct false longs] _ false sample m h1 hu⟩

/-- `C85_copy_partial`: in a function, a copy of a wrapper that outlives it. -/
example : ∃ m, Mem.init.run usual ([] ++ .construct false sample :: ([] ++ .copy (made []) :: [])) = .ok m
    ∧ m.log 1 = .ok (viewsOf (attributesOf sample)) := by
  obtain ⟨m, h1, -, h2⟩ := C85_exact usual ([] ++ .construct false sample :: ([] ++ .copy (made []) :: []))
  exact ⟨m, h1, C85_copy_partial usual [] [] [] false sample m h1 (by simp [Untouched]) (by simp [Untouched]) (by simp [Untouched])⟩

/-- `C85_move_partial`: with long names; a wrapper is returned from a function, whose own one is then destroyed. -/
example : ∃ m, Mem.init.run usual ([] ++ .construct false longs :: ([] ++ .move (made []) :: [.destroy 0])) = .ok m
    ∧ steady usual false longs = true ∧ m.log 1 = .ok (viewsOf (attributesOf longs)) := by
  obtain ⟨m, h1, -, h2⟩ := C85_exact usual ([] ++ .construct false longs :: ([] ++ .move (made []) :: [.destroy 0]))
  exact ⟨m, h1, rfl, C85_move_partial usual [] [] [.destroy 0] false longs m h1 rfl (by simp [Untouched]) (by simp [Untouched, made])⟩

/-- The same with `std::vector`, for the short names. -/
example : ∃ m, Mem.init.run vectors ([] ++ .construct false sample :: ([] ++ .move (made []) :: [.destroy 0])) = .ok m
    ∧ steady vectors false sample = true ∧ m.log 1 = .ok (viewsOf (attributesOf sample)) := by
  obtain ⟨m, h1, -, h2⟩ := C85_exact vectors ([] ++ .construct false sample :: ([] ++ .move (made []) :: [.destroy 0]))
  exact ⟨m, h1, rfl, C85_move_partial vectors [] [] [.destroy 0] false sample m h1 rfl (by simp [Untouched]) (by simp [Untouched, made])⟩

/-- `C85_fails_copy`, `C85_fails_move` and `C85_fails_copy_moved` for the usual library and short names. -/
example : (∃ g ∈ sample, g.key ≠ []) ∧ sample.length ≤ usual.room
    ∧ (∃ g ∈ sample, g.key ≠ [] ∧ g.key.length ≤ usual.sso ∧ g.roomyKey = false) ∧ steady usual false sample = false := by
  decide

/-- The model itself, on a copy that is used while the original exists, and afterwards. -/
example : (match Mem.init.run usual [.construct false sample, .copy 0] with | .ok m => m.log 1 | .error u => .error u)
      = .ok [("host".toList, .string "h1".toList), ("id".toList, .sint 42)]
    ∧ (match Mem.init.run usual [.construct false sample, .copy 0, .destroy 0] with | .ok m => m.log 1 | .error u => .error u)
      = .error .dangling := by
  constructor <;> rfl

/-- Wrappers can be passed on and on; the one that was moved from can be copied, moved and destroyed. -/
example : ∃ m, Mem.init.run usual [.construct false longs, .move 0, .copy 0, .move 0, .move 1, .destroy 0] = .ok m
    ∧ m.log 4 = .ok (viewsOf (attributesOf longs)) := by
  obtain ⟨m, h1, -, h2⟩ := C85_exact usual [.construct false longs, .move 0, .copy 0, .move 0, .move 1, .destroy 0]
  exact ⟨m, h1, h2 4 _ (.shows (t := 0) (k := ⟨attributesOf longs, true, some 4⟩) rfl rfl (.inl (by simp)))⟩

/-- Undefined behaviour: using a wrapper after it was destroyed. -/
example : Mem.init.run usual [.construct false longs, .destroy 0, .copy 0] = .error .dangling :=
  C85_exact usual [.construct false longs, .destroy 0, .copy 0]

end Blackhole.Wrapper
