import Verif.RegLife.Spec

/-! # Lemmas on owners and on calls -/

namespace Blackhole.RegLife

open Config (Node Json)
open Registry (Kind Error)

/-! ## Worlds as ideal states -/

def World.makeOf (w : World) (f : Nat) : Option Make := w.factories[f]?.map (·.make)

def World.ownersOf (w : World) (f : Nat) : Nat := (w.factories[f]?.map (·.owners)).getD 0

def World.table (w : World) (m : Map Nat) : Table := fun kind type => (RegLife.find (kind, type) m).bind w.makeOf

def World.ideal (w : World) : Ideal where
  regs := w.regs.map fun m => m.map w.table
  funs := w.funs.map fun f => f.bind w.makeOf
  builders := w.builders

def count (m : Map Nat) (f : Nat) : Nat := (m.filter fun e => e.2 = f).length

/-- The number of owners is right. -/
def Inv (w : World) : Prop := ∀ f, w.ownersOf f = holders w f

theorem makeOf_share (w : World) (f g : Nat) : (w.share f).makeOf g = w.makeOf g := by
  simp only [World.makeOf, World.share, List.getElem?_modify]
  split <;> cases w.factories[g]? <;> rfl

theorem makeOf_release (w : World) (f g : Nat) : (w.release f).makeOf g = w.makeOf g := by
  simp only [World.makeOf, World.release, List.getElem?_modify]
  split <;> cases w.factories[g]? <;> rfl

theorem ownersOf_share (w : World) (f g : Nat) (hf : f < w.factories.length) :
    (w.share f).ownersOf g = w.ownersOf g + if f = g then 1 else 0 := by
  simp only [World.ownersOf, World.share, List.getElem?_modify]
  by_cases h : f = g
  · subst h; simp [List.getElem?_eq_getElem hf]
  · simp [h]

theorem ownersOf_release (w : World) (f g : Nat) :
    (w.release f).ownersOf g = w.ownersOf g - if f = g then 1 else 0 := by
  simp only [World.ownersOf, World.release, List.getElem?_modify]
  by_cases h : f = g
  · subst h; cases w.factories[f]? <;> simp
  · simp [h]

theorem releaseAll (m : Map Nat) (w : World) :
    (∀ g, (m.foldl (fun w e => w.release e.2) w).ownersOf g = w.ownersOf g - count m g)
    ∧ (∀ g, (m.foldl (fun w e => w.release e.2) w).makeOf g = w.makeOf g)
    ∧ (m.foldl (fun w e => w.release e.2) w).regs = w.regs ∧ (m.foldl (fun w e => w.release e.2) w).funs = w.funs
    ∧ (m.foldl (fun w e => w.release e.2) w).builders = w.builders := by
  induction m generalizing w with
  | nil => exact ⟨fun _ => rfl, fun _ => rfl, rfl, rfl, rfl⟩
  | cons e m ih =>
    obtain ⟨h1, h2, h3, h4, h5⟩ := ih (w.release e.2)
    refine ⟨?_, ?_, h3, h4, h5⟩
    · intro g
      rw [List.foldl_cons, h1, ownersOf_release]
      simp only [count, List.filter_cons]
      by_cases h : e.2 = g <;> simp [h] <;> omega
    · intro g
      rw [List.foldl_cons, h2, makeOf_release]

theorem count_put (key : Kind × Str) (v : Nat) (m : Map Nat) (f : Nat) :
    count (put key v m) f + (if find key m = some f then 1 else 0) = count m f + if v = f then 1 else 0 := by
  induction m with
  | nil => by_cases h : v = f <;> simp [put, find, count, h]
  | cons e m ih =>
    by_cases hk : e.1 = key
    · simp only [put, find, if_pos hk, count, List.filter_cons, Option.some.injEq]
      by_cases h1 : v = f <;> by_cases h2 : e.2 = f <;> simp [h1, h2]
    · simp only [put, find, if_neg hk, count, List.filter_cons] at ih ⊢
      by_cases h2 : e.2 = f <;> simp [h2] <;> omega

theorem find_put {α : Type} (key k : Kind × Str) (v : α) (m : Map α) :
    find k (put key v m) = if k = key then some v else find k m := by
  induction m with
  | nil => by_cases h : k = key <;> simp [put, find, h, eq_comm (a := key)]
  | cons e m ih =>
    by_cases hk : e.1 = key
    · by_cases h : k = key
      · simp [put, find, hk, h]
      · simp [put, find, hk, h, Ne.symm h]
    · by_cases h : e.1 = k
      · have : k ≠ key := fun e' => hk (h.trans e')
        simp [put, find, h, this]
      · simp only [put, find, if_neg hk, if_neg h, ih]

theorem find_count {key : Kind × Str} {m : Map Nat} {f : Nat} (h : find key m = some f) : 0 < count m f := by
  induction m with
  | nil => cases h
  | cons e m ih =>
    simp only [find] at h
    simp only [count, List.filter_cons]
    split at h
    · cases h; simp
    · have := ih h
      simp only [count] at this
      split
      · simp
      · exact this

theorem sum_set {α : Type} (g : α → Nat) (l : List α) (r : Nat) (a b : α) (h : l[r]? = some a) :
    ((l.set r b).map g).sum + g a = (l.map g).sum + g b := by
  induction l generalizing r with
  | nil => simp at h
  | cons x l ih =>
    cases r with
    | zero => simp at h; subst h; simp; omega
    | succ r =>
      simp only [List.getElem?_cons_succ] at h
      have := ih r h
      simp only [List.set_cons_succ, List.map_cons, List.sum_cons]
      omega

theorem filter_set {α : Type} [DecidableEq α] (l : List α) (r : Nat) (a b c : α) (h : l[r]? = some a) :
    ((l.set r b).filter (· = c)).length + (if a = c then 1 else 0)
      = (l.filter (· = c)).length + if b = c then 1 else 0 := by
  induction l generalizing r with
  | nil => simp at h
  | cons x l ih =>
    cases r with
    | zero =>
      simp at h; subst h
      simp only [List.set_cons_zero, List.filter_cons]
      by_cases h1 : x = c <;> by_cases h2 : b = c <;> simp [h1, h2]
    | succ r =>
      simp only [List.getElem?_cons_succ] at h
      have := ih r h
      simp only [List.set_cons_succ, List.filter_cons]
      by_cases h1 : x = c <;> simp [h1] <;> omega

theorem sum_ge {α : Type} (g : α → Nat) (l : List α) (r : Nat) (a : α) (h : l[r]? = some a) : g a ≤ (l.map g).sum := by
  have := sum_set g l r a a h
  induction l generalizing r with
  | nil => simp at h
  | cons x l ih =>
    cases r with
    | zero => simp at h; subst h; simp
    | succ r =>
      simp only [List.getElem?_cons_succ] at h
      have := ih r h (sum_set g l r a a h)
      simp only [List.map_cons, List.sum_cons]
      omega

theorem filter_ge {α : Type} [DecidableEq α] (l : List α) (r : Nat) (a : α) (h : l[r]? = some a) :
    0 < (l.filter (· = a)).length :=
  List.length_pos_of_mem (List.mem_filter.mpr ⟨List.mem_of_getElem? h, by simp⟩)

theorem holders_eq (w : World) (f : Nat) :
    holders w f = (w.regs.map fun m => count (m.getD []) f).sum + (w.funs.filter (· = some f)).length := rfl

theorem owned_range {w : World} {f : Nat} (h : 0 < w.ownersOf f) : f < w.factories.length := by
  apply Classical.byContradiction
  intro hf
  simp [World.ownersOf, List.getElem?_eq_none (Nat.le_of_not_lt hf)] at h

theorem make_owned {w : World} {f : Nat} (h : 0 < w.ownersOf f) (n : Node) :
    ∃ make, w.makeOf f = some make ∧ w.make f n = .ok (make n) := by
  have hf := owned_range h
  simp only [World.ownersOf, List.getElem?_eq_getElem hf, Option.map_some, Option.getD_some] at h
  refine ⟨w.factories[f].make, by simp [World.makeOf, List.getElem?_eq_getElem hf], ?_⟩
  simp only [World.make, List.getElem?_eq_getElem hf]
  rw [if_neg (by omega)]

theorem fun_owned {w : World} (hi : Inv w) {i f : Nat} (h : w.funs[i]? = some (some f)) : 0 < w.ownersOf f := by
  rw [hi, holders_eq]
  have := filter_ge w.funs i _ h
  omega

theorem reg_owned {w : World} (hi : Inv w) {r f : Nat} {m : Map Nat} {key : Kind × Str} (h : w.regs[r]? = some (some m))
    (hf : find key m = some f) : 0 < w.ownersOf f := by
  rw [hi, holders_eq]
  have h1 := sum_ge (fun m : Option (Map Nat) => count (m.getD []) f) w.regs r _ h
  have h2 := find_count hf
  simp only [Option.getD_some] at h1
  omega

/-! ## Calls -/

theorem ideal_has {w : World} {r : Nat} {m : Map Nat} (h : w.regs[r]? = some (some m)) : w.ideal.Has r (w.table m) := by
  simp [Ideal.Has, World.ideal, h]

theorem ideal_dead {w : World} {r : Nat} (h : ∀ m, w.regs[r]? ≠ some (some m)) : ¬ w.ideal.Alive r := by
  rintro ⟨t, ht⟩
  simp only [Ideal.Has, World.ideal, List.getElem?_map, Option.map_eq_some_iff] at ht
  obtain ⟨m, h1, m', rfl, h3⟩ := ht
  exact h m' h1

/-- What an outcome says. -/
def Says (i : Ideal) (s : Script) : Outcome → Prop
  | .ok v => Ends i s (.ok v)
  | .thrown e => Ends i s (.error e)
  | .ub u => u = .dangling ∧ Dangles i s
  | .more => True

theorem run_says {w : World} (hi : Inv w) (fuel : Nat) (s : Script) : Says w.ideal s (w.run fuel s) := by
  induction fuel generalizing s with
  | zero =>
    cases s with
    | done r => cases r <;> exact .done _
    | ask => exact trivial
  | succ fuel ih =>
    cases s with
    | done r => cases r <;> exact .done _
    | ask r kind type n k =>
      simp only [World.run, World.find]
      match hr : w.regs[r]? with
      | none => exact ⟨rfl, .dead (ideal_dead (by rw [hr]; simp))⟩
      | some none => exact ⟨rfl, .dead (ideal_dead (by rw [hr]; simp))⟩
      | some (some m) =>
        simp only
        have hh := ideal_has hr
        match hf : find (kind, type) m with
        | none =>
          have ht : w.table m kind type = none := by simp [World.table, hf]
          simp only
          have := ih (k (.error (.notRegistered kind type)))
          revert this
          cases w.run fuel (k (.error (.notRegistered kind type))) with
          | ok v => exact .missing hh ht
          | thrown e => exact .missing hh ht
          | ub u => exact fun h => ⟨h.1, .missing hh ht h.2⟩
          | more => exact id
        | some f =>
          obtain ⟨make, h1, h2⟩ := make_owned (reg_owned hi hr hf) n
          have ht : w.table m kind type = some make := by simp [World.table, hf, h1]
          simp only [h2]
          have hm := ih (make n)
          revert hm
          cases w.run fuel (make n) with
          | more => exact fun _ => trivial
          | ub u => exact fun h => ⟨h.1, .inside hh ht h.2⟩
          | ok v =>
            intro hv
            have := ih (k (.ok v))
            revert this
            simp only
            cases w.run fuel (k (.ok v)) with
            | ok _ => exact .calls hh ht hv
            | thrown _ => exact .calls hh ht hv
            | ub u => exact fun h => ⟨h.1, .later hh ht hv h.2⟩
            | more => exact id
          | thrown e =>
            intro hv
            have := ih (k (.error e))
            revert this
            simp only
            cases w.run fuel (k (.error e)) with
            | ok _ => exact .calls hh ht hv
            | thrown _ => exact .calls hh ht hv
            | ub u => exact fun h => ⟨h.1, .later hh ht hv h.2⟩
            | more => exact id

/-! ## More steps change nothing but what took too long, and some number of steps is enough -/

def ofExcept : Except Error Comp → Outcome
  | .ok v => .ok v
  | .error e => .thrown e

theorem has_world {w : World} {r : Nat} {t : Table} (h : w.ideal.Has r t) :
    ∃ m, w.regs[r]? = some (some m) ∧ t = w.table m := by
  simp only [Ideal.Has, World.ideal, List.getElem?_map, Option.map_eq_some_iff] at h
  obtain ⟨_, h1, m, rfl, h3⟩ := h
  exact ⟨m, h1, h3.symm⟩

theorem run_ends {i : Ideal} {s : Script} {res : Except Error Comp} (h : Ends i s res) :
    ∃ fuel0, ∀ w : World, Inv w → w.ideal = i → ∀ fuel, fuel0 ≤ fuel → w.run fuel s = ofExcept res := by
  induction h with
  | done r => exact ⟨0, fun w _ _ fuel _ => by cases r <;> cases fuel <;> rfl⟩
  | missing hh ht _ ih =>
    obtain ⟨f0, ih⟩ := ih
    refine ⟨f0 + 1, ?_⟩
    rintro w hi rfl fuel hf
    obtain ⟨m, hr, rfl⟩ := has_world hh
    match fuel with
    | 0 => omega
    | fuel + 1 =>
      simp only [World.run, World.find, hr]
      simp only [World.table] at ht
      split
      · next h => cases h
      · exact ih w hi rfl fuel (by omega)
      · next f h =>
        injection h with h
        obtain ⟨make, h1, _⟩ := make_owned (reg_owned hi hr h) ⟨.null, []⟩
        rw [h, Option.bind_some, h1] at ht
        cases ht
  | @calls r t kind type n k make v res hh ht _ _ ih1 ih2 =>
    obtain ⟨f1, ih1⟩ := ih1
    obtain ⟨f2, ih2⟩ := ih2
    refine ⟨f1 + f2 + 1, ?_⟩
    rintro w hi rfl fuel hf
    obtain ⟨m, hr, rfl⟩ := has_world hh
    match fuel with
    | 0 => omega
    | fuel + 1 =>
      simp only [World.table, Option.bind_eq_some_iff] at ht
      obtain ⟨f, h1, h2⟩ := ht
      obtain ⟨make', h3, h4⟩ := make_owned (reg_owned hi hr h1) n
      rw [h2] at h3
      cases h3
      simp only [World.run, World.find, hr, h1, h4, ih1 w hi rfl fuel (by omega)]
      cases v with
      | ok v => exact ih2 w hi rfl fuel (by omega)
      | error e => exact ih2 w hi rfl fuel (by omega)

theorem run_dangles {w : World} (hi : Inv w) {s : Script} (h : Dangles w.ideal s) :
    ∃ fuel0, ∀ fuel, fuel0 ≤ fuel → w.run fuel s = .ub .dangling := by
  induction h with
  | @dead r kind type n k hd =>
    refine ⟨1, ?_⟩
    intro fuel hf
    match fuel with
    | 0 => omega
    | fuel + 1 =>
      have : w.find r kind type = .error .dangling := by
        unfold World.find
        split
        · next m h => exact absurd ⟨_, ideal_has h⟩ hd
        · rfl
      simp only [World.run, this]
  | @inside r t kind type n k make hh ht _ ih =>
    obtain ⟨f1, ih⟩ := ih
    obtain ⟨m, hr, rfl⟩ := has_world hh
    refine ⟨f1 + 1, ?_⟩
    intro fuel hf
    match fuel with
    | 0 => omega
    | fuel + 1 =>
      simp only [World.table, Option.bind_eq_some_iff] at ht
      obtain ⟨f, h1, h2⟩ := ht
      obtain ⟨make', h3, h4⟩ := make_owned (reg_owned hi hr h1) n
      rw [h2] at h3
      cases h3
      simp only [World.run, World.find, hr, h1, h4, ih fuel (by omega)]
  | missing hh ht _ ih =>
    obtain ⟨f0, ih⟩ := ih
    obtain ⟨m, hr, rfl⟩ := has_world hh
    refine ⟨f0 + 1, ?_⟩
    intro fuel hf
    match fuel with
    | 0 => omega
    | fuel + 1 =>
      simp only [World.run, World.find, hr]
      simp only [World.table] at ht
      split
      · next h => cases h
      · exact ih fuel (by omega)
      · next f h =>
        injection h with h
        obtain ⟨make, h1, _⟩ := make_owned (reg_owned hi hr h) ⟨.null, []⟩
        rw [h, Option.bind_some, h1] at ht
        cases ht
  | @later r t kind type n k make v hh ht hv _ ih =>
    obtain ⟨f1, ih1⟩ := run_ends hv
    have ih1 := ih1 w hi rfl
    obtain ⟨f2, ih2⟩ := ih
    obtain ⟨m, hr, rfl⟩ := has_world hh
    refine ⟨f1 + f2 + 1, ?_⟩
    intro fuel hf
    match fuel with
    | 0 => omega
    | fuel + 1 =>
      simp only [World.table, Option.bind_eq_some_iff] at ht
      obtain ⟨f, h1, h2⟩ := ht
      obtain ⟨make', h3, h4⟩ := make_owned (reg_owned hi hr h1) n
      rw [h2] at h3
      cases h3
      simp only [World.run, World.find, hr, h1, h4, ih1 fuel (by omega)]
      cases v with
      | ok v => exact ih2 fuel (by omega)
      | error e => exact ih2 fuel (by omega)

/-! ## Operations -/

theorem ideal_congr {w w' : World} (hm : ∀ f, w'.makeOf f = w.makeOf f) :
    (∀ m, w'.table m = w.table m) ∧ ∀ f : Option Nat, f.bind w'.makeOf = f.bind w.makeOf := by
  have e : w'.makeOf = w.makeOf := funext hm
  exact ⟨fun m => by funext k t; simp only [World.table, e], fun f => by rw [e]⟩

theorem inv_new_fun {w : World} (hi : Inv w) {f : Nat} (h : 0 < w.ownersOf f) :
    Inv { w.share f with funs := w.funs ++ [some f] }
    ∧ World.ideal { w.share f with funs := w.funs ++ [some f] } = { w.ideal with funs := w.ideal.funs ++ [w.makeOf f] } := by
  constructor
  · intro g
    have h1 := ownersOf_share w f g (owned_range h)
    have h2 := hi g
    have h3 : World.ownersOf { w.share f with funs := w.funs ++ [some f] } g = (w.share f).ownersOf g := rfl
    rw [h3, h1, h2, holders_eq, holders_eq]
    simp only [List.filter_append, List.length_append, List.filter_cons, List.filter_nil, Option.some.injEq,
      decide_eq_true_eq]
    have h4 : (w.share f).regs = w.regs := rfl
    rw [h4]
    by_cases hg : f = g <;> simp [hg] <;> omega
  · obtain ⟨h1, h2⟩ := ideal_congr (w := w) (w' := { w.share f with funs := w.funs ++ [some f] }) (makeOf_share w f)
    simp only [World.ideal, Ideal.mk.injEq]
    refine ⟨List.map_congr_left fun m _ => ?_, ?_, rfl⟩
    · cases m <;> simp [h1]
    · simp only [List.map_append, List.map_cons, List.map_nil, h2, Option.bind_some]

theorem map_set {α β : Type} (g : α → β) (l : List α) (i : Nat) (a : α) : (l.set i a).map g = (l.map g).set i (g a) := by
  simp

theorem step_destroy {w : World} (hi : Inv w) {r : Nat} {m : Map Nat} (h : w.regs[r]? = some (some m)) :
    Inv { m.foldl (fun w e => w.release e.2) w with regs := w.regs.set r none }
    ∧ World.ideal { m.foldl (fun w e => w.release e.2) w with regs := w.regs.set r none } = w.ideal.next (.destroy r) := by
  obtain ⟨h1, h2, h3, h4, h5⟩ := releaseAll m w
  generalize m.foldl (fun w e => w.release e.2) w = w1 at h1 h2 h3 h4 h5
  constructor
  · intro g
    have e : World.ownersOf { w1 with regs := w.regs.set r none } g = w1.ownersOf g := rfl
    rw [e, h1, hi, holders_eq, holders_eq]
    have := sum_set (fun m : Option (Map Nat) => count (m.getD []) g) w.regs r _ none h
    simp only [Option.getD_some, Option.getD_none] at this
    have e0 : count [] g = 0 := rfl
    rw [e0] at this
    simp only [h4]
    omega
  · obtain ⟨c1, c2⟩ := ideal_congr (w := w) (w' := { w1 with regs := w.regs.set r none }) h2
    simp only [World.ideal, Ideal.next, Ideal.mk.injEq, map_set, Option.map_none]
    refine ⟨?_, ?_, h5⟩
    · congr 1
      exact List.map_congr_left fun m _ => by cases m <;> simp [c1]
    · rw [h4]
      exact List.map_congr_left fun f _ => c2 f

theorem step_drop {w : World} (hi : Inv w) {i f : Nat} (h : w.funs[i]? = some (some f)) :
    Inv { w.release f with funs := w.funs.set i none }
    ∧ World.ideal { w.release f with funs := w.funs.set i none } = w.ideal.next (.drop i) := by
  constructor
  · intro g
    have e : World.ownersOf { w.release f with funs := w.funs.set i none } g = (w.release f).ownersOf g := rfl
    have hr : (w.release f).regs = w.regs := rfl
    rw [e, ownersOf_release, hi, holders_eq, holders_eq]
    have := filter_set w.funs i _ none (some g) h
    simp only [Option.some.injEq, reduceCtorEq, if_false] at this
    simp only [hr]
    split at this <;> split <;> omega
  · obtain ⟨c1, c2⟩ := ideal_congr (w := w) (w' := { w.release f with funs := w.funs.set i none }) (makeOf_release w f)
    simp only [World.ideal, Ideal.next, Ideal.mk.injEq, c2, map_set, Option.bind_none, true_and]
    exact ⟨List.map_congr_left fun m _ => by cases m <;> simp [c1], rfl⟩

theorem add_ideal {w : World} (hi : Inv w) {r : Nat} {m : Map Nat} (h : w.regs[r]? = some (some m)) (kind : Kind)
    (type : Str) (make : Make) (w' : World)
    (hm : ∀ f, w'.makeOf f = if f = w.factories.length then some make else w.makeOf f)
    (hr : w'.regs = w.regs.set r (some (put (kind, type) w.factories.length m))) (hf : w'.funs = w.funs)
    (hb : w'.builders = w.builders) : w'.ideal = w.ideal.next (.add r kind type make) := by
  have old : ∀ f, 0 < w.ownersOf f → w'.makeOf f = w.makeOf f := by
    intro f h0
    rw [hm, if_neg (by have := owned_range h0; omega)]
  have tab : ∀ (r' : Nat) (m' : Map Nat), w.regs[r']? = some (some m') → w'.table m' = w.table m' := by
    intro r' m' h'
    funext k t
    simp only [World.table]
    cases hf' : RegLife.find (k, t) m' with
    | none => rfl
    | some f => exact old f (reg_owned hi h' hf')
  simp only [World.ideal, Ideal.next, hr, hf, hb, Ideal.mk.injEq, and_true]
  constructor
  · apply List.ext_getElem?
    intro j
    simp only [List.getElem?_map, List.getElem?_set, List.getElem?_modify]
    by_cases hj : r = j
    · subst hj
      have hlt : r < w.regs.length := by
        rw [List.getElem?_eq_some_iff] at h; exact h.1
      simp only [if_true, if_pos hlt, h, Option.map_some]
      refine congrArg (fun t => some (some t)) ?_
      funext k t
      simp only [World.table, find_put]
      by_cases hk : (k, t) = (kind, type)
      · simp only [hk, if_true, Option.bind_some, hm]
      · simp only [hk, if_false]
        exact congrFun (congrFun (tab r m h) k) t
    · simp only [if_neg hj]
      match hm' : w.regs[j]? with
      | none => rfl
      | some none => rfl
      | some (some m') => simp [tab j m' hm']
  · apply List.map_congr_left
    intro f hf'
    cases f with
    | none => rfl
    | some f =>
      obtain ⟨j, hj, e⟩ := List.getElem_of_mem hf'
      exact old f (fun_owned hi (i := j) (by rw [List.getElem?_eq_getElem hj, e]))

theorem step_add {w : World} (hi : Inv w) {r : Nat} {m : Map Nat} (h : w.regs[r]? = some (some m)) (kind : Kind)
    (type : Str) (make : Make) {fuel : Nat} {w' : World} {res : Res} (hs : step fuel w (.add r kind type make) = .ok (w', res)) :
    Inv w' ∧ w'.ideal = w.ideal.next (.add r kind type make) ∧ res = .unit := by
  have hnew : ∀ f, f = w.factories.length → holders w f = 0 := by
    rintro f rfl
    rw [← hi]
    simp [World.ownersOf]
  generalize hw1 : ({ w with
    factories := w.factories ++ [⟨1, make⟩],
    regs := w.regs.set r (some (put (kind, type) w.factories.length m)) } : World) = w1
  have hmk : ∀ f, w1.makeOf f = if f = w.factories.length then some make else w.makeOf f := by
    intro f
    subst hw1
    simp only [World.makeOf]
    by_cases hf : f = w.factories.length
    · simp [hf]
    · rw [if_neg hf]
      by_cases hlt : f < w.factories.length
      · rw [List.getElem?_append_left hlt]
      · rw [List.getElem?_eq_none (by simp; omega), List.getElem?_eq_none (by omega)]
  have how : ∀ f, w1.ownersOf f = w.ownersOf f + if w.factories.length = f then 1 else 0 := by
    intro f
    subst hw1
    simp only [World.ownersOf]
    by_cases hf : w.factories.length = f
    · subst hf; simp
    · rw [if_neg hf]
      by_cases hlt : f < w.factories.length
      · rw [List.getElem?_append_left hlt]; rfl
      · rw [List.getElem?_eq_none (by simp; omega), List.getElem?_eq_none (by omega)]; rfl
  have hreg : w1.regs = w.regs.set r (some (put (kind, type) w.factories.length m)) := by subst hw1; rfl
  have hfun : w1.funs = w.funs := by subst hw1; rfl
  have hbui : w1.builders = w.builders := by subst hw1; rfl
  have hho : ∀ f, holders w1 f + (if RegLife.find (kind, type) m = some f then 1 else 0)
      = holders w f + if w.factories.length = f then 1 else 0 := by
    intro f
    rw [holders_eq, holders_eq, hreg, hfun]
    have h1 := sum_set (fun m : Option (Map Nat) => count (m.getD []) f) w.regs r _
      (some (put (kind, type) w.factories.length m)) h
    have h2 := count_put (kind, type) w.factories.length m f
    simp only [Option.getD_some] at h1
    omega
  simp only [step, h, hw1] at hs
  cases hf : RegLife.find (kind, type) m with
  | none =>
    simp only [hf] at hs hho
    injection hs with hs
    injection hs with e1 e2
    subst e1 e2
    refine ⟨?_, add_ideal hi h kind type make _ hmk hreg hfun hbui, rfl⟩
    intro f
    have := hho f
    have := hi f
    rw [how]
    simp at *
    omega
  | some old =>
    simp only [hf] at hs hho
    injection hs with hs
    injection hs with e1 e2
    subst e1 e2
    refine ⟨?_, add_ideal hi h kind type make (w1.release old) (fun f => by rw [makeOf_release, hmk]) hreg hfun hbui, rfl⟩
    intro f
    have h1 := hho f
    have h2 := hi f
    have h3 : holders (w1.release old) f = holders w1 f := rfl
    rw [ownersOf_release, how, h2, h3]
    simp only [Option.some.injEq] at h1
    split at h1 <;> simp_all <;> omega

/-- What one operation comes to. -/
@[reducible] def StepOk (w : World) (op : Op) : Except UB (World × Res) → Prop
  | .ok (w', r) => Inv w' ∧ w'.ideal = w.ideal.next op ∧ Sees w.ideal op r
  | .error u => u = .dangling ∧ ¬ Fine w.ideal op

/-- One operation: defined unless it uses something that is gone. -/
theorem step_spec {w : World} (hi : Inv w) (fuel : Nat) (op : Op) : StepOk w op (step fuel w op) := by
  have funIdeal : ∀ i : Nat, w.ideal.funs[i]? = w.funs[i]?.map fun f : Option Nat => f.bind w.makeOf := by
    intro i; simp [World.ideal]
  cases op with
  | create =>
    refine ⟨?_, ?_, .create⟩
    · intro f
      have e : World.ownersOf { w with regs := w.regs ++ [some []] } f = w.ownersOf f := rfl
      rw [e, hi, holders_eq, holders_eq]
      simp [count]
    · have e : ∀ m, World.table { w with regs := w.regs ++ [some []] } m = w.table m := fun _ => rfl
      simp only [World.ideal, Ideal.next, List.map_append, List.map_cons, List.map_nil, Option.map_some, Ideal.mk.injEq,
        and_true]
      exact ⟨rfl, rfl⟩
  | destroy r =>
    simp only [step]
    split
    · next m h =>
      obtain ⟨h1, h2⟩ := step_destroy hi h
      exact ⟨h1, h2, .destroy⟩
    · next h => exact ⟨rfl, fun hf => by cases hf with | destroy ha => exact ideal_dead h ha⟩
  | add r kind type make =>
    cases hs : step fuel w (.add r kind type make) with
    | ok x =>
      obtain ⟨w', res⟩ := x
      have hx := hs
      simp only [step] at hx
      split at hx
      · next m h =>
        obtain ⟨h1, h2, rfl⟩ := step_add hi h kind type make hs
        exact ⟨h1, h2, .add⟩
      · cases hx
    | error u =>
      simp only [step] at hs
      split at hs
      · split at hs <;> cases hs
      · next h =>
        cases hs
        exact ⟨rfl, fun hf => by cases hf with | add ha => exact ideal_dead h ha⟩
  | find r kind type =>
    simp only [step, World.find]
    match hr : w.regs[r]? with
    | none => exact ⟨rfl, fun hf => by cases hf with | find ha => exact ideal_dead (by rw [hr]; simp) ha⟩
    | some none => exact ⟨rfl, fun hf => by cases hf with | find ha => exact ideal_dead (by rw [hr]; simp) ha⟩
    | some (some m) =>
      simp only
      have hh := ideal_has hr
      have e : w.ideal.regs[r]? = some (some (w.table m)) := hh
      cases hf : RegLife.find (kind, type) m with
      | none =>
        simp only
        have ht : w.table m kind type = none := by simp [World.table, hf]
        refine ⟨?_, ?_, .missing hh ht⟩
        · intro f
          have e : World.ownersOf { w with funs := w.funs ++ [none] } f = w.ownersOf f := rfl
          rw [e, hi, holders_eq, holders_eq]
          simp
        · simp only [Ideal.next, e, Option.getD_some, Option.bind_some, ht]
          simp only [World.ideal, List.map_append, List.map_cons, List.map_nil, Option.bind_none]
          rfl
      | some f =>
        simp only
        have ho := reg_owned hi hr hf
        obtain ⟨make, h1, _⟩ := make_owned ho ⟨.null, []⟩
        have ht : w.table m kind type = some make := by simp [World.table, hf, h1]
        obtain ⟨i1, i2⟩ := inv_new_fun hi ho
        refine ⟨i1, ?_, .found hh ht⟩
        rw [i2]
        simp only [Ideal.next, e, Option.getD_some, Option.bind_some, ht, h1]
  | copy i =>
    simp only [step]
    split
    · next f h =>
      have ho := fun_owned hi h
      obtain ⟨make, h1, _⟩ := make_owned ho ⟨.null, []⟩
      obtain ⟨i1, i2⟩ := inv_new_fun hi ho
      refine ⟨i1, ?_, .copy⟩
      rw [i2]
      simp only [Ideal.next, funIdeal, h, Option.map_some, Option.getD_some, Option.bind_some]
    · next h =>
      refine ⟨rfl, fun hf => ?_⟩
      cases hf with
      | copy ha =>
        rw [funIdeal] at ha
        simp only [Option.map_eq_some_iff, Option.bind_eq_some_iff] at ha
        obtain ⟨_, h1, f, rfl, _⟩ := ha
        exact h f h1
  | drop i =>
    simp only [step]
    split
    · next f h =>
      obtain ⟨h1, h2⟩ := step_drop hi h
      exact ⟨h1, h2, .drop⟩
    · next h =>
      refine ⟨rfl, fun hf => ?_⟩
      cases hf with
      | drop ha =>
        rw [funIdeal] at ha
        simp only [Option.map_eq_some_iff, Option.bind_eq_some_iff] at ha
        obtain ⟨_, h1, f, rfl, _⟩ := ha
        exact h f h1
  | call i n =>
    simp only [step]
    split
    · next f h =>
      obtain ⟨make, h1, h2⟩ := make_owned (fun_owned hi h) n
      have hfi : w.ideal.funs[i]? = some (some make) := by rw [funIdeal, h]; simp [h1]
      simp only [h2]
      have := run_says hi fuel (make n)
      revert this
      cases w.run fuel (make n) with
      | ok v => exact fun hs => ⟨hi, rfl, .call hfi hs⟩
      | thrown e => exact fun hs => ⟨hi, rfl, .call hfi hs⟩
      | more => exact fun hs => ⟨hi, rfl, .call hfi trivial⟩
      | ub u =>
        rintro ⟨rfl, hd⟩
        refine ⟨rfl, fun hf => ?_⟩
        cases hf with
        | call ha hn =>
          rw [hfi] at ha
          cases ha
          exact hn hd
    · next h =>
      refine ⟨rfl, fun hf => ?_⟩
      cases hf with
      | call ha _ =>
        rw [funIdeal] at ha
        simp only [Option.map_eq_some_iff, Option.bind_eq_some_iff] at ha
        obtain ⟨_, h1, f, rfl, _⟩ := ha
        exact h f h1
  | builder r doc =>
    simp only [step]
    split
    · exact ⟨hi, rfl, .builder⟩
    · next h => exact ⟨rfl, fun hf => by cases hf with | builder ha => exact ideal_dead h ha⟩
  | dropBuilder b =>
    simp only [step]
    split
    · exact ⟨hi, rfl, .dropBuilder⟩
    · next h => exact ⟨rfl, fun hf => by cases hf with | dropBuilder ha => exact h _ ha⟩
  | build b name =>
    simp only [step]
    split
    · next r doc h =>
      have := run_says hi fuel (buildScript r doc name)
      revert this
      cases w.run fuel (buildScript r doc name) with
      | ok v => exact fun hs => ⟨hi, rfl, .build h hs⟩
      | thrown e => exact fun hs => ⟨hi, rfl, .build h hs⟩
      | more => exact fun hs => ⟨hi, rfl, .build h trivial⟩
      | ub u =>
        rintro ⟨rfl, hd⟩
        refine ⟨rfl, fun hf => ?_⟩
        cases hf with
        | build ha hn =>
          rw [show w.builders[b]? = _ from ha] at h
          cases h
          exact hn hd
    · next h => exact ⟨rfl, fun hf => by cases hf with | build ha _ => exact h _ _ ha⟩

/-- Calls do not change the world. -/
theorem step_world {w w1 w2 : World} {op : Op} {f1 f2 : Nat} {r1 r2 : Res} (h1 : step f1 w op = .ok (w1, r1))
    (h2 : step f2 w op = .ok (w2, r2)) : w1 = w2 := by
  have same : ∀ {x : Except UB Res} {w1 : World} {r1 : Res}, (x.map fun r => (w, r)) = .ok (w1, r1) → w1 = w := by
    intro x w1 r1 h
    cases x with
    | error u => cases h
    | ok r => cases h; rfl
  cases op with
  | call f n =>
    have : ∀ {fuel : Nat} {w' : World} {r' : Res}, step fuel w (.call f n) = .ok (w', r') → w' = w := by
      intro fuel w' r' h
      simp only [step] at h
      split at h
      · split at h
        · cases h
        · exact same h
      · cases h
    exact (this h1).trans (this h2).symm
  | build b name =>
    have : ∀ {fuel : Nat} {w' : World} {r' : Res}, step fuel w (.build b name) = .ok (w', r') → w' = w := by
      intro fuel w' r' h
      simp only [step] at h
      split at h
      · exact same h
      · cases h
    exact (this h1).trans (this h2).symm
  | _ =>
    have e := h1.symm.trans (Eq.trans rfl h2)
    cases e
    rfl

/-- An operation that uses something that is gone is undefined, if it is given enough steps. -/
theorem step_undefined {w : World} (hi : Inv w) {op : Op} (h : ¬ Fine w.ideal op) :
    ∃ fuel0, ∀ fuel, fuel0 ≤ fuel → step fuel w op = .error .dangling := by
  have dead : ∀ {r : Nat}, ¬ w.ideal.Alive r → ∀ m, w.regs[r]? ≠ some (some m) := fun hd m hm => hd ⟨_, ideal_has hm⟩
  have funIdeal : ∀ i : Nat, w.ideal.funs[i]? = w.funs[i]?.map fun f : Option Nat => f.bind w.makeOf := by
    intro i; simp [World.ideal]
  have fn : ∀ {i f : Nat}, w.funs[i]? = some (some f) → ∃ make, w.ideal.funs[i]? = some (some make)
      ∧ ∀ n, w.make f n = .ok (make n) := by
    intro i f hf
    obtain ⟨make, h1, _⟩ := make_owned (fun_owned hi hf) ⟨.null, []⟩
    refine ⟨make, by rw [funIdeal, hf]; simp [h1], fun n => ?_⟩
    obtain ⟨make', h1', h2⟩ := make_owned (fun_owned hi hf) n
    rw [h1] at h1'
    cases h1'
    exact h2
  cases op with
  | create => exact absurd .create h
  | destroy r =>
    have hd := dead fun ha => h (.destroy ha)
    refine ⟨0, fun fuel _ => ?_⟩
    simp only [step]
  | add r kind type make =>
    have hd := dead fun ha => h (.add ha)
    refine ⟨0, fun fuel _ => ?_⟩
    simp only [step]
  | find r kind type =>
    have hd := dead fun ha => h (.find ha)
    refine ⟨0, fun fuel _ => ?_⟩
    have : w.find r kind type = .error .dangling := by
      simp only [World.find]
    simp only [step, this]
  | copy i =>
    refine ⟨0, fun fuel _ => ?_⟩
    simp only [step]
    split
    · next f hf =>
      obtain ⟨make, h1, _⟩ := fn hf
      exact absurd (.copy h1) h
    · rfl
  | drop i =>
    refine ⟨0, fun fuel _ => ?_⟩
    simp only [step]
    split
    · next f hf =>
      obtain ⟨make, h1, _⟩ := fn hf
      exact absurd (.drop h1) h
    · rfl
  | call i n =>
    match hf : w.funs[i]? with
    | some (some f) =>
      obtain ⟨make, h1, h2⟩ := fn hf
      have hd : Dangles w.ideal (make n) := Classical.byContradiction fun hd => h (.call h1 hd)
      obtain ⟨fuel0, hr⟩ := run_dangles hi hd
      refine ⟨fuel0, fun fuel hle => ?_⟩
      simp only [step, hf, h2, hr fuel hle]
      rfl
    | some none => exact ⟨0, fun fuel _ => by simp only [step, hf]⟩
    | none => exact ⟨0, fun fuel _ => by simp only [step, hf]⟩
  | builder r doc =>
    have hd := dead fun ha => h (.builder ha)
    refine ⟨0, fun fuel _ => ?_⟩
    simp only [step]
  | dropBuilder b =>
    refine ⟨0, fun fuel _ => ?_⟩
    simp only [step]
    split
    · next x hx => exact absurd (.dropBuilder hx) h
    · rfl
  | build b name =>
    match hb : w.builders[b]? with
    | some (some (r, doc)) =>
      have hd : Dangles w.ideal (buildScript r doc name) := Classical.byContradiction fun hd => h (.build hb hd)
      obtain ⟨fuel0, hr⟩ := run_dangles hi hd
      refine ⟨fuel0, fun fuel hle => ?_⟩
      simp only [step, hb, hr fuel hle]
      rfl
    | some none => exact ⟨0, fun fuel _ => by simp only [step, hb]⟩
    | none => exact ⟨0, fun fuel _ => by simp only [step, hb]⟩

theorem inv_init : Inv World.init := fun f => by simp [World.ownersOf, World.init, holders]

/-! ## Determinism -/

theorem ends_det {i : Ideal} {s : Script} {a b : Except Error Comp} (h1 : Ends i s a) (h2 : Ends i s b) : a = b := by
  induction h1 generalizing b with
  | done => cases h2; rfl
  | missing hh ht _ ih =>
    cases h2 with
    | missing _ _ h => exact ih h
    | calls hh' ht' =>
      rw [Ideal.Has, hh] at hh'
      cases hh'
      rw [ht] at ht'
      cases ht'
  | calls hh ht _ _ ih1 ih2 =>
    cases h2 with
    | missing hh' ht' =>
      rw [Ideal.Has, hh] at hh'
      cases hh'
      rw [ht] at ht'
      cases ht'
    | calls hh' ht' hv hk =>
      rw [Ideal.Has, hh] at hh'
      cases hh'
      rw [ht] at ht'
      cases ht'
      have := ih1 hv
      subst this
      exact ih2 hk

theorem ends_safe {i : Ideal} {s : Script} {v : Except Error Comp} (h : Ends i s v) : ¬ Dangles i s := by
  induction h with
  | done => exact fun hd => by cases hd
  | missing hh ht _ ih =>
    intro hd
    cases hd with
    | dead hn => exact hn ⟨_, hh⟩
    | inside hh' ht' _ => rw [Ideal.Has, hh] at hh'; cases hh'; rw [ht] at ht'; cases ht'
    | missing _ _ hd => exact ih hd
    | later hh' ht' _ _ => rw [Ideal.Has, hh] at hh'; cases hh'; rw [ht] at ht'; cases ht'
  | calls hh ht hv _ ih1 ih2 =>
    intro hd
    cases hd with
    | dead hn => exact hn ⟨_, hh⟩
    | inside hh' ht' hd => rw [Ideal.Has, hh] at hh'; cases hh'; rw [ht] at ht'; cases ht'; exact ih1 hd
    | missing hh' ht' _ => rw [Ideal.Has, hh] at hh'; cases hh'; rw [ht] at ht'; cases ht'
    | later hh' ht' hv' hd =>
      rw [Ideal.Has, hh] at hh'; cases hh'; rw [ht] at ht'; cases ht'
      have := ends_det hv hv'
      subst this
      exact ih2 hd

/-- Asking only registries that are there and whose factories do the same never dangles. -/
theorem asks_safe {i : Ideal} {P : Nat → Prop} (ha : ∀ r, P r → i.Alive r)
    (hp : ∀ r t kind type make, P r → i.Has r t → t kind type = some make → ∀ n, Asks P (make n)) {s : Script}
    (hs : Asks P s) : ¬ Dangles i s := by
  intro hd
  induction hd with
  | dead h => cases hs with | ask hr _ => exact h (ha _ hr)
  | inside hh ht _ ih => cases hs with | ask hr _ => exact ih (hp _ _ _ _ _ hr hh ht _)
  | missing _ _ _ ih => cases hs with | ask _ hk => exact ih (hk _)
  | later _ _ _ _ ih => cases hs with | ask _ hk => exact ih (hk _)

theorem sinksThen_asks {P : Nat → Prop} {r : Nat} (hr : P r) {k : List Comp → Script} (hk : ∀ l, Asks P (k l)) (nodes : List Node) :
    ∀ made, Asks P (sinksThen r nodes made k) := by
  induction nodes with
  | nil => exact hk
  | cons n nodes ih =>
    intro made
    unfold sinksThen
    split
    · exact .done _
    · exact .done _
    · refine .ask hr fun v => ?_
      cases v with
      | error e => exact .done _
      | ok s => exact ih _

theorem blocking_asks {P : Nat → Prop} {r : Nat} (hr : P r) (n : Node) : Asks P (blocking r n) := by
  unfold blocking
  split
  · exact .done _
  · exact .done _
  · split
    · exact .done _
    · refine .ask hr fun v => ?_
      cases v with
      | error e => exact .done _
      | ok f =>
        simp only
        split
        · exact .done _
        · exact sinksThen_asks hr (fun _ => .done _) _ _

theorem handlersThen_asks {P : Nat → Prop} {r : Nat} (hr : P r) {k : List Comp → Script} (hk : ∀ l, Asks P (k l))
    (nodes : List Node) : ∀ made, Asks P (handlersThen r nodes made k) := by
  induction nodes with
  | nil => exact hk
  | cons n nodes ih =>
    intro made
    unfold handlersThen
    split
    · exact .done _
    · refine .ask hr fun v => ?_
      cases v with
      | error e => exact .done _
      | ok s => exact ih _

theorem build_asks {P : Nat → Prop} {r : Nat} (hr : P r) (doc : Json) (name : Str) : Asks P (buildScript r doc name) := by
  unfold buildScript
  split
  · exact .done _
  · exact handlersThen_asks hr (fun _ => .done _) _ _

end Blackhole.RegLife
