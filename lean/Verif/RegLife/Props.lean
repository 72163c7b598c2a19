import Verif.RegLife.Lemmas

/-! # Properties of registries, functions and builders as objects: C87 -/

namespace Blackhole.RegLife

open Config (Node Json)
open Registry (Kind Error)

theorem exec_spec (fuel : Nat) : ∀ (ops : List Op) (w : World), Inv w →
    match exec fuel w ops with
    | .ok (w', rs) => Inv w' ∧ w'.ideal = ops.foldl Ideal.next w.ideal ∧ AllSeen w.ideal ops rs
    | .error u => u = .dangling ∧ ¬ AllFine w.ideal ops := by
  intro ops
  induction ops with
  | nil => exact fun w hi => ⟨hi, rfl, .nil⟩
  | cons op ops ih =>
    intro w hi
    have hs := step_spec hi fuel op
    simp only [exec]
    cases hx : step fuel w op with
    | error u =>
      rw [hx] at hs
      exact ⟨hs.1, fun hf => by cases hf with | cons h _ => exact hs.2 h⟩
    | ok x =>
      obtain ⟨w1, r⟩ := x
      rw [hx] at hs
      obtain ⟨h1, h2, h3⟩ := hs
      have := ih w1 h1
      simp only
      cases hy : exec fuel w1 ops with
      | error u =>
        rw [hy] at this
        exact ⟨this.1, fun hf => by cases hf with | cons _ h => rw [← h2] at h; exact this.2 h⟩
      | ok y =>
        obtain ⟨w2, rs⟩ := y
        rw [hy] at this
        exact ⟨this.1, by rw [this.2.1, h2]; rfl, .cons h3 (by rw [← h2]; exact this.2.2)⟩

/-- **C87.** Whatever users do with registries, functions and builders, what they see is as if functions were values: a
function calls what was registered under the type when it was asked for, whatever was registered later and whether or not
the registry still exists; a builder, and a factory that asks a registry, use what is registered when they do so. -/
theorem C87_values {fuel : Nat} {ops : List Op} {w : World} {rs : List Res} (h : exec fuel World.init ops = .ok (w, rs)) :
    AllSeen Ideal.init ops rs := by
  have := exec_spec fuel ops World.init inv_init
  rw [h] at this
  exact this.2.2

/-- **C87.** A program is defined if and only if it uses nothing after its end, where a call uses the registries that it
asks and a builder the registry from which it was made. In particular no factory is ever called after its end. -/
theorem C87_defined (ops : List Op) :
    (∀ fuel, ∃ w rs, exec fuel World.init ops = .ok (w, rs)) ↔ AllFine Ideal.init ops := by
  constructor
  · have : ∀ (ops : List Op) (w : World), Inv w → (∀ fuel, ∃ w' rs, exec fuel w ops = .ok (w', rs)) → AllFine w.ideal ops := by
      intro ops
      induction ops with
      | nil => exact fun w _ _ => .nil
      | cons op ops ih =>
        intro w hi h
        have hf : Fine w.ideal op := by
          apply Classical.byContradiction
          intro hn
          obtain ⟨f0, h0⟩ := step_undefined hi hn
          obtain ⟨w', rs, hx⟩ := h f0
          rw [exec, h0 f0 (Nat.le_refl _)] at hx
          cases hx
        have first : ∀ fuel, ∃ w1 r, step fuel w op = .ok (w1, r) ∧ ∃ w' rs, exec fuel w1 ops = .ok (w', rs) := by
          intro fuel
          obtain ⟨w', rs, hx⟩ := h fuel
          rw [exec] at hx
          cases hs : step fuel w op with
          | error u => rw [hs] at hx; cases hx
          | ok x =>
            obtain ⟨w1, r⟩ := x
            rw [hs] at hx
            refine ⟨w1, r, rfl, ?_⟩
            simp only at hx
            cases hy : exec fuel w1 ops with
            | error u => rw [hy] at hx; cases hx
            | ok y => exact ⟨y.1, y.2, rfl⟩
        obtain ⟨w1, r, hs, -⟩ := first 0
        have sp := step_spec hi 0 op
        rw [hs] at sp
        refine .cons hf ?_
        rw [← sp.2.1]
        refine ih w1 sp.1 fun fuel => ?_
        obtain ⟨w2, r2, hs2, w', rs, hx⟩ := first fuel
        rw [step_world hs hs2]
        exact ⟨w', rs, hx⟩
    exact this ops World.init inv_init
  · intro h fuel
    have := exec_spec fuel ops World.init inv_init
    cases hx : exec fuel World.init ops with
    | ok x => exact ⟨x.1, x.2, rfl⟩
    | error u => rw [hx] at this; exact absurd h this.2

/-- **C87.** Undefined behaviour is always the use of something after its end. -/
theorem C87_dangling {fuel : Nat} {ops : List Op} {u : UB} (h : exec fuel World.init ops = .error u) :
    u = .dangling ∧ ¬ AllFine Ideal.init ops := by
  have := exec_spec fuel ops World.init inv_init
  rw [h] at this
  exact this

/-- **C87.** At every moment a factory has as many owners as there are entries of registries and functions for it: it is
destroyed with the last of them, not earlier and not later. -/
theorem C87_owners {fuel : Nat} {ops : List Op} {w : World} {rs : List Res} (h : exec fuel World.init ops = .ok (w, rs))
    {f : Nat} {o : Factory} (ho : w.factories[f]? = some o) : o.owners = holders w f := by
  have := exec_spec fuel ops World.init inv_init
  rw [h] at this
  have := this.1 f
  simpa [World.ownersOf, ho] using this

/-- **C87.** When all registries and functions are gone, so are all factories. -/
theorem C87_nothing_left {fuel : Nat} {ops : List Op} {w : World} {rs : List Res}
    (h : exec fuel World.init ops = .ok (w, rs)) (hr : ∀ m ∈ w.regs, m = none) (hf : ∀ f ∈ w.funs, f = none) :
    ∀ o ∈ w.factories, o.owners = 0 := by
  intro o ho
  obtain ⟨f, hlt, e⟩ := List.getElem_of_mem ho
  rw [C87_owners h (f := f) (by rw [List.getElem?_eq_getElem hlt, e]), holders_eq]
  have h1 : (w.regs.map fun m => count (m.getD []) f).sum = 0 := by
    rw [List.sum_eq_zero_iff_forall_eq_nat]
    intro x hx
    obtain ⟨m, hm, rfl⟩ := List.mem_map.mp hx
    rw [hr m hm]
    rfl
  have h2 : w.funs.filter (· = some f) = [] := by
    rw [List.filter_eq_nil_iff]
    intro x hx
    rw [hf x hx]
    simp
  rw [h1, h2]
  rfl

/-! ## The rule for users -/

theorem after_snoc (ops : List Op) (op : Op) : Ideal.after (ops ++ [op]) = (Ideal.after ops).next op := by
  simp [Ideal.after, List.foldl_append]

/-- Where tables and functions come from. -/
theorem origins (ops : List Op) :
    (∀ r t kind type make, (Ideal.after ops).Has r t → t kind type = some make → .add r kind type make ∈ ops)
    ∧ (∀ f : Nat, ∀ make, (Ideal.after ops).funs[f]? = some (some make) → ∃ r kind type, .add r kind type make ∈ ops) := by
  induction ops using snoc_induction with
  | nil => exact ⟨fun r t _ _ _ h => by simp [Ideal.Has, Ideal.after, Ideal.init] at h,
      fun f _ h => by simp [Ideal.after, Ideal.init] at h⟩
  | snoc ops op ih =>
    obtain ⟨ih1, ih2⟩ := ih
    rw [after_snoc]
    have keep1 : ∀ r t kind type make, (Ideal.after ops).Has r t → t kind type = some make → .add r kind type make ∈ ops ++ [op] :=
      fun r t kind type make h1 h2 => List.mem_append_left _ (ih1 r t kind type make h1 h2)
    have keep2 : ∀ f : Nat, ∀ make, (Ideal.after ops).funs[f]? = some (some make) → ∃ r kind type, .add r kind type make ∈ ops ++ [op] := by
      intro f make h
      obtain ⟨r, kind, type, h⟩ := ih2 f make h
      exact ⟨r, kind, type, List.mem_append_left _ h⟩
    cases op with
    | create =>
      refine ⟨?_, keep2⟩
      intro r t kind type make h1 h2
      simp only [Ideal.Has, Ideal.next, List.getElem?_append] at h1
      split at h1
      · exact keep1 r t kind type make h1 h2
      · next hl =>
        match hr : r - (Ideal.after ops).regs.length with
        | 0 => rw [hr] at h1; simp at h1; subst h1; cases h2
        | n + 1 => rw [hr] at h1; simp at h1
    | destroy r' =>
      refine ⟨?_, keep2⟩
      intro r t kind type make h1 h2
      simp only [Ideal.Has, Ideal.next, List.getElem?_set] at h1
      split at h1
      · split at h1 <;> cases h1
      · exact keep1 r t kind type make h1 h2
    | add r' kind' type' make' =>
      refine ⟨?_, keep2⟩
      intro r t kind type make h1 h2
      simp only [Ideal.Has, Ideal.next, List.getElem?_modify] at h1
      split at h1
      · next hr =>
        subst hr
        match ht : (Ideal.after ops).regs[r']? with
        | none => rw [ht] at h1; cases h1
        | some none => rw [ht] at h1; cases h1
        | some (some t0) =>
          rw [ht] at h1
          have e : t = fun k s => if (k, s) = (kind', type') then some make' else t0 k s := by
            injection h1 with h1
            injection h1 with h1
            exact h1.symm
          subst e
          simp only at h2
          split at h2
          · next hk =>
            cases hk
            cases h2
            simp
          · exact keep1 r' t0 kind type make ht h2
      · simp only [id_map'] at h1
        exact keep1 r t kind type make (by simpa [Ideal.Has] using h1) h2
    | find r' kind' type' =>
      refine ⟨keep1, ?_⟩
      intro f make h
      simp only [Ideal.next, List.getElem?_append] at h
      split at h
      · exact keep2 f make h
      · match hf : f - (Ideal.after ops).funs.length with
        | n + 1 => rw [hf] at h; simp at h
        | 0 =>
          rw [hf] at h
          simp only [List.getElem?_cons_zero, Option.some.injEq] at h
          match ht : (Ideal.after ops).regs[r']? with
          | none => rw [ht] at h; cases h
          | some none => rw [ht] at h; cases h
          | some (some t0) =>
            rw [ht] at h
            exact ⟨r', kind', type', keep1 r' t0 kind' type' make ht h⟩
    | copy f' =>
      refine ⟨keep1, ?_⟩
      intro f make h
      simp only [Ideal.next, List.getElem?_append] at h
      split at h
      · exact keep2 f make h
      · match hf : f - (Ideal.after ops).funs.length with
        | n + 1 => rw [hf] at h; simp at h
        | 0 =>
          rw [hf] at h
          simp only [List.getElem?_cons_zero, Option.some.injEq] at h
          match ht : (Ideal.after ops).funs[f']? with
          | none => rw [ht] at h; cases h
          | some x =>
            rw [ht] at h
            simp only [Option.getD_some] at h
            subst h
            exact keep2 f' make ht
    | drop f' =>
      refine ⟨keep1, ?_⟩
      intro f make h
      simp only [Ideal.next, List.getElem?_set] at h
      split at h
      · split at h <;> cases h
      · exact keep2 f make h
    | call => exact ⟨keep1, keep2⟩
    | builder => exact ⟨keep1, keep2⟩
    | dropBuilder => exact ⟨keep1, keep2⟩
    | build => exact ⟨keep1, keep2⟩

/-- **C87.** If what is registered asks only its own registry, as everything in `registry::configured()` does, then a
builder can be used as long as its registry exists, and a function as long as the registry exists with which it was
registered. (A function that asks nothing can be used for ever, see `C87_function`.) -/
theorem C87_rule {ops : List Op} (h : SelfContained ops) :
    (∀ (b r : Nat) (doc : Json), (Ideal.after ops).builders[b]? = some (some (r, doc)) → (Ideal.after ops).Alive r →
      ∀ name, Fine (Ideal.after ops) (.build b name))
    ∧ (∀ (f : Nat) (make : Make), (Ideal.after ops).funs[f]? = some (some make) →
      ∃ r kind type, .add r kind type make ∈ ops ∧ ((Ideal.after ops).Alive r → ∀ n, Fine (Ideal.after ops) (.call f n))) := by
  have safe : ∀ {r : Nat} {s : Script}, (Ideal.after ops).Alive r → Asks (· = r) s → ¬ Dangles (Ideal.after ops) s := by
    intro r s ha hs
    refine asks_safe (P := (· = r)) (fun r' e => e ▸ ha) ?_ hs
    rintro r' t kind type make rfl hh ht n
    exact h _ _ _ _ ((origins ops).1 _ _ _ _ _ hh ht) n
  constructor
  · intro b r doc hb ha name
    exact .build hb (safe ha (build_asks (P := (· = r)) rfl doc name))
  · intro f make hf
    obtain ⟨r, kind, type, hm⟩ := (origins ops).2 f make hf
    exact ⟨r, kind, type, hm, fun ha n => .call hf (safe ha (h _ _ _ _ hm n))⟩

/-! ## Functions -/

/-- What was registered last is in the table. -/
theorem table_last {ops : List Op} {r : Nat} {t : Table} {kind : Kind} {type : Str} {make : Make}
    (hh : (Ideal.after ops).Has r t) (hl : LastAdded ops r kind type make) (hv : AllFine Ideal.init ops) :
    t kind type = some make := by
  obtain ⟨before, after, rfl, hn⟩ := hl
  have hbefore : ∃ t0, (Ideal.after (before ++ [.add r kind type make])).Has r t0 ∧ t0 kind type = some make := by
    have : ∀ (l : List Op) (i : Ideal), AllFine i (l ++ .add r kind type make :: after) → (l.foldl Ideal.next i).Alive r := by
      intro l
      induction l with
      | nil => intro i hf; cases hf with | cons hf _ => cases hf with | add ha => exact ha
      | cons op l ih => intro i hf; cases hf with | cons _ hf => exact ih _ hf
    obtain ⟨t0, ht0⟩ := this before Ideal.init hv
    have ht0' : (Ideal.after before).regs[r]? = some (some t0) := ht0
    rw [after_snoc]
    refine ⟨fun k s => if (k, s) = (kind, type) then some make else t0 k s, ?_, if_pos rfl⟩
    simp only [Ideal.Has, Ideal.next, List.getElem?_modify, if_true, ht0']
    rfl
  have e : Ideal.after (before ++ .add r kind type make :: after)
      = after.foldl Ideal.next (Ideal.after (before ++ [.add r kind type make])) := by
    simp [Ideal.after, List.foldl_append]
  rw [e] at hh
  generalize Ideal.after (before ++ [.add r kind type make]) = i at hbefore hh
  clear e hv
  induction after generalizing i with
  | nil =>
    obtain ⟨t0, h1, h2⟩ := hbefore
    rw [List.foldl_nil, Ideal.Has, h1] at hh
    cases hh
    exact h2
  | cons op after ih =>
    refine ih (i := i.next op) (fun other hm => hn other (List.mem_cons_of_mem _ hm)) ?_ hh
    obtain ⟨t0, h1, h2⟩ := hbefore
    have h1' : i.regs[r]? = some (some t0) := h1
    cases op with
    | create =>
      refine ⟨t0, ?_, h2⟩
      have hlt : r < i.regs.length := (List.getElem?_eq_some_iff.mp h1').1
      simp only [Ideal.Has, Ideal.next, List.getElem?_append_left hlt, h1']
    | destroy r' =>
      by_cases hr : r' = r
      · exfalso
        subst hr
        have gone : ∀ (l : List Op) (i : Ideal), i.regs[r']? = some none → (l.foldl Ideal.next i).regs[r']? = some none := by
          intro l
          induction l with
          | nil => exact fun i h => h
          | cons op l ihl =>
            intro i hi
            refine ihl _ ?_
            have hlt : r' < i.regs.length := (List.getElem?_eq_some_iff.mp hi).1
            cases op with
            | create => simp only [Ideal.next, List.getElem?_append_left hlt, hi]
            | destroy r2 =>
              simp only [Ideal.next, List.getElem?_set]
              split
              · next he => subst he; simp [hlt]
              · exact hi
            | add r2 k2 s2 m2 =>
              simp only [Ideal.next, List.getElem?_modify, hi]
              split <;> rfl
            | _ => exact hi
        have := gone after (i.next (.destroy r')) (by
          have hlt : r' < i.regs.length := (List.getElem?_eq_some_iff.mp h1').1
          simp [Ideal.next, hlt])
        rw [List.foldl_cons, Ideal.Has, this] at hh
        cases hh
      · exact ⟨t0, by simp only [Ideal.Has, Ideal.next, List.getElem?_set, if_neg hr, h1'], h2⟩
    | add r' kind' type' make' =>
      by_cases hr : r' = r
      · subst hr
        refine ⟨fun k s => if (k, s) = (kind', type') then some make' else t0 k s, ?_, ?_⟩
        · simp only [Ideal.Has, Ideal.next, List.getElem?_modify, if_true, h1']
          rfl
        · have : (kind, type) ≠ (kind', type') := by
            intro he
            cases he
            exact hn make' List.mem_cons_self
          simp only [if_neg this, h2]
      · refine ⟨t0, ?_, h2⟩
        simp only [Ideal.Has, Ideal.next, List.getElem?_modify, if_neg hr, h1']
        rfl
    | _ => exact ⟨t0, h1, h2⟩

theorem allFine_append {i : Ideal} {a b : List Op} (h : AllFine i (a ++ b)) : AllFine i a ∧ AllFine (a.foldl Ideal.next i) b := by
  induction a generalizing i with
  | nil => exact ⟨.nil, h⟩
  | cons op a ih =>
    cases h with
    | cons h1 h2 => exact ⟨.cons h1 (ih h2).1, (ih h2).2⟩

theorem allSeen_append {a b : List Op} : ∀ {i : Ideal} {rs : List Res}, AllSeen i (a ++ b) rs →
    ∃ r1 r2, rs = r1 ++ r2 ∧ AllSeen i a r1 ∧ AllSeen (a.foldl Ideal.next i) b r2 := by
  induction a with
  | nil => exact fun h => ⟨[], _, rfl, .nil, h⟩
  | cons op a ih =>
    intro i rs h
    cases h with
    | cons h1 h2 =>
      obtain ⟨r1, r2, rfl, h3, h4⟩ := ih h2
      exact ⟨_ :: r1, r2, rfl, .cons h1 h3, h4⟩

/-- Functions stay what they are until they are dropped. -/
theorem fun_stays {i : Ideal} {f : Nat} {make : Make} (h : i.funs[f]? = some (some make)) (ops : List Op)
    (hd : .drop f ∉ ops) : (ops.foldl Ideal.next i).funs[f]? = some (some make) := by
  induction ops generalizing i with
  | nil => exact h
  | cons op ops ih =>
    refine ih ?_ fun hm => hd (List.mem_cons_of_mem _ hm)
    have hlt : f < i.funs.length := (List.getElem?_eq_some_iff.mp h).1
    cases op with
    | find => simp only [Ideal.next, List.getElem?_append_left hlt, h]
    | copy => simp only [Ideal.next, List.getElem?_append_left hlt, h]
    | drop f' =>
      have : f' ≠ f := fun e => hd (e ▸ List.mem_cons_self)
      simp only [Ideal.next, List.getElem?_set, if_neg this, h]
    | _ => exact h

theorem exec_snoc {fuel : Nat} {op : Op} : ∀ {ops : List Op} {w w' : World} {rs : List Res},
    exec fuel w ops = .ok (w', rs) → ∀ {w2 : World} {r : Res}, step fuel w' op = .ok (w2, r) →
    exec fuel w (ops ++ [op]) = .ok (w2, rs ++ [r]) := by
  intro ops
  induction ops with
  | nil =>
    intro w w' rs h w2 r hs
    cases h
    simp only [List.nil_append, exec, hs]
  | cons op' ops ih =>
    intro w w' rs h w2 r hs
    simp only [exec] at h
    split at h
    · cases h
    · next w1 r1 h1 =>
      split at h
      · cases h
      · next w3 rs3 h3 =>
        cases h
        simp only [List.cons_append, exec, h1, ih h3 hs]

/-- **C87.** A function that was obtained from a registry calls what was registered under the type at that time, whatever
happens to that registry afterwards: other registrations under the same type, or its end. If the call comes to an end by
what is registered when it is made, that is what is seen. -/
theorem C87_function {before after : List Op} {r : Nat} {kind : Kind} {type : Str} {make : Make} {n : Node}
    {v : Except Error Comp} (hl : LastAdded before r kind type make) {f : Nat}
    (hf : f = (Ideal.after before).funs.length) (hd : .drop f ∉ after)
    (hfine : AllFine Ideal.init (before ++ .find r kind type :: after))
    (hm : Ends (Ideal.after (before ++ .find r kind type :: after)) (make n) v) :
    ∃ fuel0, ∀ fuel, fuel0 ≤ fuel →
      ∃ w rs, exec fuel World.init (before ++ .find r kind type :: after ++ [.call f n]) = .ok (w, rs)
        ∧ rs.getLast? = some (.got (ofExcept v)) := by
  obtain ⟨h1, h2⟩ := allFine_append hfine
  cases h2 with
  | cons h3 h4 =>
    cases h3 with
    | find ha =>
      obtain ⟨t, ht⟩ := ha
      have ht' : (Ideal.after before).Has r t := ht
      have htab := table_last ht' hl h1
      have hnew : ((before.foldl Ideal.next .init).next (.find r kind type)).funs[f]? = some (some make) := by
        have e : (Ideal.after before).regs[r]? = some (some t) := ht
        subst hf
        simp only [Ideal.next]
        rw [show before.foldl Ideal.next .init = Ideal.after before from rfl, e]
        simp [htab]
      have hstay := fun_stays hnew after hd
      obtain ⟨fuel0, hr⟩ := run_ends hm
      refine ⟨fuel0, fun fuel hle => ?_⟩
      obtain ⟨w, rs, hx⟩ := (C87_defined _).mpr hfine fuel
      have sp := exec_spec fuel (before ++ .find r kind type :: after) World.init inv_init
      rw [hx] at sp
      have hi : w.ideal = Ideal.after (before ++ .find r kind type :: after) := sp.2.1
      have hw : w.ideal.funs[f]? = some (some make) := by
        rw [hi, Ideal.after, List.foldl_append, List.foldl_cons]; exact hstay
      simp only [World.ideal, List.getElem?_map, Option.map_eq_some_iff, Option.bind_eq_some_iff] at hw
      obtain ⟨_, hw1, g, rfl, hw2⟩ := hw
      obtain ⟨make', hw3, hw4⟩ := make_owned (fun_owned sp.1 hw1) n
      rw [hw2] at hw3
      cases hw3
      have hs : step fuel w (.call f n) = .ok (w, .got (ofExcept v)) := by
        simp only [step, hw1, hw4, hr w sp.1 hi fuel hle]
        cases v <;> rfl
      exact ⟨w, rs ++ [.got (ofExcept v)], exec_snoc hx hs, by simp⟩

/-! ## Builders -/

/-- A handler as a component. -/
def ofHandler : Registry.Handler Comp Comp Comp → Comp
  | .blocking f sinks => .blocking f sinks
  | .custom h => h

/-- The table of registry number `r` says what the registry of C34 says; its blocking handlers refer to it. -/
structure Same (t : Table) (r : Nat) (reg : Registry.Registry Comp Comp Comp Comp) : Prop where
  sinks : ∀ type, t .sink type = (Registry.find type reg.sinks).map fun f n => .done (f n)
  formatters : ∀ type, t .formatter type = (Registry.find type reg.formatters).map fun f n => .done (f n)
  handlers : ∀ type, t .handler type = (Registry.find type reg.handlers).map fun
    | .blocking => blocking r
    | .custom f => fun n => .done (f n)

theorem ends_sinks {i : Ideal} {r : Nat} {t : Table} {reg : Registry.Registry Comp Comp Comp Comp} (hh : i.Has r t)
    (hs : Same t r reg) (k : List Comp → Script) (nodes : List Node) : ∀ (made : List Comp) (res : Except Error Comp),
    (match Registry.mapM reg.makeSink nodes with
      | .error e => res = .error e
      | .ok ss => Ends i (k (made ++ ss)) res) → Ends i (sinksThen r nodes made k) res := by
  induction nodes with
  | nil =>
    intro made res h
    simpa [Registry.mapM, sinksThen] using h
  | cons n nodes ih =>
    intro made res h
    simp only [Registry.mapM, Registry.Registry.makeSink] at h
    unfold sinksThen
    split
    · next e he => simp only [he] at h; subst h; exact .done _
    · next he => simp only [he] at h; subst h; exact .done _
    · next ty he =>
      simp only [he, Registry.Registry.sink, Registry.get] at h
      have ht := hs.sinks ty
      cases hf : Registry.find ty reg.sinks with
      | none =>
        rw [hf] at ht
        simp only [hf] at h
        subst h
        exact .missing hh ht (.done _)
      | some f =>
        rw [hf] at ht
        simp only [hf] at h
        cases hv : f n with
        | error e =>
          simp only [hv] at h
          subst h
          refine .calls (v := .error e) hh ht ?_ (.done _)
          simp only [hv]; exact .done _
        | ok s =>
          simp only [hv] at h
          refine .calls (v := .ok s) hh ht (by simp only [hv]; exact .done _) ?_
          refine ih (made ++ [s]) res ?_
          cases hm : Registry.mapM reg.makeSink nodes with
          | error e => rw [hm] at h; exact h
          | ok ss => rw [hm] at h; simpa using h

theorem ends_handlers {i : Ideal} {r : Nat} {t : Table} {reg : Registry.Registry Comp Comp Comp Comp} (hh : i.Has r t)
    (hs : Same t r reg) (k : List Comp → Script) (nodes : List Node) : ∀ (made : List Comp) (res : Except Error Comp),
    (match Registry.mapM reg.makeHandler nodes with
      | .error e => res = .error e
      | .ok ss => Ends i (k (made ++ ss.map ofHandler)) res) → Ends i (handlersThen r nodes made k) res := by
  induction nodes with
  | nil =>
    intro made res h
    simpa [Registry.mapM, handlersThen] using h
  | cons n nodes ih =>
    intro made res h
    unfold handlersThen
    have first : ∀ v : Except Error (Registry.Handler Comp Comp Comp), reg.makeHandler n = v →
        (∀ s, v = .ok s → Ends i (handlersThen r nodes (made ++ [ofHandler s]) k) res) ∧ (∀ e, v = .error e → res = .error e) := by
      intro v hv
      simp only [Registry.mapM, hv] at h
      constructor
      · rintro s rfl
        refine ih _ _ ?_
        simp only at h
        cases hm : Registry.mapM reg.makeHandler nodes with
        | error e => rw [hm] at h; exact h
        | ok ss => rw [hm] at h; simpa using h
      · rintro e rfl
        exact h
    split
    · next e he =>
      have : reg.makeHandler n = .error (.mismatch e) := by simp only [Registry.Registry.makeHandler, he]
      rw [(first _ this).2 _ rfl]
      exact .done _
    · next ty he =>
      have ht := hs.handlers (ty.getD (ch! "blocking"))
      have hmk : reg.makeHandler n = match reg.handler (ty.getD (ch! "blocking")) with
          | .error e => .error e
          | .ok .blocking => reg.makeBlocking n
          | .ok (.custom f) =>
            match f n with
            | .error e => .error e
            | .ok h => .ok (.custom h) := by
        simp only [Registry.Registry.makeHandler, he]
        cases ty with
        | none =>
          simp only [Option.getD]
          cases reg.handler (ch! "blocking") with
          | error e => rfl
          | ok f =>
            cases f with
            | blocking => rfl
            | custom f => cases hfn : f n <;> simp only [hfn]
        | some ty =>
          simp only [Option.getD]
          cases reg.handler ty with
          | error e => rfl
          | ok f =>
            cases f with
            | blocking => rfl
            | custom f => cases hfn : f n <;> simp only [hfn]
      generalize ty.getD (ch! "blocking") = type at ht hmk
      simp only [Registry.Registry.handler, Registry.get] at hmk
      cases hf : Registry.find type reg.handlers with
      | none =>
        rw [hf] at ht
        simp only [hf] at hmk
        rw [(first _ hmk).2 _ rfl]
        exact .missing hh ht (.done _)
      | some f =>
        rw [hf] at ht
        simp only [hf] at hmk
        cases f with
        | custom f =>
          cases hv : f n with
          | error e =>
            simp only [hv] at hmk
            rw [(first _ hmk).2 _ rfl]
            refine .calls (v := .error e) hh ht ?_ (.done _)
            simp only [hv]; exact .done _
          | ok h =>
            simp only [hv] at hmk
            refine .calls (v := .ok h) hh ht ?_ ((first _ hmk).1 _ rfl)
            simp only [hv]; exact .done _
        | blocking =>
          simp only at hmk
          have hb : Ends i (blocking r n) ((reg.makeBlocking n).map ofHandler) := by
            unfold blocking
            split
            · next e he => simp only [Registry.Registry.makeBlocking, he]; exact .done _
            · next he => simp only [Registry.Registry.makeBlocking, he]; exact .done _
            · next ft he =>
              have hfm := hs.formatters ft
              simp only [Registry.Registry.makeBlocking, he, Registry.Registry.formatter, Registry.get]
              cases hk : n.key (ch! "formatter") with
              | none => rw [hk] at he; cases he
              | some fn =>
                simp only
                cases hff : Registry.find ft reg.formatters with
                | none => rw [hff] at hfm; exact .missing hh hfm (.done _)
                | some f =>
                  rw [hff] at hfm
                  simp only
                  cases hv : f fn with
                  | error e =>
                    simp only
                    refine .calls (v := .error e) hh hfm ?_ (.done _)
                    simp only [hv]; exact .done _
                  | ok m =>
                    simp only
                    refine .calls (v := .ok m) hh hfm (by simp only [hv]; exact .done _) ?_
                    simp only
                    cases hea : (n.key (ch! "sinks")).each with
                    | error e => exact .done _
                    | ok ns =>
                      refine ends_sinks hh hs _ ns [] _ ?_
                      simp only
                      cases Registry.mapM reg.makeSink ns with
                      | error e => rfl
                      | ok ss => exact .done _
          rw [hmk] at first
          cases hv : reg.makeBlocking n with
          | error e =>
            rw [hv] at hb
            rw [(first _ hv).2 _ rfl]
            exact .calls hh ht hb (.done _)
          | ok h =>
            rw [hv] at hb
            exact .calls hh ht hb ((first _ hv).1 _ rfl)

/-- **C87.** `build` makes what C34 says of the registrations that the registry has when `build` is called. -/
theorem C87_build {i : Ideal} {r : Nat} {t : Table} {reg : Registry.Registry Comp Comp Comp Comp} (hh : i.Has r t)
    (hs : Same t r reg) (doc : Json) (name : Str) :
    Ends i (buildScript r doc name) ((reg.build doc name).map fun hs => .logger (hs.map ofHandler)) := by
  unfold buildScript Registry.Registry.build
  cases ((Node.root doc).key name).each with
  | error e => exact .done _
  | ok nodes =>
    refine ends_handlers hh hs _ nodes [] _ ?_
    simp only
    cases Registry.mapM reg.makeHandler nodes with
    | error e => rfl
    | ok ss => exact .done _

/-- **C87.** A builder of a registry that is gone cannot build anything that has handlers. -/
theorem C87_builder_dangles {ops : List Op} {b r : Nat} {doc : Json} {name : Str} {n : Node} {nodes : List Node}
    {t : Option Str} (hb : (Ideal.after ops).builders[b]? = some (some (r, doc))) (hd : ¬ (Ideal.after ops).Alive r)
    (he : ((Node.root doc).key name).each = .ok (n :: nodes)) (ht : (n.key (ch! "type")).toString = .ok t) :
    ¬ Fine (Ideal.after ops) (.build b name) := by
  intro h
  cases h with
  | build hb' hn =>
    rw [hb] at hb'
    cases hb'
    refine hn ?_
    simp only [buildScript, he, handlersThen, ht]
    exact .dead hd

/-- A configuration with one handler, which says nothing of its type. -/
def doc1 : Json := .obj [(ch! "root", .arr [.obj [(ch! "formatter", .obj [(ch! "type", .str (ch! "string"))]),
  (ch! "sinks", .arr [.obj [(ch! "type", .str (ch! "null"))]])]])]

/-- **C87.** `auto b = registry::configured()->builder<json_t>(config)`, where the registry is a temporary, makes a builder
whose `build` is undefined. -/
theorem C87_fails_temporary (make : Make) (fuel : Nat) :
    exec (fuel + 1) World.init [.create, .add 0 .handler (ch! "blocking") make, .builder 0 doc1, .destroy 0,
      .build 0 (ch! "root")] = .error .dangling := rfl

/-- The library's factory refers to the registry: a function for it dangles as well, but one for a factory that asks
nothing does not. -/
theorem C87_fails_blocking (id fuel : Nat) :
    let h : Node := ⟨.obj [(ch! "formatter", .obj [(ch! "type", .str (ch! "string"))])], []⟩
    exec (fuel + 1) World.init [.create, .add 0 .handler (ch! "blocking") (blocking 0), .find 0 .handler (ch! "blocking"),
      .destroy 0, .call 0 h] = .error .dangling
    ∧ ∃ w, exec (fuel + 1) World.init [.create, .add 0 .handler (ch! "mine") (fun _ => .done (.ok (.own id))),
      .find 0 .handler (ch! "mine"), .destroy 0, .call 0 h] = .ok (w, [.unit, .unit, .unit, .unit, .got (.ok (.own id))]) :=
  ⟨rfl, _, rfl⟩

/-! ## Concrete cases -/

def one (id : Nat) : Make := fun _ => .done (.ok (.own id))

/-- A registry in the manner of `registry::configured()`, a builder, a component that is registered again after the builder
was made, and the end of everything. -/
def program : List Op := [.create, .add 0 .handler (ch! "blocking") (blocking 0), .add 0 .formatter (ch! "string") (one 1),
  .add 0 .sink (ch! "null") (one 2), .builder 0 doc1, .find 0 .sink (ch! "null"), .add 0 .sink (ch! "null") (one 3),
  .build 0 (ch! "root"), .dropBuilder 0, .destroy 0, .call 0 ⟨.null, []⟩, .drop 0]

example : ∃ w, exec 9 World.init program = .ok (w, [.unit, .unit, .unit, .unit, .unit, .unit, .unit,
    .got (.ok (.logger [.blocking (.own 1) [.own 3]])), .unit, .unit, .got (.ok (.own 2)), .unit])
    ∧ w.regs = [none] ∧ w.funs = [none] ∧ w.factories.map (·.owners) = [0, 0, 0, 0] :=
  ⟨_, rfl, rfl, rfl, rfl⟩

theorem program_selfContained : SelfContained program := by
  intro r kind type make h n
  simp only [program, List.mem_cons, Op.add.injEq, reduceCtorEq, false_or, or_false, List.not_mem_nil] at h
  rcases h with ⟨rfl, _, _, rfl⟩ | ⟨rfl, _, _, rfl⟩ | ⟨rfl, _, _, rfl⟩ | ⟨rfl, _, _, rfl⟩
  · exact blocking_asks (P := (· = 0)) rfl n
  all_goals exact .done _

/-- The conditions of `C87_function`: the sink was registered again and the registry is gone when it is called. -/
example : LastAdded (program.take 5) 0 .sink (ch! "null") (one 2) ∧ (Ideal.after (program.take 5)).funs.length = 0
    ∧ .drop 0 ∉ [Op.add 0 .sink (ch! "null") (one 3), .destroy 0]
    ∧ AllFine Ideal.init (program.take 5 ++ .find 0 .sink (ch! "null") :: [.add 0 .sink (ch! "null") (one 3), .destroy 0])
    ∧ Ends (Ideal.after (program.take 5 ++ .find 0 .sink (ch! "null") :: [.add 0 .sink (ch! "null") (one 3), .destroy 0]))
        (one 2 ⟨.null, []⟩) (.ok (.own 2)) := by
  refine ⟨⟨program.take 3, [.builder 0 doc1], rfl, by simp⟩, rfl, by simp, ?_, .done _⟩
  exact .cons .create (.cons (.add ⟨_, rfl⟩) (.cons (.add ⟨_, rfl⟩) (.cons (.add ⟨_, rfl⟩) (.cons (.builder ⟨_, rfl⟩)
    (.cons (.find ⟨_, rfl⟩) (.cons (.add ⟨_, rfl⟩) (.cons (.destroy ⟨_, rfl⟩) .nil)))))))

/-- The conditions of `C87_build`. -/
example : (Ideal.after (program.take 7)).Has 0 (fun k s =>
      if (k, s) = (.sink, ch! "null") then some (one 3) else if (k, s) = (.sink, ch! "null") then some (one 2)
      else if (k, s) = (.formatter, ch! "string") then some (one 1)
      else if (k, s) = (.handler, ch! "blocking") then some (blocking 0) else none) := rfl

example : Same (fun k s => if (k, s) = (.sink, ch! "null") then some (one 3) else if (k, s) = (.handler, ch! "blocking") then some (blocking 0) else none)
    0 ⟨[(ch! "null", fun _ => .ok (.own 3))], [], [], [(ch! "blocking", .blocking)]⟩ := by
  constructor
  · intro type
    by_cases h : type = ch! "null" <;> simp [Registry.find, h, eq_comm (a := type)]
    · rfl
    · simpa [eq_comm] using h
  · intro type; simp [Registry.find]
  · intro type
    by_cases h : type = ch! "blocking" <;> simp [Registry.find, h, eq_comm (a := type)]
    simpa [eq_comm] using h

end Blackhole.RegLife
