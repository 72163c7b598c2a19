import Verif.Lazy.Model
import Verif.StringFmt.Lemmas

/-! # C107: functions of lazy attributes -/

namespace Blackhole.Lazy

open Rec Pattern

/-! ## Specification -/

/-- The function of a value, if it has one. -/
def functionsOf : LValue → List Nat
  | .function id => [id]
  | _ => []

/-- The functions that a placeholder shows: that of the first attribute with its name; those of all attributes, as often as their
value is shown. -/
def shownBy (attributes : List (View × LValue)) : Token → List Nat
  | .required name _ => ((attributes.find? fun a => a.1.text = name).toList.flatMap fun a => functionsOf a.2)
  | .optional name _ _ => ((attributes.find? fun a => a.1.text = name).toList.flatMap fun a => functionsOf a.2)
  | .leftover l => attributes.flatMap fun a => l.items.flatMap fun
    | .value _ => functionsOf a.2
    | _ => []
  | _ => []

/-- `ids` are called, in this order; only the first of them if there is an exception. -/
def Calls {σ α : Type} (before : S σ) (after : S σ × Except Exc α) (ids : List Nat) : Prop :=
  ∃ new, after.1.calls = before.calls ++ new ∧ new.map (·.1) <+: ids ∧ ∀ x, after.2 = .ok x → new.map (·.1) = ids

/-- Every call got an empty writer. -/
def Alone {σ α : Type} (before : S σ) (after : S σ × Except Exc α) : Prop :=
  ∃ new, after.1.calls = before.calls ++ new ∧ ∀ c ∈ new, c.2 = []

/-- The attributes whose names did not come before. -/
def firsts (l : List (View × LValue)) : List (View × LValue) :=
  (List.range l.length).filterMap fun i =>
    match l[i]? with
    | some a => if (l.take i).all fun b => b.1.text ≠ a.1.text then some a else none
    | none => none

/-- A value whose function gives `out`. -/
def LValue.given (out : Nat → Except Nat Str) : LValue → Value
  | .null => .null
  | .bool b => .bool b
  | .sint z => .sint z
  | .uint n => .uint n
  | .double bits => .double bits
  | .string v => .string v
  | .function id => .function (out id)

/-- The record if every function gives a fixed text or exception. -/
def LRecord.given (out : Nat → Except Nat Str) (r : LRecord) : Record :=
  ⟨r.message, r.severity, r.timestamp, r.tid, r.pack.map fun l => l.map fun a => (a.1, a.2.given out)⟩

/-- Every function appends a fixed text, or throws. -/
def Appends {σ : Type} (fns : Fns σ) (out : Nat → Except Nat Str) : Prop :=
  ∀ id s w, match out id with
    | .ok t => (fns id s w).2 = (none, w ++ t)
    | .error k => (fns id s w).2.1 = some k

/-- What a function gives when it is called with an empty writer. -/
def result {σ : Type} (fns : Fns σ) (id : Nat) (world : σ) : Except Nat Str :=
  match (fns id world []).2 with
  | (some k, _) => .error k
  | (none, t) => .ok t

/-- The value with what its function gives then. -/
def LValue.then {σ : Type} (fns : Fns σ) (world : σ) : LValue → Value
  | .function id => .function (result fns id world)
  | v => v.given fun _ => .ok []

/-- The state when the function of a value was called. -/
def LValue.after {σ : Type} (fns : Fns σ) (world : σ) : LValue → σ
  | .function id => (fns id world []).1
  | _ => world

/-- The attributes when their functions are called one after the other, each with an empty writer. -/
def resolve {σ : Type} (fns : Fns σ) : σ → List (View × LValue) → List (View × Value)
  | _, [] => []
  | world, a :: as => (a.1, a.2.then fns world) :: resolve fns (a.2.after fns world) as

/-! ## Calls -/

theorem Calls.nil {σ α : Type} (s : S σ) (r : Except Exc α) : Calls s (s, r) [] := ⟨[], by simp, by simp, by simp⟩

/-- What an action calls. -/
def Does {σ : Type} (a : Act σ) (ids : List Nat) : Prop := ∀ s w, Calls s (a s w) ids

theorem does_emit {σ : Type} (r : Except Exc Str) : Does (σ := σ) (emit r) [] := by
  intro s w
  unfold emit
  split <;> exact .nil _ _

theorem does_call {σ : Type} (fns : Fns σ) (id : Nat) : Does (call fns id) [id] := by
  intro s w
  unfold call
  split <;> exact ⟨[(id, w)], rfl, by simp, by simp⟩

theorem does_value {σ : Type} (fns : Fns σ) (env : Env) (spec : Str) (v : LValue) :
    Does (writeValue fns env spec v) (functionsOf v) := by
  cases v with
  | function id => exact does_call fns id
  | _ => exact does_emit _

/-- What is called when something follows. -/
theorem Calls.then {σ α β : Type} {s : S σ} {x : S σ × Except Exc α} {ids more : List Nat} (h : Calls s x ids)
    {y : S σ × Except Exc β} (he : ∀ e, x.2 = .error e → y.1 = x.1 ∧ ∃ e', y.2 = .error e')
    (hk : ∀ a, x.2 = .ok a → Calls x.1 y more) : Calls s y (ids ++ more) := by
  obtain ⟨new, h1, h2, h3⟩ := h
  cases hx : x.2 with
  | error e =>
    obtain ⟨e1, e', e2⟩ := he e hx
    exact ⟨new, by rw [e1, h1], h2.trans (List.prefix_append _ _), fun a ha => by rw [e2] at ha; cases ha⟩
  | ok a =>
    obtain ⟨new', k1, k2, k3⟩ := hk a hx
    have h3 := h3 a hx
    refine ⟨new ++ new', by rw [k1, h1, List.append_assoc], ?_, fun b hb => ?_⟩
    · rw [List.map_append, h3]
      exact (List.prefix_append_right_inj _).2 k2
    · rw [List.map_append, h3, k3 b hb]

theorem does_seq {σ : Type} {as : List (Act σ)} {ids : List (List Nat)} (h : Both (fun a i => Does a i) as ids) :
    Does (seq as) ids.flatten := by
  induction h with
  | nil => intro s w; exact .nil _ _
  | @cons a i as ids h1 _ ih =>
    intro s w
    rw [List.flatten_cons]
    refine (h1 s w).then ?_ ?_
    · intro e he
      simp only [seq]
      split
      · next s' e' heq => rw [heq]; exact ⟨rfl, _, rfl⟩
      · next s' w' heq => rw [heq] at he; cases he
    · intro t ht
      simp only [seq]
      split
      · next s' e' heq => rw [heq] at ht; cases ht
      · next s' w' heq => rw [heq]; exact ih _ _

theorem does_inside {σ : Type} {a : Act σ} {ids : List Nat} (h : Does a ids) (use : Str → Except Exc Str) :
    Does (inside a use) ids := by
  intro s w
  have := (h s []).then (y := inside a use s w) (more := []) ?_ ?_
  · rwa [List.append_nil] at this
  · intro e he
    simp only [inside]
    split
    · next s' e' heq => rw [heq]; exact ⟨rfl, _, rfl⟩
    · next s' w' heq => rw [heq] at he; cases he
  · intro t ht
    simp only [inside]
    split
    · next s' e' heq => rw [heq] at ht; cases ht
    · next s' w' heq => rw [heq]; exact does_emit _ _ _

theorem both_map {α β γ : Type} {R : β → γ → Prop} {f : α → β} {g : α → γ} (l : List α) (h : ∀ a ∈ l, R (f a) (g a)) :
    Both R (l.map f) (l.map g) := by
  induction l with
  | nil => exact .nil
  | cons a l ih => exact .cons (h a List.mem_cons_self) (ih fun b hb => h b (List.mem_cons_of_mem _ hb))

theorem does_all {σ α : Type} {f : α → Act σ} {g : α → List Nat} (l : List α) (h : ∀ a, Does (f a) (g a)) :
    Does (seq (l.map f)) (l.flatMap g) := by
  rw [List.flatMap_def]
  exact does_seq (both_map l fun a _ => h a)

theorem does_item {σ : Type} (fns : Fns σ) (env : Env) (a : View × LValue) (i : Item) :
    Does (writeItem fns env a i) (match i with | .value _ => functionsOf a.2 | _ => []) := by
  cases i with
  | value spec => exact does_value _ _ _ _
  | _ => exact does_emit _

theorem both_leftover {σ : Type} (fns : Fns σ) (env : Env) (l : Leftover) (as : List (View × LValue)) (first : Bool) :
    ∃ ids, Both (fun a i => Does a i) (leftover fns env l as first) ids ∧ ids.flatten = shownBy as (.leftover l) := by
  induction as generalizing first with
  | nil => exact ⟨[], .nil, rfl⟩
  | cons a as ih =>
    obtain ⟨ids, h1, h2⟩ := ih false
    exact ⟨_, .cons (does_emit _) (.cons (does_all l.items (does_item fns env a)) h1), by
      simp only [List.flatten_cons, List.nil_append, h2, shownBy, List.flatMap_cons]⟩

theorem does_leftover {σ : Type} (fns : Fns σ) (env : Env) (l : Leftover) (as : List (View × LValue)) (first : Bool) :
    Does (seq (leftover fns env l as first)) (shownBy as (.leftover l)) := by
  obtain ⟨ids, h1, h2⟩ := both_leftover fns env l as first
  rw [← h2]
  exact does_seq h1

theorem find_eq (name : Str) (as : List (View × LValue)) :
    find name as = (as.find? fun a => a.1.text = name).map (·.2) := by
  induction as with
  | nil => rfl
  | cons a as ih =>
    simp only [find, List.find?_cons]
    by_cases h : a.1.text = name
    · simp [h]
    · simp [h, ih]

theorem does_render {σ : Type} (fns : Fns σ) (env : Env) (clock : StringFmt.Clock) (sevmap : StringFmt.SevMap) (r : LRecord)
    (t : Token) : Does (render fns env clock sevmap r t) (shownBy r.pack.flatten t) := by
  cases t with
  | required name spec =>
    simp only [render, find_eq, shownBy]
    cases h : r.pack.flatten.find? (fun a => decide (a.1.text = name)) with
    | none => exact does_emit _
    | some a => simpa using does_value fns env spec a.2
  | optional name spec o =>
    simp only [render, find_eq, shownBy]
    cases h : r.pack.flatten.find? (fun a => decide (a.1.text = name)) with
    | none => exact does_emit _
    | some a => simpa using does_value fns env spec a.2
  | leftover l => exact does_inside (does_leftover _ _ _ _ _) _
  | _ => exact does_emit _

/-- **C107, string formatters.** A function is called once for every placeholder that shows it, in their order; only those before
the exception if there is one. -/
theorem C107_string {σ : Type} (fns : Fns σ) (env : Env) (clock : StringFmt.Clock) (f : StringFmt.Formatter) (r : LRecord)
    (s : S σ) (w : Str) :
    Calls s (stringFormat fns env clock f r s w) (f.tokens.flatMap (shownBy r.pack.flatten)) :=
  does_all f.tokens (does_render fns env clock f.sevmap r) s w

theorem does_attribute {σ : Type} (fns : Fns σ) (env : Env) (data : Tskv.Data) (a : View × LValue) :
    Does (addAttribute fns env data a) (functionsOf a.2) := does_inside (does_value _ _ _ _) _

theorem both_emit {σ α : Type} (f : α → Except Exc Str) (l : List α) :
    Both (fun (a : Act σ) i => Does a i) (l.map fun x => emit (f x)) (l.map fun _ => []) :=
  both_map l fun _ _ => does_emit _

theorem both_append {α β : Type} {R : α → β → Prop} {a c : List α} {b d : List β} (h : Both R a b) (k : Both R c d) :
    Both R (a ++ c) (b ++ d) := by
  induction h with
  | nil => exact k
  | cons h _ ih => exact .cons h ih

theorem flatten_nils {α β : Type} (l : List α) : (l.map fun _ => ([] : List β)).flatten = [] := by
  induction l with
  | nil => rfl
  | cons _ _ ih => simpa using ih

/-- **C107, TSKV formatters.** Every function is called once, in the order of the attributes, also those of attributes that
are not shown. -/
theorem C107_tskv {σ : Type} (fns : Fns σ) (env : Env) (clock : StringFmt.Clock) (data : Tskv.Data) (r : LRecord)
    (s : S σ) (w : Str) :
    Calls s (tskvFormat fns env clock data r s w) (r.pack.flatten.flatMap fun a => functionsOf a.2) := by
  have one : ∀ x : Except Exc Str, Both (fun (a : Act σ) i => Does a i) [emit x] [[]] := fun x => .cons (does_emit _) .nil
  have h := both_append (both_append (both_append (both_append (both_append (both_append (both_append (one (.ok (ch! "tskv")))
    (both_emit (Tskv.addConstant env data) data.constants))
    (both_emit (Tskv.addTimestamp clock data r.bare) data.timestamps))
    (one (Tskv.addArg env data (ch! "severity") (.int r.severity)))) (one (Tskv.addArg env data (ch! "pid") (.ulong env.pid))))
    (one (env.write (ch! "\ttid={:#x}") (.ulong r.tid))))
    (one (.ok (Tskv.addView data (ch! "message") r.message.text))))
    (both_map r.pack.flatten fun a _ => does_attribute fns env data a)
  have := does_seq h s w
  simp only [List.flatten_append, flatten_nils, List.flatten_cons, List.flatten_nil, List.append_nil, List.nil_append] at this
  rw [← List.flatMap_def] at this
  exact this

theorem does_apply {σ : Type} (fns : Fns σ) (env : Env) (d : Json.Data) (a : View × LValue) (s : S σ) :
    Calls s (applyValue fns env d a s) (functionsOf a.2) := by
  have map : ∀ {x : S σ × Except Exc Str} {ids : List Nat}, Calls s x ids → Calls s (x.1, x.2.map Json.Leaf.str) ids := by
    intro x ids h
    have := h.then (y := (x.1, x.2.map Json.Leaf.str)) (more := []) (fun e he => ⟨rfl, e, by rw [he]; rfl⟩)
      (fun a ha => .nil _ _)
    rwa [List.append_nil] at this
  unfold applyValue
  split
  · exact map (does_value _ _ _ _ _ _)
  · cases a.2 with
    | function id => exact map (does_call _ _ _ _)
    | _ => exact .nil _ _

theorem does_place {σ : Type} (fns : Fns σ) (env : Env) (d : Json.Data) (as : List (View × LValue)) (s : S σ) (t : Json.Tree) :
    Calls s (placeAll fns env d as s t) (as.flatMap fun a => functionsOf a.2) := by
  induction as generalizing s t with
  | nil => exact .nil _ _
  | cons a as ih =>
    simp only [placeAll, List.flatMap_cons]
    cases hp : Json.parsePointer (d.pointer a.1.text) with
    | none => exact ⟨[], by simp, by simp, by simp⟩
    | some tokens =>
      have h := does_apply fns env d a s
      cases hx : applyValue fns env d a s with
      | mk s1 leaf =>
        rw [hx] at h
        simp only
        cases hpl : Json.place d t a.1.text leaf with
        | error e =>
          obtain ⟨new, h1, h2, -⟩ := h
          exact ⟨new, h1, h2.trans (List.prefix_append _ _), by simp⟩
        | ok t1 =>
          refine h.then (fun e he => ?_) (fun l hl => ih s1 t1)
          simp only at he
          subst he
          simp only [Json.place, hp] at hpl
          cases hpl

theorem ite_iff {α : Type} {p q : Prop} [Decidable p] [Decidable q] (h : p ↔ q) (a b : α) :
    (if p then a else b) = if q then a else b := by
  by_cases hp : p
  · rw [if_pos hp, if_pos (h.1 hp)]
  · rw [if_neg hp, if_neg fun hq => hp (h.2 hq)]

theorem uniques_eq (seen : List Str) (l : List (View × LValue)) :
    uniques seen l = (List.range l.length).filterMap fun i =>
      match l[i]? with
      | some a => if a.1.text ∉ seen ∧ (l.take i).all fun b => b.1.text ≠ a.1.text then some a else none
      | none => none := by
  induction l generalizing seen with
  | nil => rfl
  | cons a l ih =>
    rw [List.length_cons, List.range_succ_eq_map, List.filterMap_cons, List.filterMap_map]
    simp only [List.getElem?_cons_zero, List.take_zero, List.all_nil, and_true, uniques]
    have key : ∀ seen', (∀ x, x ∈ seen' ↔ x ∈ seen ∨ x = a.1.text) → uniques seen' l
        = (List.range l.length).filterMap ((fun i => match (a :: l)[i]? with
          | some b => if b.1.text ∉ seen ∧ ((a :: l).take i).all fun c => c.1.text ≠ b.1.text then some b else none
          | none => none) ∘ Nat.succ) := by
      intro seen' hs
      rw [ih]
      congr 1
      funext i
      simp only [Function.comp, Nat.succ_eq_add_one, List.getElem?_cons_succ, List.take_succ_cons, List.all_cons]
      cases l[i]? with
      | none => rfl
      | some b =>
        refine ite_iff ?_ _ _
        simp only [hs, not_or, Bool.and_eq_true, decide_eq_true_eq, ne_eq]
        constructor
        · rintro ⟨⟨h1, h2⟩, h3⟩
          exact ⟨h1, fun h => h2 h.symm, h3⟩
        · rintro ⟨h1, h2, h3⟩
          exact ⟨⟨h1, fun h => h2 h.symm⟩, h3⟩
    by_cases h : a.1.text ∈ seen
    · simp only [h, if_true, not_true_eq_false, if_false]
      exact key seen fun x => ⟨.inl, fun hx => hx.elim id fun e => e ▸ h⟩
    · simp only [h, if_false, not_false_eq_true, if_true]
      congr 1
      exact key _ fun x => by simp [or_comm]

/-- **C107, JSON formatters.** Every function is called once, in the order of the attributes; if names must be unique, only
those of the first attribute with each name. -/
theorem C107_json {σ : Type} (fns : Fns σ) (env : Env) (clock : StringFmt.Clock) (dtoa : Nat → Str) (d : Json.Data) (r : LRecord)
    (s : S σ) (w : Str) :
    Calls s (jsonFormat fns env clock dtoa d r s w)
      ((if d.unique then firsts r.pack.flatten else r.pack.flatten).flatMap fun a => functionsOf a.2) := by
  have hv : visited d r.pack = if d.unique then firsts r.pack.flatten else r.pack.flatten := by
    unfold visited firsts
    split
    · rw [uniques_eq]
      congr 1
      funext i
      cases r.pack.flatten[i]? with
      | none => rfl
      | some a => exact ite_iff (by simp) _ _
    · rfl
  rw [← hv]
  unfold jsonFormat
  split
  · exact ⟨[], by simp, by simp, by simp⟩
  · next t _ =>
    have h := does_place fns env d (visited d r.pack) s t
    split
    · next s' e heq => rw [heq] at h; obtain ⟨new, h1, h2, _⟩ := h; exact ⟨new, h1, h2, by simp⟩
    · next s' t' heq =>
      rw [heq] at h
      obtain ⟨new, h1, h2, h3⟩ := h
      exact ⟨new, h1, h2, fun _ _ => h3 t' rfl⟩

/-- **C107, queues.** A record that is put into the queue of an asynchronous sink calls every function once more. What it has then
calls no function any more. -/
theorem C107_queue {σ : Type} (fns : Fns σ) (as : List (View × LValue)) (s : S σ) :
    Calls s (intoOwnedAll fns as s) (as.flatMap fun a => functionsOf a.2)
    ∧ ∀ s' bs, intoOwnedAll fns as s = (s', .ok bs) → bs.flatMap (fun b => functionsOf b.2) = [] := by
  have one : ∀ (v : LValue) (s : S σ), Calls s (intoOwned fns v s) (functionsOf v)
      ∧ ∀ s' u, intoOwned fns v s = (s', .ok u) → functionsOf u = [] := by
    intro v s
    cases v with
    | function id =>
      constructor
      · have := (does_call fns id s []).then (y := intoOwned fns (.function id) s) (more := [])
          (fun e he => ⟨rfl, e, by simp only [intoOwned, he]; rfl⟩) (fun a ha => .nil _ _)
        rwa [List.append_nil] at this
      · intro s' u h
        simp only [intoOwned, Prod.mk.injEq] at h
        cases hc : (call fns id s []).2 with
        | error e => rw [hc] at h; cases h.2
        | ok t => rw [hc] at h; cases h.2; rfl
    | _ => exact ⟨.nil _ _, fun s' u h => by cases h; rfl⟩
  induction as generalizing s with
  | nil => exact ⟨.nil _ _, fun s' bs h => by cases h; rfl⟩
  | cons a as ih =>
    obtain ⟨h1, h2⟩ := one a.2 s
    constructor
    · rw [List.flatMap_cons]
      refine h1.then ?_ ?_
      · intro e he
        simp only [intoOwnedAll]
        split
        · next s' e' heq => rw [heq]; exact ⟨rfl, _, rfl⟩
        · next s' v heq => rw [heq] at he; cases he
      · intro v hv
        simp only [intoOwnedAll]
        split
        · next s' e' heq => rw [heq] at hv; cases hv
        · next s' v' heq =>
          rw [heq]
          have := (ih s').1
          split
          · next s2 e heq2 => rw [heq2] at this; obtain ⟨new, k1, k2, _⟩ := this; exact ⟨new, k1, k2, by simp⟩
          · next s2 vs heq2 => rw [heq2] at this; obtain ⟨new, k1, k2, k3⟩ := this; exact ⟨new, k1, k2, fun _ _ => k3 vs rfl⟩
    · intro s' bs h
      simp only [intoOwnedAll] at h
      split at h
      · cases h
      · next s1 v heq =>
        split at h
        · cases h
        · next s2 vs heq2 =>
          cases h
          rw [List.flatMap_cons, h2 _ _ heq, (ih s1).2 _ _ heq2]
          rfl

/-! ## What a function can see -/

theorem Alone.nil {σ α : Type} (s : S σ) (r : Except Exc α) : Alone s (s, r) := ⟨[], by simp, by simp⟩

theorem alone_value {σ : Type} (fns : Fns σ) (env : Env) (spec : Str) (v : LValue) (s : S σ) :
    Alone s (writeValue fns env spec v s []) := by
  have he : ∀ x : Except Exc Str, Alone s (emit x s []) := fun x => by unfold emit; split <;> exact .nil _ _
  cases v with
  | function id =>
    simp only [writeValue, call]
    split <;> exact ⟨[(id, [])], rfl, by simp⟩
  | _ => exact he _

theorem Alone.then {σ α β : Type} {s : S σ} {x : S σ × Except Exc α} {y : S σ × Except Exc β} (h : Alone s x)
    (k : Alone x.1 y) : Alone s y := by
  obtain ⟨n1, a1, a2⟩ := h
  obtain ⟨n2, b1, b2⟩ := k
  refine ⟨n1 ++ n2, by rw [b1, a1, List.append_assoc], fun c hc => ?_⟩
  rcases List.mem_append.1 hc with hc | hc
  · exact a2 c hc
  · exact b2 c hc

theorem alone_seq {σ : Type} {as : List (Act σ)} (h : ∀ a ∈ as, ∀ s w, Alone s (a s w)) (s : S σ) (w : Str) :
    Alone s (seq as s w) := by
  induction as generalizing s w with
  | nil => exact .nil _ _
  | cons a as ih =>
    have h1 := h a List.mem_cons_self s w
    simp only [seq]
    split
    · next s' e heq => rw [heq] at h1; exact h1
    · next s' t heq => rw [heq] at h1; exact h1.then (ih (fun b hb => h b (List.mem_cons_of_mem _ hb)) s' t)

/-- **C107, TSKV: nothing is seen.** A function gets a writer of its own. -/
theorem C107_tskv_alone {σ : Type} (fns : Fns σ) (env : Env) (clock : StringFmt.Clock) (data : Tskv.Data) (r : LRecord)
    (s : S σ) (w : Str) : Alone s (tskvFormat fns env clock data r s w) := by
  have he : ∀ (x : Except Exc Str) (s : S σ) (w : Str), Alone s (emit x s w) := fun x s w => by
    unfold emit; split <;> exact .nil _ _
  have ha : ∀ a s w, Alone s (addAttribute fns env data a s w) := by
    intro a s w
    have := alone_value fns env (ch! "{}") a.2 s
    simp only [addAttribute, inside]
    split
    · next heq => rw [heq] at this; exact this
    · next heq => rw [heq] at this; exact this.then (he _ _ _)
  refine alone_seq (fun a h => ?_) s w
  simp only [List.mem_append, List.mem_cons, List.not_mem_nil, or_false, List.mem_map] at h
  rcases h with ((((((rfl | ⟨_, _, rfl⟩) | ⟨_, _, rfl⟩) | rfl) | rfl) | rfl) | rfl) | ⟨b, _, rfl⟩
  all_goals first | exact he _ | exact ha _

theorem alone_place {σ : Type} (fns : Fns σ) (env : Env) (d : Json.Data) (as : List (View × LValue)) (s : S σ) (t : Json.Tree) :
    Alone s (placeAll fns env d as s t) := by
  induction as generalizing s t with
  | nil => exact .nil _ _
  | cons a as ih =>
    have h : Alone s (applyValue fns env d a s) := by
      unfold applyValue
      split
      · exact alone_value _ _ _ _ _
      · cases h : a.2 with
        | function id => exact alone_value fns env [] (.function id) s
        | _ => exact .nil _ _
    simp only [placeAll]
    split
    · exact .nil _ _
    · split
      · obtain ⟨new, h1, h2⟩ := h; exact ⟨new, h1, h2⟩
      · exact h.then (ih _ _)

/-- **C107, JSON: nothing is seen.** A function gets a writer of its own. -/
theorem C107_json_alone {σ : Type} (fns : Fns σ) (env : Env) (clock : StringFmt.Clock) (dtoa : Nat → Str) (d : Json.Data)
    (r : LRecord) (s : S σ) (w : Str) : Alone s (jsonFormat fns env clock dtoa d r s w) := by
  unfold jsonFormat
  split
  · exact .nil _ _
  · next t _ =>
    have := alone_place fns env d (visited d r.pack) s t
    split
    · next heq => rw [heq] at this; exact this
    · next heq => rw [heq] at this; exact this

/-! ## What a function can do -/

/-- The result of a part: its text behind what was there, or its exception. -/
def behind (w : Str) (r : Except Exc Str) : Except Exc Str := r.map (w ++ ·)

theorem emit_behind {σ : Type} (r : Except Exc Str) (s : S σ) (w : Str) : emit r s w = (s, behind w r) := by
  cases r <;> rfl

theorem value_then {σ : Type} (fns : Fns σ) (env : Env) (spec : Str) (v : LValue) (s : S σ) :
    (writeValue fns env spec v s []).1.world = v.after fns s.world
      ∧ (writeValue fns env spec v s []).2 = StringFmt.writeValue env spec (v.then fns s.world)
      ∧ (valueLeaf fns v s).1.world = v.after fns s.world
      ∧ (valueLeaf fns v s).2 = Json.valueLeaf (v.then fns s.world) := by
  have plain : ∀ (x : Except Exc Str), (emit x s []).1 = s ∧ (emit x s []).2 = x := by
    intro x; cases x <;> exact ⟨rfl, rfl⟩
  cases v with
  | function id =>
    simp only [writeValue, valueLeaf, call, result, LValue.then, LValue.after]
    rcases h : fns id s.world [] with ⟨s', _ | k, t⟩ <;> exact ⟨rfl, rfl, rfl, rfl⟩
  | null => exact ⟨congrArg S.world (plain _).1, (plain _).2, rfl, rfl⟩
  | bool b => exact ⟨congrArg S.world (plain _).1, (plain _).2, rfl, rfl⟩
  | sint z => exact ⟨congrArg S.world (plain _).1, (plain _).2, rfl, rfl⟩
  | uint n => exact ⟨congrArg S.world (plain _).1, (plain _).2, rfl, rfl⟩
  | double b => exact ⟨congrArg S.world (plain _).1, (plain _).2, rfl, rfl⟩
  | string v => exact ⟨congrArg S.world (plain _).1, (plain _).2, rfl, rfl⟩

theorem seq_emits {σ α : Type} (f : α → Except Exc Str) (l : List α) (rest : List (Act σ)) (s : S σ) (w : Str) :
    seq (l.map (fun x => emit (f x)) ++ rest) s w = match concat (l.map f) with
      | .error e => (s, .error e)
      | .ok t => seq rest s (w ++ t) := by
  induction l generalizing w with
  | nil => simp [concat]
  | cons x l ih =>
    simp only [List.map_cons, List.cons_append, seq, emit]
    cases hf : f x with
    | error e => rfl
    | ok t =>
      simp only [concat]
      rw [ih]
      cases concat (l.map f) with
      | error e => rfl
      | ok u => simp

theorem tskv_attributes {σ : Type} (fns : Fns σ) (env : Env) (data : Tskv.Data) (as : List (View × LValue)) (s : S σ) (w : Str) :
    (seq (as.map (addAttribute fns env data)) s w).2
      = behind w (concat ((resolve fns s.world as).map (Tskv.addAttribute env data))) := by
  induction as generalizing s w with
  | nil => simp [seq, resolve, concat, behind, Except.map]
  | cons a as ih =>
    obtain ⟨h1, h2, -⟩ := value_then fns env (ch! "{}") a.2 s
    simp only [List.map_cons, resolve, seq, addAttribute, inside, Tskv.addAttribute]
    rw [← h2, ← h1]
    rcases h : writeValue fns env (ch! "{}") a.2 s [] with ⟨s', e | t⟩
    · rfl
    · simp only [emit, concat]
      have := ih s' (w ++ Tskv.addView data a.1.text t)
      rw [this]
      cases concat ((resolve fns s'.world as).map (Tskv.addAttribute env data)) with
      | error e => rfl
      | ok u => simp [behind, Except.map]

/-- **C107, TSKV: nothing else is changed.** Whatever the functions do, the text is that of the record in which each attribute has
what its function put into its own writer. -/
theorem C107_tskv_text {σ : Type} (fns : Fns σ) (env : Env) (clock : StringFmt.Clock) (data : Tskv.Data) (r : LRecord) (s : S σ) :
    (tskvFormat fns env clock data r s []).2
      = Tskv.format env clock data { r.bare with pack := [resolve fns s.world r.pack.flatten] } := by
  have all : ∀ (pre : List (Except Exc Str)) (rest : List (Act σ)) (w : Str),
      seq (pre.map emit ++ rest) s w = match concat pre with
        | .error e => (s, .error e)
        | .ok t => seq rest s (w ++ t) := by
    intro pre rest w
    have := seq_emits (σ := σ) (fun y => y) pre rest s w
    rwa [List.map_id'] at this
  let pre : List (Except Exc Str) := [.ok (ch! "tskv")]
    ++ data.constants.map (Tskv.addConstant env data)
    ++ data.timestamps.map (Tskv.addTimestamp clock data r.bare)
    ++ [Tskv.addArg env data (ch! "severity") (.int r.severity)]
    ++ [Tskv.addArg env data (ch! "pid") (.ulong env.pid)]
    ++ [env.write (ch! "\ttid={:#x}") (.ulong r.tid)]
    ++ [.ok (Tskv.addView data (ch! "message") r.message.text)]
  have h1 : tskvFormat fns env clock data r s [] = seq (pre.map emit ++ r.pack.flatten.map (addAttribute fns env data)) s [] := by
    simp only [tskvFormat, pre, List.map_append, List.map_map, List.map_cons, List.map_nil]
    rfl
  have h2 : Tskv.format env clock data { r.bare with pack := [resolve fns s.world r.pack.flatten] }
      = concat (pre ++ (resolve fns s.world r.pack.flatten).map (Tskv.addAttribute env data)) := by
    simp only [Tskv.format, List.flatten_cons, List.flatten_nil, List.append_nil]
    rfl
  clear_value pre
  rw [h1, h2, all, StringFmt.concat_append]
  cases concat pre with
  | error e => rfl
  | ok t =>
    simp only [List.nil_append, tskv_attributes]
    cases concat ((resolve fns s.world r.pack.flatten).map (Tskv.addAttribute env data)) <;> rfl

theorem resolve_names {σ : Type} (fns : Fns σ) (world : σ) (as : List (View × LValue)) :
    (resolve fns world as).map (·.1.text) = as.map (·.1.text) := by
  induction as generalizing world with
  | nil => rfl
  | cons a as ih => simp only [resolve, List.map_cons, ih]

theorem json_attributes {σ : Type} (fns : Fns σ) (env : Env) (d : Json.Data) (as : List (View × LValue)) (s : S σ) (t : Json.Tree) :
    (placeAll fns env d as s t).2
      = Json.placeAll d t ((resolve fns s.world as).map fun a => (a.1.text, Json.applyValue env d a.1.text a.2)) := by
  induction as generalizing s t with
  | nil => rfl
  | cons a as ih =>
    have h : (applyValue fns env d a s).1.world = a.2.after fns s.world
        ∧ (applyValue fns env d a s).2 = Json.applyValue env d a.1.text (a.2.then fns s.world) := by
      unfold applyValue Json.applyValue Json.present
      cases Tskv.lookup a.1.text d.formatting with
      | none => exact ⟨(value_then fns env [] a.2 s).2.2.1, (value_then fns env [] a.2 s).2.2.2⟩
      | some spec =>
        exact ⟨(value_then fns env spec a.2 s).1, congrArg (·.map Json.Leaf.str) (value_then fns env spec a.2 s).2.1⟩
    simp only [placeAll, resolve, List.map_cons, Json.placeAll]
    rw [← h.2, ← h.1]
    cases hp : Json.parsePointer (d.pointer a.1.text) with
    | none => simp only [Json.place, hp]
    | some tokens =>
      simp only
      cases Json.place d t a.1.text (applyValue fns env d a s).2 with
      | error e => rfl
      | ok t' => exact ih _ _

theorem placeAll_append (d : Json.Data) (t : Json.Tree) (as bs : List (Str × Except Exc Json.Leaf)) :
    Json.placeAll d t (as ++ bs) = match Json.placeAll d t as with
      | .error e => .error e
      | .ok t => Json.placeAll d t bs := by
  induction as generalizing t with
  | nil => rfl
  | cons a as ih =>
    simp only [List.cons_append, Json.placeAll]
    cases Json.place d t a.1 a.2 with
    | error e => rfl
    | ok t => exact ih t

theorem uniques_id (seen : List Str) (l : List (View × Value)) (h : (l.map (·.1.text)).Nodup)
    (hs : ∀ x ∈ l.map (·.1.text), x ∉ seen) : Json.uniques seen l = l := by
  induction l generalizing seen with
  | nil => rfl
  | cons a l ih =>
    simp only [List.map_cons, List.nodup_cons] at h
    have h1 : a.1.text ∉ seen := hs _ (by simp)
    simp only [Json.uniques, h1, if_false]
    rw [ih _ h.2]
    intro x hx hin
    rcases List.mem_cons.1 hin with rfl | hin
    · exact h.1 hx
    · exact hs x (List.mem_cons_of_mem _ hx) hin

theorem uniques_nodup (seen : List Str) (l : List (View × LValue)) :
    ((uniques seen l).map (·.1.text)).Nodup ∧ ∀ x ∈ (uniques seen l).map (·.1.text), x ∉ seen := by
  induction l generalizing seen with
  | nil => simp [uniques]
  | cons a l ih =>
    unfold uniques
    split
    · exact ih seen
    · next h =>
      obtain ⟨h1, h2⟩ := ih (a.1.text :: seen)
      refine ⟨?_, ?_⟩
      · rw [List.map_cons, List.nodup_cons]
        exact ⟨fun hin => h2 _ hin List.mem_cons_self, h1⟩
      · intro x hx
        rcases List.mem_cons.1 hx with rfl | hx
        · exact h
        · exact fun hin => h2 x hx (List.mem_cons_of_mem _ hin)

/-- **C107, JSON: nothing else is changed.** Whatever the functions do, the text is that of the record in which each attribute that is
visited has what its function put into its own writer. -/
theorem C107_json_text {σ : Type} (fns : Fns σ) (env : Env) (clock : StringFmt.Clock) (dtoa : Nat → Str) (d : Json.Data)
    (r : LRecord) (s : S σ) :
    (jsonFormat fns env clock dtoa d r s []).2
      = Json.format env clock dtoa d
          { r.bare with pack := [resolve fns s.world (if d.unique then firsts r.pack.flatten else r.pack.flatten)] } := by
  have hv : visited d r.pack = if d.unique then firsts r.pack.flatten else r.pack.flatten := by
    unfold visited firsts
    split
    · rw [uniques_eq]
      congr 1
      funext i
      cases r.pack.flatten[i]? with
      | none => rfl
      | some a => exact ite_iff (by simp) _ _
    · rfl
  rw [← hv]
  have hvis : Json.visited d [resolve fns s.world (visited d r.pack)] = resolve fns s.world (visited d r.pack) := by
    unfold Json.visited
    rw [List.flatten_cons, List.flatten_nil, List.append_nil]
    split
    · next hu =>
      have hn := uniques_nodup [] r.pack.flatten
      refine uniques_id [] _ ?_ (by simp)
      rw [resolve_names, visited, if_pos hu]
      exact hn.1
    · rfl
  have hf : Json.fields env clock d { r.bare with pack := [resolve fns s.world (visited d r.pack)] }
      = Json.fields env clock d r.bare
        ++ (resolve fns s.world (visited d r.pack)).map fun a => (a.1.text, Json.applyValue env d a.1.text a.2) := by
    have h0 : Json.visited d r.bare.pack = [] := by
      unfold Json.visited
      split <;> rfl
    unfold Json.fields
    rw [hvis, h0, List.map_nil, List.append_nil]
    rfl
  simp only [jsonFormat, Json.format, Json.tree]
  rw [hf, placeAll_append]
  cases Json.placeAll d (.obj []) (Json.fields env clock d r.bare) with
  | error e => rfl
  | ok t =>
    have h := json_attributes fns env d (visited d r.pack) s t
    simp only
    rw [← h]
    rcases placeAll fns env d (visited d r.pack) s t with ⟨s', e | t'⟩ <;> rfl

end Blackhole.Lazy
