import Verif.Shared.Streams

/-!
# Log calls on several threads while handlers are replaced

A log call works with the handlers that the logger had when the call began: it takes a snapshot of them
(src/root.cpp:177-180, C06), which keeps them alive (C77). Assigning to a logger (src/root.cpp:128-149) changes what later
calls find. So between calls of any thread the handlers can be any others, also ones of other loggers: the number of a
handler says which of all handlers of the process it is.
-/

namespace Blackhole.Shared

open Pipeline (Process Call Handler Reply Given Fails Says Accepted Renders)
open Lock (Complete In Inv doneBy after Guarded Occurs byThread)

/-! ## Model -/

/-- A log call and the handlers of its snapshot, in their order, by their numbers (src/root.cpp:177-180). -/
structure Shot where
  call : Call
  active : List Nat

/-- The handlers with these numbers. -/
def pick (hs : List Handler) (active : List Nat) : List Handler := active.filterMap fun i => hs[i]?

/-- The loop at src/root.cpp:191-199 knows handlers by their place in the snapshot. -/
def renumber (active : List Nat) (l : List (Nat × Root.Rec)) : List (Nat × Root.Rec) :=
  l.filterMap fun x => active[x.1]?.map fun i => (i, x.2)

/-- One log call (src/root.cpp:175-201). -/
def shoot (p : Process) (hs : List Handler) (x : Shot) : Except Facade.Failure (List (List Task)) :=
  match Facade.log p.env.fd (x.call.env p (pick hs x.active)) x.call.lg x.call.severity x.call.pattern x.call.args with
  | .error f => .error f
  | .ok res =>
    match handleAll p hs x.call (renumber x.active (Root.calls res.trace)) with
    | .error u => .error (.ub u)
    | .ok gs => .ok gs

/-- The log calls of a thread. -/
def shots (p : Process) (hs : List Handler) : List Shot → Except Facade.Failure (List (List Task))
  | [] => .ok []
  | x :: xs =>
    match shoot p hs x with
    | .error f => .error f
    | .ok gs =>
      match shots p hs xs with
      | .error f => .error f
      | .ok rest => .ok (gs ++ rest)

/-! ## Specification -/

/-- Handlers belong to one logger each (they are held by `std::unique_ptr`), so no one is in a snapshot twice. -/
structure Shot.Fair (hs : List Handler) (x : Shot) : Prop where
  nodup : x.active.Nodup
  exist : ∀ i ∈ x.active, i < hs.length

/-- What the call has to give to sink `j` of handler `i`: nothing unless the handler is in its snapshot. -/
def GivenAt (p : Process) (h : Handler) (i j : Nat) (x : Shot) (g : Option (Reply × Int × Str)) : Prop :=
  (i ∈ x.active → Given p h i j x.call g) ∧ (i ∉ x.active → g = none)

/-- What the call has to say through the formatter of handler `i`. -/
def SaysAt (p : Process) (h : Handler) (i : Nat) (x : Shot) (l : Option Str) : Prop :=
  (i ∈ x.active → Says p h.formatter x.call l) ∧ (i ∉ x.active → l = none)

/-- What the call prints to a stream, given the texts of its handlers: handler by handler in the order of the snapshot. -/
def shotPrints (hs : List Handler) (st : Console.Stream) (x : Shot) (texts : List Str) : List Str :=
  (x.active.zip texts).flatMap fun y =>
    match hs[y.1]? with
    | some h => sinksPrint x.call st y.1 y.2 0 h.sinks
    | none => []

/-- What a call in which nothing fails has to print to a stream. -/
inductive ShownAt (p : Process) (hs : List Handler) (st : Console.Stream) (x : Shot) : List Str → Prop
  | accepted {r : Root.Rec} {texts : List Str} : Accepted p x.call r →
      Both (fun i text => ∃ h, hs[i]? = some h ∧ Renders p x.call h.formatter r text) x.active texts →
      ShownAt p hs st x (shotPrints hs st x texts)
  | notAccepted : (∀ r, ¬ Accepted p x.call r) → ShownAt p hs st x []

/-! ## Lemmas -/

theorem pick_length {hs : List Handler} {active : List Nat} (h : ∀ i ∈ active, i < hs.length) :
    (pick hs active).length = active.length := by
  induction active with
  | nil => rfl
  | cons i is ih =>
    have hi : hs[i]? = some (hs[i]'(h i List.mem_cons_self)) := List.getElem?_eq_getElem (h i List.mem_cons_self)
    unfold pick at ih ⊢
    rw [List.filterMap_cons, hi]
    simp [ih fun k hk => h k (List.mem_cons_of_mem _ hk)]

theorem renumber_range (active : List Nat) (r : Root.Rec) :
    renumber active ((List.range active.length).map fun k => (k, r)) = active.map fun i => (i, r) := by
  unfold renumber
  rw [List.filterMap_map]
  have : ∀ (k : Nat) (pre : List Nat), pre.length = k →
      (List.range' k active.length).filterMap
        ((fun x : Nat × Root.Rec => (pre ++ active)[x.1]?.map fun i => (i, x.2)) ∘ fun k => (k, r))
      = active.map fun i => (i, r) := by
    induction active with
    | nil => intro k pre _; rfl
    | cons a as ih =>
      intro k pre hk
      have h1 : (pre ++ a :: as)[k]? = some a := by rw [List.getElem?_append_right (by omega)]; simp [hk]
      rw [List.length_cons, List.range'_succ, List.filterMap_cons]
      simp only [Function.comp_apply, h1, Option.map_some]
      have := ih (k + 1) (pre ++ [a]) (by simp [hk])
      rw [List.append_assoc, List.singleton_append] at this
      rw [this]
      rfl
  have := this 0 [] rfl
  rw [List.nil_append] at this
  rw [List.range_eq_range']
  exact this

theorem handleAll_list {p : Process} {hs : List Handler} {c : Call} {r : Root.Rec} (active : List Nat)
    (hnd : active.Nodup) {gs : List (List Task)}
    {d : Done} (h : handleAll p hs c (active.map fun i => (i, r)) = .ok gs) (hc : Complete gs d)
    {i j : Nat} {hd : Handler} (hi : hs[i]? = some hd) :
    (i ∉ active → emitsAt (.sink i j) d = [])
    ∧ (i ∈ active → ∃ g d', handle p c i hd (Pipeline.recordOf p r) = .ok g ∧ Complete [g] d'
        ∧ (∀ x ∈ d', x ∈ d) ∧ emitsAt (.sink i j) d = emitsAt (.sink i j) d') := by
  induction active generalizing gs d with
  | nil =>
    cases h
    cases hc
    exact ⟨fun _ => rfl, fun h => (by cases h)⟩
  | cons k ks ih =>
    simp only [List.map_cons, handleAll] at h
    split at h
    · cases h
    · rename_i h0 hk
      split at h
      · cases h
      · rename_i g0 hg0
        split at h
        · cases h
        · rename_i gs' hgs'
          cases h
          obtain ⟨d1, d2, rfl, hc1, hc2⟩ := Complete.append (a := [g0]) (b := gs') hc
          obtain ⟨hk1, hk2⟩ := List.nodup_cons.1 hnd
          obtain ⟨ih1, ih2⟩ := ih hk2 hgs' hc2
          rw [emitsAt_append]
          by_cases hik : i = k
          · subst hik
            refine ⟨fun hx => absurd List.mem_cons_self hx, fun _ => ⟨g0, d1, ?_, hc1, fun x hx => by simp [hx], ?_⟩⟩
            · rw [hi] at hk
              cases hk
              exact hg0
            · rw [ih1 hk1]; simp
          · rw [handle_other hg0 hc1 hik]
            refine ⟨fun hx => ih1 fun hm => hx (List.mem_cons_of_mem _ hm), fun h1 => ?_⟩
            obtain ⟨g, d', a, b, e1, e2⟩ := ih2 (by simpa [hik] using h1)
            exact ⟨g, d', a, b, fun x hx => by simp [e1 x hx], e2⟩

/-- One log call: which handlers it calls, and with what. -/
theorem shoot_cases {p : Process} {hs : List Handler} {x : Shot} {gs : List (List Task)} (hx : x.Fair hs)
    (h : shoot p hs x = .ok gs) :
    (∃ r, Accepted p x.call r ∧ handleAll p hs x.call (x.active.map fun i => (i, r)) = .ok gs)
    ∨ ((∀ r, ¬ Accepted p x.call r) ∧ gs = []) := by
  unfold shoot at h
  split at h
  · cases h
  · rename_i res hlog
    split at h
    · cases h
    · rename_i gs' hgs
      cases h
      rcases Pipeline.log_calls hlog with ⟨r, hacc, hcalls⟩ | ⟨hno, hcalls⟩
      · rw [hcalls, Pipeline.roots_length, pick_length hx.exist, renumber_range] at hgs
        exact .inl ⟨r, hacc, hgs⟩
      · rw [hcalls] at hgs
        cases hgs
        exact .inr ⟨hno, rfl⟩

theorem shoot_given {p : Process} {hs : List Handler} {x : Shot} {gs : List (List Task)} {d : Done} (hx : x.Fair hs)
    (h : shoot p hs x = .ok gs) (hc : Complete gs d) (hh : Honest d) {i j : Nat} {hd : Handler}
    {s0 : Pipeline.Sink} (hi : hs[i]? = some hd) (hown : Own s0) (hj : hd.sinks[j]? = some s0) :
    ∃ g, GivenAt p hd i j x g ∧ emitsAt (.sink i j) d = g.toList := by
  rcases shoot_cases hx h with ⟨r, hacc, hgs⟩ | ⟨hno, rfl⟩
  · obtain ⟨e1, e2⟩ := handleAll_list x.active hx.nodup hgs hc (j := j) hi
    by_cases hm : i ∈ x.active
    · obtain ⟨g, d', h1, h2, h3, h4⟩ := e2 hm
      rw [h4]
      have key : ∃ g, Given p hd i j x.call g ∧ emitsAt (.sink i j) d' = g.toList := by
        have hsev : (Pipeline.recordOf p r).severity = x.call.severity := by cases hacc; rfl
        rcases handle_cases h1 with ⟨text, ht, rfl⟩ | ⟨hnt, o, rfl⟩
        · rw [hsev] at h2
          rcases group_spec h2 (fun x hx => hh x (h3 x hx)) hown hj with e | ⟨e, k, s, a, b, f⟩
          · rw [Nat.zero_add] at e
            exact ⟨_, .emitted hacc (Pipeline.renders_iff.2 ht), by rw [e]; rfl⟩
          · rw [Nat.zero_add] at e f
            exact ⟨none, .earlier a b f, by rw [e]; rfl⟩
        · refine ⟨none, .notRendered hacc (fun text ht => hnt text (Pipeline.renders_iff.1 ht)), ?_⟩
          refine emitsAt_nil fun x hx => ?_
          obtain ⟨g, hg, y, hy, e⟩ := Complete.did h2 x hx
          simp only [List.mem_singleton] at hg
          subst hg
          simp only [List.mem_singleton] at hy
          subst hy
          rcases e with e | e
          · rw [e]; simp [report, Lock.Op.alone]
          · simp [Lock.Op.alone] at e
      obtain ⟨g, k1, k2⟩ := key
      exact ⟨g, ⟨fun _ => k1, fun hn => absurd hm hn⟩, k2⟩
    · exact ⟨none, ⟨fun hn => absurd hn hm, fun _ => rfl⟩, by rw [e1 hm]; rfl⟩
  · cases hc
    exact ⟨none, ⟨fun _ => .notAccepted hno, fun _ => rfl⟩, rfl⟩

theorem shots_given {p : Process} {hs : List Handler} {xs : List Shot} {gs : List (List Task)} {d : Done}
    (hx : ∀ x ∈ xs, x.Fair hs) (h : shots p hs xs = .ok gs) (hc : Complete gs d) (hh : Honest d) {i j : Nat} {hd : Handler}
    {s0 : Pipeline.Sink} (hi : hs[i]? = some hd) (hown : Own s0) (hj : hd.sinks[j]? = some s0) :
    ∃ gl, Both (GivenAt p hd i j) xs gl ∧ emitsAt (.sink i j) d = gl.flatMap Option.toList := by
  induction xs generalizing gs d with
  | nil =>
    cases h
    cases hc
    exact ⟨[], .nil, rfl⟩
  | cons x xs ih =>
    simp only [shots] at h
    split at h
    · cases h
    · rename_i g1 hg1
      split at h
      · cases h
      · rename_i g2 hg2
        cases h
        obtain ⟨d1, d2, rfl, hc1, hc2⟩ := Complete.append hc
        obtain ⟨g, hg, e1⟩ := shoot_given (hx x List.mem_cons_self) hg1 hc1 (fun x hx => hh x (by simp [hx])) hi hown hj
        obtain ⟨gl, hgl, e2⟩ := ih (fun y hy => hx y (List.mem_cons_of_mem _ hy)) hg2 hc2 (fun x hx => hh x (by simp [hx]))
        exact ⟨g :: gl, .cons hg hgl, by rw [emitsAt_append, e1, e2, List.flatMap_cons]⟩

theorem shots_kind {p : Process} {hs : List Handler} {xs : List Shot} {gs : List (List Task)}
    (h : shots p hs xs = .ok gs) {op : Emit} (hop : In gs op) : Kind hs op := by
  induction xs generalizing gs with
  | nil =>
    cases h
    obtain ⟨g, hg, -⟩ := hop
    cases hg
  | cons x xs ih =>
    simp only [shots] at h
    split at h
    · cases h
    · rename_i g1 hg1
      split at h
      · cases h
      · rename_i g2 hg2
        cases h
        rcases in_append.1 hop with h1 | h1
        · unfold shoot at hg1
          split at hg1
          · cases hg1
          · split at hg1
            · cases hg1
            · rename_i gs' hgs
              cases hg1
              exact handleAll_kind hgs h1
        · exact ih hg2 h1

theorem handleAll_list_show {p : Process} {hs : List Handler} {x : Shot} {r : Root.Rec} (st : Console.Stream)
    (hsev : (Pipeline.recordOf p r).severity = x.call.severity) (active : List Nat)
    {gs : List (List Task)} {texts : List Str}
    (h : handleAll p hs x.call (active.map fun i => (i, r)) = .ok gs)
    (ht : Both (fun i text => ∃ h, hs[i]? = some h ∧ Renders p x.call h.formatter r text) active texts)
    (hfine : ∀ i ∈ active, ∀ h, hs[i]? = some h → ∀ k s, h.sinks[k]? = some s → ¬ Fails (x.call.replies i k) s) :
    tasksShow st gs.flatten = ((active.zip texts).flatMap fun y =>
      match hs[y.1]? with
      | some h => sinksPrint x.call st y.1 y.2 0 h.sinks
      | none => [])
    ∧ ∀ g ∈ gs, ∀ x ∈ g, ¬ CanFail x.toOp ∧ x.lock ≠ none := by
  induction ht generalizing gs with
  | nil =>
    cases h
    exact ⟨rfl, by intro g hg; cases hg⟩
  | @cons i text is texts hi _ ih =>
    obtain ⟨hd, hget, ht⟩ := hi
    simp only [List.map_cons, handleAll, hget] at h
    split at h
    · cases h
    · rename_i g hg
      split at h
      · cases h
      · rename_i gs' hgs
        cases h
        obtain ⟨ih1, ih2⟩ := ih hgs fun k hk => hfine k (List.mem_cons_of_mem _ hk)
        have hr := Pipeline.renders_iff.1 ht
        rcases handle_cases hg with ⟨text', ht', rfl⟩ | ⟨hnt, o, rfl⟩
        · rw [hr] at ht'
          cases ht'
          rw [hsev]
          refine ⟨?_, ?_⟩
          · rw [List.flatten_cons, tasksShow_append, ih1, emitAll_show, List.zip_cons_cons, List.flatMap_cons]
            simp only [hget]
          · intro g hg x hx
            rcases List.mem_cons.1 hg with rfl | hg
            · obtain ⟨m, s, h1, h2⟩ := emitAll_mem hx
              rw [Nat.zero_add] at h2
              exact emits_fine (hfine i List.mem_cons_self _ hget m s h1) h2
            · exact ih2 g hg x hx
        · exact absurd hr (hnt text)

theorem shots_show {p : Process} {hs : List Handler} {xs : List Shot} {st : Console.Stream} {gs : List (List Task)}
    {outs : List (List Str)} (hx : ∀ x ∈ xs, x.Fair hs) (h : shots p hs xs = .ok gs) (hout : Both (ShownAt p hs st) xs outs)
    (hfine : ∀ x ∈ xs, ∀ i ∈ x.active, ∀ h, hs[i]? = some h → ∀ k s, h.sinks[k]? = some s →
      ¬ Fails (x.call.replies i k) s) :
    tasksShow st gs.flatten = outs.flatten ∧ ∀ g ∈ gs, ∀ x ∈ g, ¬ CanFail x.toOp ∧ x.lock ≠ none := by
  induction hout generalizing gs with
  | nil => cases h; exact ⟨rfl, by intro g hg; cases hg⟩
  | @cons x out xs outs hc _ ih =>
    simp only [shots] at h
    split at h
    · cases h
    · rename_i g1 hg1
      split at h
      · cases h
      · rename_i g2 hg2
        cases h
        obtain ⟨b1, b2⟩ := ih (fun y hy => hx y (List.mem_cons_of_mem _ hy)) hg2
          fun y hy => hfine y (List.mem_cons_of_mem _ hy)
        have key : tasksShow st g1.flatten = out ∧ ∀ g ∈ g1, ∀ x ∈ g, ¬ CanFail x.toOp ∧ x.lock ≠ none := by
          rcases shoot_cases (hx x List.mem_cons_self) hg1 with ⟨r, hacc, hgs⟩ | ⟨hno, rfl⟩
          · have hsev : (Pipeline.recordOf p r).severity = x.call.severity := by cases hacc; rfl
            cases hc with
            | accepted hacc' ht =>
              cases Pipeline.accepted_unique hacc hacc'
              exact handleAll_list_show st hsev x.active hgs ht (hfine x List.mem_cons_self)
            | notAccepted hno => exact absurd hacc (hno r)
          · cases hc with
            | accepted hacc ht => exact absurd hacc (hno _)
            | notAccepted _ => exact ⟨rfl, by intro g hg; cases hg⟩
        refine ⟨by rw [List.flatten_append, tasksShow_append, key.1, b1, List.flatten_cons], ?_⟩
        intro g hg
        rcases List.mem_append.1 hg with hg | hg
        · exact key.2 g hg
        · exact b2 g hg

theorem shots_nil {p : Process} {hs : List Handler} {n : Nat} {calls : Nat → List Shot} (hn : ∀ t, n ≤ t → calls t = [])
    {programs : Nat → List (List Task)} (hp : ∀ t, shots p hs (calls t) = .ok (programs t)) :
    ∀ t, n ≤ t → programs t = [] := by
  intro t ht
  have := hp t
  rw [hn t ht] at this
  injection this with this
  exact this.symm

theorem given_texts_at {p : Process} {h : Handler} {i j : Nat} {xs : List Shot} {gs : List (Option (Reply × Int × Str))}
    {ts : List (Option Str)} {path : Str} {s0 : File.Sink} (hj : h.sinks[j]? = some (.file path s0))
    (hg : Both (GivenAt p h i j) xs gs) (hs : Both (SaysAt p h i) xs ts)
    (hok : ∀ x ∈ xs, i ∈ x.active → ∀ k s, h.sinks[k]? = some s → ¬ Fails (x.call.replies i k) s) :
    (gs.flatMap Option.toList).map (·.2.2) = ts.filterMap id
    ∧ ∀ e ∈ gs.flatMap Option.toList, e.1.file.opened ≠ none ∧ e.1.file.recorded ≠ none := by
  induction hg generalizing ts with
  | nil => cases hs; exact ⟨rfl, by intro e he; cases he⟩
  | @cons x g xs gs hg _ ih =>
    cases hs with
    | @cons _ t _ _ ht hrest =>
      obtain ⟨ih1, ih2⟩ := ih hrest fun y hy => hok y (List.mem_cons_of_mem _ hy)
      by_cases hm : i ∈ x.active
      · have hg := Pipeline.given_says (hg.1 hm) (ht.1 hm) (hok x List.mem_cons_self hm)
        subst hg
        have hf := hok x List.mem_cons_self hm j _ hj
        cases t with
        | none => exact ⟨by simpa using ih1, by simpa using ih2⟩
        | some text =>
          refine ⟨by simpa using ih1, ?_⟩
          intro e he
          simp only [Option.map_some, List.flatMap_cons, Option.toList_some, List.singleton_append, List.mem_cons] at he
          rcases he with rfl | he
          · simpa [Fails] using hf
          · exact ih2 e he
      · have h1 := hg.2 hm
        have h2 := ht.2 hm
        subst h1
        subst h2
        exact ⟨by simpa using ih1, by simpa using ih2⟩

end Blackhole.Shared
