import Verif.Pipeline.Spec
import Verif.File.Props

namespace Blackhole.Pipeline

open Root (HOut expectedAttributes candidate delivered)
open Facade (FArg arguments)

/-! ## Arguments -/

theorem valuesOf_some {α : Type} {xs : List (FArg α)} {vs : List α} (h : Facade.valuesOf xs = some vs) : xs = vs.map .value := by
  induction xs generalizing vs with
  | nil => cases h; rfl
  | cons x xs ih =>
    cases x with
    | attributes l => cases h
    | value a =>
      simp only [Facade.valuesOf] at h
      split at h
      · cases h
      · rename_i as has
        cases h
        rw [ih has]; rfl

theorem lastOf_some {α : Type} {xs : List (FArg α)} {x : FArg α} (h : Facade.lastOf xs = some x) : ∃ ys, xs = ys ++ [x] := by
  rcases List.eq_nil_or_concat xs with rfl | ⟨ys, y, rfl⟩
  · cases h
  · rw [List.concat_eq_append, Facade.lastOf_snoc] at h
    cases h
    exact ⟨ys, List.concat_eq_append ..⟩

theorem select_some {α : Type} {xs : List (FArg α)} {vs : List α} {pack : Pack} (h : Facade.select xs = some (vs, pack)) :
    ∃ trailing, xs = arguments vs trailing := by
  unfold Facade.select at h
  split at h
  · split at h
    · cases h
    · rename_i as has
      cases h
      exact ⟨none, by rw [valuesOf_some has]; simp [arguments]⟩
  · rename_i l hl
    have hlast : Facade.lastOf xs = some (.attributes l) := by
      unfold Facade.withAttributes at hl
      split at hl
      · rename_i l' hl'
        cases hl
        exact hl'
      · cases hl
    obtain ⟨ys, rfl⟩ := lastOf_some hlast
    split at h
    · cases h
    · rename_i rest hrest
      split at h
      · cases h
      · rename_i as has
        cases h
        have hys : ys ≠ [] := by
          rintro rfl
          cases hrest
        rw [Facade.withoutTail_snoc ys _ hys] at hrest
        cases hrest
        exact ⟨some l, by rw [valuesOf_some has]; rfl⟩

theorem log_compiled {fd : Fmt.Spec → Nat → Except Fmt.Err Str} {e : Root.Env} {lg : Root.Logger} {sev : Int}
    {pattern : Facade.Pattern} {args : List (FArg FmtArgs.Passed)} {res : Root.Result}
    (h : Facade.log fd e lg sev pattern args = .ok res) : ∃ values trailing, args = arguments values trailing := by
  unfold Facade.log at h
  split at h
  · exact ⟨[], none, rfl⟩
  · rename_i l
    exact ⟨[], some l, rfl⟩
  · split at h
    · cases h
    · rename_i as pack hs
      obtain ⟨t, ht⟩ := select_some hs
      exact ⟨as, t, ht⟩

theorem arguments_inj {α : Type} {v v' : List α} {t t' : Option AttrList} (h : arguments v t = arguments v' t') :
    v = v' ∧ t = t' := by
  induction v generalizing v' with
  | nil =>
    cases v' with
    | nil =>
      cases t <;> cases t' <;> simp_all [arguments]
    | cons a as => cases t <;> simp_all [arguments]
  | cons a as ih =>
    cases v' with
    | nil => cases t' <;> simp_all [arguments]
    | cons b bs =>
      simp only [arguments, List.map_cons, List.cons_append, List.cons.injEq, FArg.value.injEq] at h
      obtain ⟨rfl, h⟩ := h
      obtain ⟨rfl, rfl⟩ := ih h
      exact ⟨rfl, rfl⟩

/-! ## The root logger -/

theorem scoped_ok {e : Root.Env} {lg : Root.Logger} {sev : Int} {msg : Str} {pack : Pack} {s : Root.Supplier}
    {res : Root.Result} (h : Root.consume e.world e.thread e.logger e.inner e.now sev msg
      (pack ++ lg.wrappers.map viewsOf) s = .ok res) : ∃ scopes, e.world.scoped e.thread e.logger = .ok scopes := by
  cases hs : e.world.scoped e.thread e.logger with
  | ok scopes => exact ⟨scopes, rfl⟩
  | error u => simp [Root.consume, hs, bind, Except.bind] at h

theorem accepted_unique {p : Process} {c : Call} {r r' : Root.Rec} (h : Accepted p c r) (h' : Accepted p c r') :
    r = r' := by
  cases h with
  | mk a1 a2 a3 a4 =>
    cases h' with
    | mk b1 b2 b3 b4 =>
      obtain ⟨rfl, rfl⟩ := arguments_inj (a1.symm.trans b1)
      rw [a2] at b2
      cases b2
      rcases a3 with ⟨a3, rfl⟩ | ⟨a3, ha⟩ <;> rcases b3 with ⟨b3, rfl⟩ | ⟨b3, hb⟩
      · rfl
      · exact absurd a3 b3
      · exact absurd b3 a3
      · rw [ha] at hb; cases hb; rfl

/-- The handler calls of a log call: one of each handler with the accepted record, or none. -/
theorem log_calls {p : Process} {c : Call} {hs : List Handler} {res : Root.Result}
    (h : Facade.log p.env.fd (c.env p hs) c.lg c.severity c.pattern c.args = .ok res) :
    (∃ r, Accepted p c r ∧ Root.calls res.trace = (List.range (roots p c 0 hs).length).map fun i => (i, r))
    ∨ ((∀ r, ¬ Accepted p c r) ∧ Root.calls res.trace = []) := by
  obtain ⟨values, trailing, ha⟩ := log_compiled h
  have hnot : ∀ scopes, c.world.scoped c.thread c.logger = .ok scopes →
      c.filter [] ⟨c.pattern.text, c.pattern.text, c.severity, 0, c.thread,
        expectedAttributes trailing.toList c.lg.wrappers scopes⟩ ≠ some true → ∀ r, ¬ Accepted p c r := by
    intro scopes hsc hf r hr
    cases hr with
    | mk b1 b2 b3 b4 =>
      obtain ⟨rfl, rfl⟩ := arguments_inj (ha.symm.trans b1)
      rw [hsc] at b2
      cases b2
      exact hf b4
  rw [ha] at h
  by_cases hv : values = []
  · subst hv
    have hcons : Root.consume c.world c.thread c.logger ⟨c.filter, roots p c 0 hs⟩ c.now c.severity c.pattern.text
        (trailing.toList ++ c.lg.wrappers.map viewsOf) .null = .ok res := by
      cases trailing with
      | none =>
        have h : Facade.lift (c.lg.logMsg (c.env p hs) c.severity c.pattern.text) = .ok res := h
        rw [Root.logMsg_eq, Root.logPack_eq] at h
        unfold Facade.lift at h
        split at h
        · cases h
        · rename_i r' hr'
          cases h
          exact hr'
      | some l =>
        have h : Facade.lift (c.lg.logPack (c.env p hs) c.severity c.pattern.text [l]) = .ok res := h
        rw [Root.logPack_eq] at h
        unfold Facade.lift at h
        split at h
        · cases h
        · rename_i r' hr'
          cases h
          exact hr'
    obtain ⟨scopes, hsc⟩ := scoped_ok (e := c.env p hs) hcons
    have hsc : c.world.scoped c.thread c.logger = .ok scopes := hsc
    have hlog : c.lg.logPack (c.env p hs) c.severity c.pattern.text trailing.toList = .ok res := by
      rw [Root.logPack_eq]; exact hcons
    cases hf : c.filter [] ⟨c.pattern.text, c.pattern.text, c.severity, 0, c.thread,
        expectedAttributes trailing.toList c.lg.wrappers scopes⟩ with
    | none =>
      right
      refine ⟨hnot scopes hsc (by rw [hf]; simp), ?_⟩
      have hf' : c.filter [] (Root.Rec.mk' c.severity c.pattern.text
        (trailing.toList ++ c.lg.wrappers.map viewsOf ++ scopes) c.thread) = none := hf
      simp only [Root.consume, hsc, bind, Except.bind, hf'] at hcons
      cases hcons
      rfl
    | some b =>
      cases b with
      | false =>
        right
        refine ⟨hnot scopes hsc (by rw [hf]; simp), ?_⟩
        obtain ⟨res', h1, -, -, h4, -⟩ := Root.C01_rejected_plain (c.env p hs) c.severity c.pattern.text c.lg
          trailing.toList scopes hsc hf
        rw [hlog] at h1
        cases h1
        exact h4
      | true =>
        left
        obtain ⟨res', h1, -, h3, -⟩ := Root.C01_accepted_plain (c.env p hs) c.severity c.pattern.text c.lg
          trailing.toList scopes hsc hf
        rw [hlog] at h1
        cases h1
        exact ⟨_, .mk ha hsc (.inl ⟨rfl, rfl⟩) hf, h3⟩
  · rw [Facade.log_arguments _ _ _ _ _ _ _ hv] at h
    have hlazy : ∃ res', c.lg.logLazy (c.env p hs) c.severity c.pattern.text
        (Facade.supplier (Facade.writeAll p.env.fd c.pattern values)) trailing.toList = .ok res' := by
      unfold Facade.callLazy at h
      split at h
      · cases h
      · rename_i r' hr'
        exact ⟨r', hr'⟩
    obtain ⟨res', hres'⟩ := hlazy
    have hcons := hres'
    rw [Root.logLazy_eq] at hcons
    obtain ⟨scopes, hsc⟩ := scoped_ok hcons
    have hsc : c.world.scoped c.thread c.logger = .ok scopes := hsc
    cases hf : c.filter [] ⟨c.pattern.text, c.pattern.text, c.severity, 0, c.thread,
        expectedAttributes trailing.toList c.lg.wrappers scopes⟩ with
    | none =>
      right
      refine ⟨hnot scopes hsc (by rw [hf]; simp), ?_⟩
      obtain ⟨res2, h1, h2, h3, -⟩ := Root.C02_filter_throws (c.env p hs) c.severity c.pattern.text c.lg
        trailing.toList scopes hsc (Facade.supplier (Facade.writeAll p.env.fd c.pattern values)) hf
      unfold Facade.callLazy at h
      simp only [h1, h2] at h
      cases h
      exact h3
    | some b =>
      cases b with
      | false =>
        right
        refine ⟨hnot scopes hsc (by rw [hf]; simp), ?_⟩
        obtain ⟨res2, h1, -, h3⟩ := Facade.callLazy_rejected (c.env p hs) c.severity c.lg scopes hsc c.pattern.text
          (Facade.writeAll p.env.fd c.pattern values) trailing.toList hf
        rw [h] at h1
        cases h1
        rw [h3]; rfl
      | true =>
        cases ht : Facade.writeAll p.env.fd c.pattern values with
        | ok text =>
          left
          rw [ht] at h
          obtain ⟨res2, rest, h1, -, h3, -⟩ := Facade.callLazy_accepted (c.env p hs) c.severity c.lg scopes hsc
            c.pattern.text text trailing.toList hf
          rw [h] at h1
          cases h1
          exact ⟨_, .mk ha hsc (.inr ⟨hv, ht⟩) hf, h3⟩
        | error err =>
          right
          constructor
          · intro r hr
            cases hr with
            | mk b1 b2 b3 b4 =>
              obtain ⟨rfl, rfl⟩ := arguments_inj (ha.symm.trans b1)
              rcases b3 with ⟨b3, -⟩ | ⟨-, b3⟩
              · exact hv b3
              · rw [ht] at b3; cases b3
          · cases err with
            | format m =>
              rw [ht] at h
              obtain ⟨res2, h1, -, h3⟩ := Facade.callLazy_throws (c.env p hs) c.severity c.lg scopes hsc
                c.pattern.text m trailing.toList hf
              rw [h] at h1
              cases h1
              exact h3
            | ub u =>
              rw [ht] at h
              obtain ⟨res2, h1, h2, -⟩ := Root.C02_supplier_throws (c.env p hs) c.severity c.pattern.text c.lg
                trailing.toList scopes hsc (Facade.supplier (.error (.ub u))) hf rfl
              unfold Facade.callLazy at h
              simp only [h1, h2] at h
              cases h

theorem roots_length (p : Process) (c : Call) (i : Nat) (hs : List Handler) : (roots p c i hs).length = hs.length := by
  induction hs generalizing i with
  | nil => rfl
  | cons h hs ih => simp [roots, ih]

/-! ## Records -/

theorem seenValue_iff {p : Process} {a : Attr.View} {b : Rec.Value} : SeenValue p a b ↔ b = valueOf p a := by
  constructor
  · intro h; cases h <;> rfl
  · rintro rfl; cases a <;> constructor

theorem seenList_iff {p : Process} {l : AttrList} {m : List (Rec.View × Rec.Value)} :
    Both (fun a b => b.1 = .at a.1 ['\x00'] ∧ SeenValue p a.2 b.2) l m ↔ m = l.map fun a => (viewOf a.1, valueOf p a.2) := by
  constructor
  · intro h
    induction h with
    | nil => rfl
    | @cons a b _ _ h _ ih =>
      obtain ⟨x, y⟩ := b
      rw [List.map_cons, ← ih, ← seenValue_iff.1 h.2]
      have : x = viewOf a.1 := h.1
      rw [this]
  · rintro rfl
    induction l with
    | nil => exact .nil
    | cons a l ih => exact .cons ⟨rfl, seenValue_iff.2 rfl⟩ ih

theorem seen_iff {p : Process} {r : Root.Rec} {seen : Rec.Record} : SeenAs p r seen ↔ seen = recordOf p r := by
  constructor
  · rintro ⟨h1, h2, h3, h4, h5⟩
    obtain ⟨m, s, t, i, pk⟩ := seen
    simp only at h1 h2 h3 h4 h5
    subst h1 h2 h3 h4
    have : pk = r.attributes.map fun l => l.map fun a => (viewOf a.1, valueOf p a.2) := by
      generalize r.attributes = as at h5
      induction h5 with
      | nil => rfl
      | cons h _ ih => rw [List.map_cons, ← ih, seenList_iff.1 h]
    subst this
    rfl
  · rintro rfl
    refine ⟨rfl, rfl, rfl, rfl, ?_⟩
    show Both _ _ (r.attributes.map _)
    generalize r.attributes = as
    induction as with
    | nil => exact .nil
    | cons l as ih => exact .cons (seenList_iff.2 rfl) ih

theorem renders_iff {p : Process} {c : Call} {f : Essentials.Formatter} {r : Root.Rec} {text : Str} :
    Renders p c f r text ↔ render p c.lwp (recordOf p r) f = .ok text := by
  constructor
  · rintro ⟨seen, h, e⟩
    rw [seen_iff.1 h] at e
    exact e
  · intro e
    exact ⟨_, seen_iff.2 rfl, e⟩

/-! ## Sinks and handlers -/

/-- Same kind of sink. -/
def Sink.kind : Sink → Nat
  | .file _ _ => 0
  | .console _ _ => 1
  | .null => 2
  | .other _ _ => 3

theorem kind_emit (rep : Reply) (sev : Int) (text : Str) (s : Sink) : (s.emit rep sev text).1.kind = s.kind := by
  cases s with
  | file path s =>
    simp only [Sink.emit]
    split <;> rfl
  | _ => rfl

theorem fails_kind {rep : Reply} {s t : Sink} (h : s.kind = t.kind) : Fails rep s ↔ Fails rep t := by
  cases s <;> cases t <;> simp_all [Sink.kind, Fails]

theorem file_throws {s : File.Sink} {o : File.Oracle} {m : Str} (h : (s.emit o m).2 ≠ .ok) :
    o.opened = none ∨ o.recorded = none := by
  have hc : ∀ s : File.Sink, (s.createBackend o).2 ≠ .ok → o.opened = none ∨ o.recorded = none := by
    intro s
    unfold File.Sink.createBackend
    cases o.opened <;> cases o.recorded <;> cases s.rotateFactory <;> simp
  unfold File.Sink.emit at h
  split at h
  · exact absurd rfl h
  · rename_i s' e he hb
    have hb' : (s.getBackend o).2 ≠ .ok := by
      rw [hb]; exact h
    unfold File.Sink.getBackend at hb'
    split at hb'
    · exact hc _ hb'
    · split at hb'
      · exact hc _ hb'
      · exact absurd rfl hb'

theorem emit_throws {rep : Reply} {sev : Int} {text : Str} {s : Sink} (h : (s.emit rep sev text).2 ≠ .ok) :
    Fails rep s := by
  cases s with
  | file path s =>
    simp only [Sink.emit] at h
    split at h
    · exact absurd rfl h
    · rename_i e he heq
      exact file_throws (s := s) (m := text) (by rw [heq]; exact he)
  | console s printed => exact absurd rfl h
  | null => exact absurd rfl h
  | other s given => exact h

theorem emitAll_spec (reps : Nat → Reply) (sev : Int) (text : Str) (k : Nat) (sinks : List Sink) :
    (emitAll reps sev text k sinks).1.length = sinks.length ∧
    ∀ j s, sinks[j]? = some s →
      (emitAll reps sev text k sinks).1[j]? = some (s.emit (reps (k + j)) sev text).1
      ∨ (emitAll reps sev text k sinks).1[j]? = some s
        ∧ ∃ j' t, j' < j ∧ sinks[j']? = some t ∧ Fails (reps (k + j')) t := by
  induction sinks generalizing k with
  | nil => simp [emitAll]
  | cons s0 rest ih =>
    obtain ⟨ih1, ih2⟩ := ih (k + 1)
    unfold emitAll
    split
    · rename_i s0' heq
      have e0 : (s0.emit (reps k) sev text).1 = s0' := by rw [heq]
      refine ⟨by simp [ih1], ?_⟩
      intro j s hj
      cases j with
      | zero =>
        cases hj
        left
        simp [e0]
      | succ j =>
        have hj : rest[j]? = some s := hj
        rcases ih2 j s hj with h | ⟨h, j', t, h1, h2, h3⟩
        · left
          simp only [List.getElem?_cons_succ]
          rw [h, show k + 1 + j = k + (j + 1) by omega]
        · right
          refine ⟨by simpa using h, j' + 1, t, by omega, by simpa using h2, ?_⟩
          rw [show k + (j' + 1) = k + 1 + j' by omega]
          exact h3
    · rename_i s0' o hne heq
      have e0 : (s0.emit (reps k) sev text).1 = s0' := by rw [heq]
      have hf : Fails (reps k) s0 := emit_throws (sev := sev) (text := text) (by rw [heq]; exact hne)
      refine ⟨by simp, ?_⟩
      intro j s hj
      cases j with
      | zero =>
        cases hj
        left
        simp [e0]
      | succ j =>
        right
        exact ⟨by simpa using hj, 0, s0, by omega, rfl, hf⟩

/-- Without failing sinks everything is emitted. -/
theorem emitAll_all (reps : Nat → Reply) (sev : Int) (text : Str) (k : Nat) (sinks : List Sink)
    (h : ∀ j s, sinks[j]? = some s → ¬ Fails (reps (k + j)) s) (j : Nat) (s : Sink) (hj : sinks[j]? = some s) :
    (emitAll reps sev text k sinks).1[j]? = some (s.emit (reps (k + j)) sev text).1 := by
  rcases (emitAll_spec reps sev text k sinks).2 j s hj with e | ⟨-, j', t, -, h2, h3⟩
  · exact e
  · exact absurd h3 (h j' t h2)

/-- What handling a record does to the sinks. -/
theorem handle_spec {p : Process} {lwp : Nat} {reps : Nat → Reply} {h h' : Handler} {r : Rec.Record} {o : HOut}
    (hh : h.handle p lwp reps r = .ok (h', o)) :
    h'.formatter = h.formatter ∧ h'.sinks.length = h.sinks.length ∧
    ((∃ text, render p lwp r h.formatter = .ok text ∧ h'.sinks = (emitAll reps r.severity text 0 h.sinks).1)
      ∨ ((∀ text, render p lwp r h.formatter ≠ .ok text) ∧ h' = h)) := by
  unfold Handler.handle at hh
  split at hh
  · cases hh
  · cases hh
  · rename_i m hr
    cases hh
    exact ⟨rfl, rfl, .inr ⟨fun text ht => (by rw [hr] at ht; cases ht), rfl⟩⟩
  · rename_i m hr
    cases hh
    exact ⟨rfl, rfl, .inr ⟨fun text ht => (by rw [hr] at ht; cases ht), rfl⟩⟩
  · rename_i m hr
    cases hh
    exact ⟨rfl, rfl, .inr ⟨fun text ht => (by rw [hr] at ht; cases ht), rfl⟩⟩
  · rename_i text hr
    split at hh
    rename_i sinks o' he
    cases hh
    refine ⟨rfl, ?_, .inl ⟨text, hr, ?_⟩⟩
    · have := (emitAll_spec reps r.severity text 0 h.sinks).1
      rw [he] at this
      exact this
    · simp only [he]

/-- The handlers are applied one by one. -/
theorem apply_range {p : Process} {c : Call} {r : Root.Rec} (k n : Nat) {hs hs' : List Handler}
    (h : apply p c ((List.range' k n).map fun i => (i, r)) hs = .ok hs') :
    hs'.length = hs.length ∧ ∀ i hd, hs[i]? = some hd →
      (i < k ∨ k + n ≤ i → hs'[i]? = some hd)
      ∧ (k ≤ i → i < k + n → ∃ hd' o, hd.handle p c.lwp (c.replies i) (recordOf p r) = .ok (hd', o) ∧ hs'[i]? = some hd') := by
  induction n generalizing k hs with
  | zero =>
    cases h
    exact ⟨rfl, fun i hd hi => ⟨fun _ => hi, fun h1 h2 => absurd h2 (by omega)⟩⟩
  | succ n ih =>
    simp only [List.range'_succ, List.map_cons, apply] at h
    split at h
    · cases h
    · rename_i hd0 hk
      split at h
      · cases h
      · rename_i hd1 o1 hh
        obtain ⟨ih1, ih2⟩ := ih (k + 1) h
        refine ⟨by simpa using ih1, ?_⟩
        intro i hd hi
        by_cases hik : i = k
        · subst hik
          rw [hk] at hi
          cases hi
          have hset : (hs.set i hd1)[i]? = some hd1 := by
            rw [List.getElem?_set_self]
            exact (List.getElem?_eq_some_iff.1 hk).1
          have := (ih2 i hd1 hset).1 (.inl (by omega))
          exact ⟨fun hx => absurd hx (by omega), fun _ _ => ⟨hd1, o1, hh, this⟩⟩
        · have hset : (hs.set k hd1)[i]? = some hd := by
            rw [List.getElem?_set_ne (by omega)]
            exact hi
          obtain ⟨a, b⟩ := ih2 i hd hset
          exact ⟨fun hx => a (by omega), fun h1 h2 => b (by omega) (by omega)⟩

/-- One log call, seen from one sink. -/
theorem step_sink {p : Process} {c : Call} {hs hs' : List Handler} (h : step p hs c = .ok hs') :
    hs'.length = hs.length ∧ ∀ i hd, hs[i]? = some hd → ∃ hd', hs'[i]? = some hd' ∧ hd'.formatter = hd.formatter
      ∧ hd'.sinks.length = hd.sinks.length
      ∧ ∀ j s, hd.sinks[j]? = some s → ∃ g, Given p hd i j c g ∧ hd'.sinks[j]? = some (s.after g.toList) := by
  unfold step at h
  split at h
  · cases h
  · rename_i res hlog
    split at h
    · cases h
    · rename_i hs2 happ
      cases h
      rcases log_calls hlog with ⟨r, hacc, hcalls⟩ | ⟨hno, hcalls⟩
      · rw [hcalls, List.range_eq_range', roots_length] at happ
        obtain ⟨h1, h2⟩ := apply_range 0 hs.length happ
        refine ⟨h1, ?_⟩
        intro i hd hi
        have hlt : i < hs.length := (List.getElem?_eq_some_iff.1 hi).1
        obtain ⟨hd', o, hh, hi'⟩ := (h2 i hd hi).2 (by omega) (by omega)
        obtain ⟨e1, e2, e3⟩ := handle_spec hh
        refine ⟨hd', hi', e1, e2, ?_⟩
        have hsev : (recordOf p r).severity = c.severity := by cases hacc; rfl
        intro j s hj
        rcases e3 with ⟨text, ht, es⟩ | ⟨hnt, rfl⟩
        · rw [hsev] at es
          rcases (emitAll_spec (c.replies i) c.severity text 0 hd.sinks).2 j s hj with e | ⟨e, j', t, a, b, d⟩
          · refine ⟨_, .emitted hacc (renders_iff.2 ht), ?_⟩
            rw [es, e]
            simp [Sink.after]
          · refine ⟨none, .earlier a b (by simpa using d), ?_⟩
            rw [es, e]
            rfl
        · exact ⟨none, .notRendered hacc (fun text ht => hnt text (renders_iff.1 ht)), hj⟩
      · rw [hcalls] at happ
        cases happ
        exact ⟨rfl, fun i hd hi => ⟨hd, hi, rfl, rfl, fun j s hj => ⟨none, .notAccepted hno, hj⟩⟩⟩

theorem after_append (s : Sink) (a b : List (Reply × Int × Str)) : s.after (a ++ b) = (s.after a).after b := by
  simp [Sink.after]

theorem kind_after (s : Sink) (es : List (Reply × Int × Str)) : (s.after es).kind = s.kind := by
  induction es generalizing s with
  | nil => rfl
  | cons e es ih =>
    show ((s.emit e.1 e.2.1 e.2.2).1.after es).kind = _
    rw [ih, kind_emit]

/-- Whether a sink is given something depends only on the kinds of the sinks before it. -/
theorem given_congr {p : Process} {h h' : Handler} {i j : Nat} {c : Call} {g : Option (Reply × Int × Str)}
    (hf : h'.formatter = h.formatter)
    (hk : ∀ (k : Nat) (s' : Sink), h'.sinks[k]? = some s' → ∃ s : Sink, h.sinks[k]? = some s ∧ s'.kind = s.kind)
    (hg : Given p h' i j c g) : Given p h i j c g := by
  cases hg with
  | emitted a b => exact .emitted a (hf ▸ b)
  | notAccepted a => exact .notAccepted a
  | notRendered a b => exact .notRendered a (hf ▸ b)
  | earlier a b d =>
    obtain ⟨s, hs, hks⟩ := hk _ _ b
    exact .earlier a hs ((fails_kind hks).1 d)

end Blackhole.Pipeline
