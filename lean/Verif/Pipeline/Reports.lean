import Verif.Pipeline.Formats

/-!
# Properties of the whole way from log calls to sinks: what is said about failing handlers (C65)
-/

namespace Blackhole.Pipeline

open Root (HOut)

/-- The lines that the logger prints to the standard output during a log call (src/root.cpp:194-198). -/
def reports (p : Process) (hs : List Handler) (c : Call) : List Str :=
  match Facade.log p.env.fd (c.env p hs) c.lg c.severity c.pattern c.args with
  | .ok res => Root.printed res.trace
  | .error _ => []

/-! ## Specification -/

/-- How handler `i`, which is `h`, ends with the record of the call: with the exception of its formatter, otherwise with
the one of its first sink that throws, otherwise well. -/
inductive Ends (p : Process) (c : Call) (i : Nat) (h : Handler) (r : Root.Rec) : HOut → Prop
  | format {seen : Rec.Record} {m : Str} : SeenAs p r seen →
      render p c.lwp seen h.formatter = .error (.fmt (.format m)) → Ends p c i h r (.throwStd m)
  | logic {seen : Rec.Record} {m : Str} : SeenAs p r seen →
      render p c.lwp seen h.formatter = .error (.logic m) → Ends p c i h r (.throwStd m)
  | user {seen : Rec.Record} {n : Nat} : SeenAs p r seen →
      render p c.lwp seen h.formatter = .error (.user n) → Ends p c i h r .throwOther
  | sink {text : Str} {k : Nat} {s : Sink} {o : HOut} : Renders p c h.formatter r text → h.sinks[k]? = some s →
      (∀ (j : Nat) (t : Sink), j < k → h.sinks[j]? = some t → (t.emit (c.replies i j) c.severity text).2 = .ok) →
      (s.emit (c.replies i k) c.severity text).2 = o → o ≠ .ok → Ends p c i h r o
  | well {text : Str} : Renders p c h.formatter r text →
      (∀ (j : Nat) (t : Sink), h.sinks[j]? = some t → (t.emit (c.replies i j) c.severity text).2 = .ok) →
      Ends p c i h r .ok

/-! ## Proof -/

/-- Each line in the trace is the report of a handler call in it. -/
def Fits (f : Nat → Root.Rec → HOut) (tr : Root.Trace) : Prop :=
  Root.printed tr = (Root.calls tr).flatMap fun x => Root.report (f x.1 x.2)

theorem fits_handleAll {f : Nat → Root.Rec → HOut} (r : Root.Rec) (i : Nat) (hs : List Root.Handler) (tr : Root.Trace)
    (hf : ∀ (k : Nat) (h : Root.Handler), hs[k]? = some h → ∀ tr r, h tr r = f (i + k) r) (ht : Fits f tr) :
    Fits f (Root.handleAll r i hs tr) := by
  induction hs generalizing i tr with
  | nil => exact ht
  | cons h hs ih =>
    refine ih (i + 1) _ (fun k h hk tr r => ?_) ?_
    · rw [hf (k + 1) h hk tr r, show i + (k + 1) = i + 1 + k by omega]
    · have h0 : h tr r = f i r := hf 0 h rfl tr r
      have hcalls : ∀ a b : Root.Trace, Root.calls (a ++ b) = Root.calls a ++ Root.calls b := by
        intro a b
        induction a with
        | nil => rfl
        | cons e a ih => cases e <;> simp [Root.calls, ih]
      have hline : ∀ l : List Str, Root.printed (l.map Root.Ev.stdout) = l ∧ Root.calls (l.map Root.Ev.stdout) = [] := by
        intro l
        induction l with
        | nil => exact ⟨rfl, rfl⟩
        | cons x l ih => exact ⟨by simp [Root.printed, ih.1], by simp [Root.calls, ih.2]⟩
      unfold Fits at ht ⊢
      rw [Root.diagnostic_eq, Root.printed_append, Root.printed_append, hcalls, hcalls, (hline _).1, (hline _).2, ht, h0]
      simp [Root.printed, Root.calls]

theorem fits_consume {f : Nat → Root.Rec → HOut} {w : Scope.World} {t l : Nat} {inner : Root.Inner} {now sev : Int}
    {pattern : Str} {pack : Pack} {s : Root.Supplier} {res : Root.Result}
    (hf : ∀ (k : Nat) (h : Root.Handler), inner.handlers[k]? = some h → ∀ tr r, h tr r = f k r)
    (h : Root.consume w t l inner now sev pattern pack s = .ok res) : Fits f res.trace := by
  have hf : ∀ (k : Nat) (h : Root.Handler), inner.handlers[k]? = some h → ∀ tr r, h tr r = f (0 + k) r := by
    simpa using hf
  unfold Root.consume at h
  cases hs : w.scoped t l with
  | error u => simp [hs, bind, Except.bind] at h
  | ok lists =>
    simp only [hs, bind, Except.bind] at h
    split at h
    · cases h; rfl
    · cases h; rfl
    · split at h
      · cases h; exact fits_handleAll _ 0 _ _ hf rfl
      · split at h
        · cases h; rfl
        · cases h; exact fits_handleAll _ 0 _ _ hf rfl

theorem fits_log {f : Nat → Root.Rec → HOut} {fd : Fmt.Spec → Nat → Except Fmt.Err Str} {e : Root.Env} {lg : Root.Logger}
    {sev : Int} {pattern : Facade.Pattern} {args : List (Facade.FArg FmtArgs.Passed)} {res : Root.Result}
    (hf : ∀ (k : Nat) (h : Root.Handler), e.inner.handlers[k]? = some h → ∀ tr r, h tr r = f k r)
    (h : Facade.log fd e lg sev pattern args = .ok res) : Fits f res.trace := by
  unfold Facade.log at h
  split at h
  · unfold Facade.lift at h
    split at h
    · cases h
    · rename_i r hr
      cases h
      rw [Root.logMsg_eq, Root.logPack_eq] at hr
      exact fits_consume hf hr
  · unfold Facade.lift at h
    split at h
    · cases h
    · rename_i r hr
      cases h
      rw [Root.logPack_eq] at hr
      exact fits_consume hf hr
  · split at h
    · cases h
    · unfold Facade.callLazy at h
      split at h
      · cases h
      · rename_i r hr
        split at h
        · cases h
        · cases h
          rw [Root.logLazy_eq] at hr
          exact fits_consume hf hr

theorem roots_at (p : Process) (c : Call) (i : Nat) (hs : List Handler) (k : Nat) (h : Root.Handler)
    (hk : (roots p c i hs)[k]? = some h) : ∃ hd, hs[k]? = some hd ∧ h = hd.root p c (i + k) := by
  induction hs generalizing i k with
  | nil => cases hk
  | cons hd hs ih =>
    cases k with
    | zero => cases hk; exact ⟨hd, rfl, rfl⟩
    | succ k =>
      obtain ⟨hd', h1, h2⟩ := ih (i + 1) k hk
      exact ⟨hd', h1, by rw [h2, show i + 1 + k = i + (k + 1) by omega]⟩

/-- How handler `i` ends. -/
def outcomeOf (p : Process) (c : Call) (hs : List Handler) (i : Nat) (r : Root.Rec) : HOut :=
  match hs[i]? with
  | none => .ok
  | some h => h.root p c i [] r

theorem emitAll_ends (reps : Nat → Reply) (sev : Int) (text : Str) (k : Nat) (sinks : List Sink) :
    ((emitAll reps sev text k sinks).2 = .ok
      ∧ ∀ (j : Nat) (t : Sink), sinks[j]? = some t → (t.emit (reps (k + j)) sev text).2 = .ok)
    ∨ ((emitAll reps sev text k sinks).2 ≠ .ok ∧ ∃ (n : Nat) (s : Sink), sinks[n]? = some s
      ∧ (∀ (j : Nat) (t : Sink), j < n → sinks[j]? = some t → (t.emit (reps (k + j)) sev text).2 = .ok)
      ∧ (s.emit (reps (k + n)) sev text).2 = (emitAll reps sev text k sinks).2) := by
  induction sinks generalizing k with
  | nil => exact .inl ⟨rfl, fun j t h => (by cases h)⟩
  | cons s0 rest ih =>
    unfold emitAll
    split
    · rename_i s0' heq
      have e0 : (s0.emit (reps k) sev text).2 = .ok := by rw [heq]
      rcases ih (k + 1) with ⟨h1, h2⟩ | ⟨h1, n, s, h2, h3, h4⟩
      · refine .inl ⟨h1, fun j t hj => ?_⟩
        cases j with
        | zero => cases hj; exact e0
        | succ j => rw [show k + (j + 1) = k + 1 + j by omega]; exact h2 j t hj
      · refine .inr ⟨h1, n + 1, s, h2, fun j t hlt hj => ?_, ?_⟩
        · cases j with
          | zero => cases hj; exact e0
          | succ j => rw [show k + (j + 1) = k + 1 + j by omega]; exact h3 j t (by omega) hj
        · rw [show k + (n + 1) = k + 1 + n by omega]; exact h4
    · rename_i s0' o hne heq
      exact .inr ⟨hne, 0, s0, rfl, fun j t h => absurd h (by omega), by show (s0.emit (reps k) sev text).2 = o; rw [heq]⟩

theorem handle_ends {p : Process} {c : Call} {i : Nat} {h h' : Handler} {r : Root.Rec} {o : HOut} (ha : Accepted p c r)
    (hh : h.handle p c.lwp (c.replies i) (recordOf p r) = .ok (h', o)) : Ends p c i h r o := by
  have hsev : (recordOf p r).severity = c.severity := by cases ha; rfl
  unfold Handler.handle at hh
  split at hh
  · cases hh
  · cases hh
  · rename_i m hr; cases hh; exact .format (seen_iff.2 rfl) hr
  · rename_i m hr; cases hh; exact .logic (seen_iff.2 rfl) hr
  · rename_i m hr; cases hh; exact .user (seen_iff.2 rfl) hr
  · rename_i text hr
    split at hh
    rename_i sinks o' he
    cases hh
    rw [hsev] at he
    have he : (emitAll (c.replies i) c.severity text 0 h.sinks).2 = o := by rw [he]
    rcases emitAll_ends (c.replies i) c.severity text 0 h.sinks with ⟨h1, h2⟩ | ⟨h1, n, s, h2, h3, h4⟩
    · rw [he] at h1
      subst h1
      exact .well (renders_iff.2 hr) (by simpa using h2)
    · rw [he] at h1 h4
      exact .sink (renders_iff.2 hr) h2 (by simpa using h3) (by simpa using h4) h1

/-! ## Theorem -/

/-- **C65, failures.** A log call prints to the standard output one line for each handler that ends with an exception, in
the order of the handlers; and nothing if the call is not accepted. -/
theorem C65_reports (p : Process) (hs hs' : List Handler) (c : Call) (h : step p hs c = .ok hs') :
    (∀ r, Accepted p c r → ∃ outs : List HOut, outs.length = hs.length
      ∧ (∀ (i : Nat) (hd : Handler), hs[i]? = some hd → ∃ o, outs[i]? = some o ∧ Ends p c i hd r o)
      ∧ reports p hs c = outs.flatMap Root.report)
    ∧ ((∀ r, ¬ Accepted p c r) → reports p hs c = []) := by
  unfold step at h
  split at h
  · cases h
  · rename_i res hlog
    split at h
    · cases h
    · rename_i hs2 happ
      have hfits : Fits (outcomeOf p c hs) res.trace := by
        refine fits_log (fun k g hk tr r => ?_) hlog
        obtain ⟨hd, h1, rfl⟩ := roots_at p c 0 hs k g hk
        simp [outcomeOf, h1, Handler.root]
      have hrep : reports p hs c = Root.printed res.trace := by rw [reports, hlog]
      rcases log_calls hlog with ⟨r, hacc, hcalls⟩ | ⟨hno, hcalls⟩
      · refine ⟨fun r' hr' => ?_, fun hn => absurd hacc (hn r)⟩
        cases accepted_unique hacc hr'
        have happ' := happ
        rw [hcalls, List.range_eq_range', roots_length] at happ'
        obtain ⟨-, h2⟩ := apply_range 0 hs.length happ'
        refine ⟨(List.range hs.length).map fun i => outcomeOf p c hs i r, by simp, ?_, ?_⟩
        · intro i hd hi
          have hlt : i < hs.length := (List.getElem?_eq_some_iff.1 hi).1
          obtain ⟨hd', o, hh, -⟩ := (h2 i hd hi).2 (by omega) (by omega)
          refine ⟨o, ?_, handle_ends hacc hh⟩
          have ho : outcomeOf p c hs i r = o := by rw [outcomeOf, hi]; simp only [Handler.root, hh]
          rw [List.getElem?_map, List.getElem?_range hlt, Option.map_some, ho]
        · rw [hrep, hfits, hcalls, roots_length]
          simp [List.flatMap_map]
      · refine ⟨fun r hr => absurd hr (hno r), fun _ => ?_⟩
        rw [hrep, hfits, hcalls]
        rfl

namespace Example

/-- A file that cannot be opened, next to a handler that works. -/
def broken : Reply := { fine with file := ⟨none, none, none⟩, what := ch! "no such file" }

def failing : Call := { call 2 (ch! "yes") [] with replies := fun i _ => if i = 0 then broken else fine }

example : reports process (handlers ++ handlers) failing = [ch! "logging core error occurred: no such file"]
    ∧ ∃ hs', step process (handlers ++ handlers) failing = .ok hs' := ⟨rfl, _, rfl⟩

end Example

end Blackhole.Pipeline
