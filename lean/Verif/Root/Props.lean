import Verif.Root.Lemmas
import Verif.Scope.Props
import Verif.Attr.Props

/-!
# Properties C01, C02, C03 and C07: one log call

All statements are about a call through an arbitrary logger `lg` (the root or any chain of wrappers) in an
arbitrary environment `e`: any filter, any handlers, any thread, and any memory `e.world` in which the
calling thread's scopes on the logger are `scopes`. (`C03_reachable` below shows that every reachable memory has
such a list, given by the scope specification.)
-/

namespace Blackhole.Root

/-- The record the filter is asked about: not active yet, text equal to the message. -/
def candidate (e : Env) (severity : Int) (message : Str) (lg : Logger) (call : Pack)
    (scopes : List AttrList) : Rec :=
  { message := message, formatted := message, severity := severity, timestamp := 0, tid := e.thread,
    attributes := expectedAttributes call lg.wrappers scopes }

/-- The record the handlers get: same, with the final text and the activation time. -/
def delivered (e : Env) (severity : Int) (message text : Str) (lg : Logger) (call : Pack)
    (scopes : List AttrList) : Rec :=
  { message := message, formatted := text, severity := severity, timestamp := e.now, tid := e.thread,
    attributes := expectedAttributes call lg.wrappers scopes }

variable (e : Env) (sev : Int) (msg : Str) (lg : Logger) (call : Pack) (scopes : List AttrList)
  (hsc : e.world.scoped e.thread e.logger = .ok scopes)

include hsc

/-- **C01, rejection, plain message.** If the filter rejects the record, the only thing that happened is that
the filter was asked: no handler ran. -/
theorem C01_rejected_plain
    (hf : e.inner.filter [] (candidate e sev msg lg call scopes) = some false) :
    ∃ res, lg.logPack e sev msg call = .ok res ∧ res.outcome = .returned ∧
      res.trace = [.filter (candidate e sev msg lg call scopes)] ∧
      calls res.trace = [] ∧ supplies res.trace = 0 := by
  have hf' : e.inner.filter [] (Rec.mk' sev msg (call ++ lg.wrappers.map viewsOf ++ scopes) e.thread)
      = some false := hf
  rw [logPack_eq]
  simp only [consume, hsc, bind, Except.bind, hf']
  exact ⟨_, rfl, rfl, rfl, rfl, rfl⟩

/-- **C01, rejection, lazy message.** The supplier is not called either. -/
theorem C01_rejected_lazy (f : Trace → Option (Option Str))
    (hf : e.inner.filter [] (candidate e sev msg lg call scopes) = some false) :
    ∃ res, lg.logLazy e sev msg f call = .ok res ∧ res.outcome = .returned ∧
      res.trace = [.filter (candidate e sev msg lg call scopes)] ∧
      calls res.trace = [] ∧ supplies res.trace = 0 := by
  have hf' : e.inner.filter [] (Rec.mk' sev msg (call ++ lg.wrappers.map viewsOf ++ scopes) e.thread)
      = some false := hf
  rw [logLazy_eq]
  simp only [consume, hsc, bind, Except.bind, hf']
  exact ⟨_, rfl, rfl, rfl, rfl, rfl⟩

/-- **C01/C02, acceptance, plain message.** Whatever the handlers do, the call returns normally, each handler is
called exactly once, in order, with the same record. -/
theorem C01_accepted_plain
    (hf : e.inner.filter [] (candidate e sev msg lg call scopes) = some true) :
    ∃ res, lg.logPack e sev msg call = .ok res ∧ res.outcome = .returned ∧
      calls res.trace =
        (List.range e.inner.handlers.length).map (fun i => (i, delivered e sev msg msg lg call scopes)) ∧
      supplies res.trace = 0 ∧
      filtered res.trace = [candidate e sev msg lg call scopes] := by
  have hf' : e.inner.filter [] (Rec.mk' sev msg (call ++ lg.wrappers.map viewsOf ++ scopes) e.thread)
      = some true := hf
  rw [logPack_eq]
  simp only [consume, hsc, bind, Except.bind, hf']
  refine ⟨_, rfl, rfl, ?_, ?_, ?_⟩
  · simp only [calls_handleAll, calls, List.nil_append, List.range_eq_range']
    rfl
  · simp [supplies_handleAll, supplies]
  · simp only [filtered_handleAll, filtered]; rfl

/-- **C01/C02, acceptance, lazy message.** The supplier is called exactly once, right after the filter and
before every handler. Its text becomes the formatted message; a null view leaves the message itself. -/
theorem C01_accepted_lazy (f : Trace → Option (Option Str)) (text : Option Str)
    (hf : e.inner.filter [] (candidate e sev msg lg call scopes) = some true)
    (hs : f [.filter (candidate e sev msg lg call scopes)] = some text) :
    ∃ res rest, lg.logLazy e sev msg f call = .ok res ∧ res.outcome = .returned ∧
      calls res.trace =
        (List.range e.inner.handlers.length).map
          (fun i => (i, delivered e sev msg (text.getD msg) lg call scopes)) ∧
      res.trace = .filter (candidate e sev msg lg call scopes) :: .supply :: rest ∧
      supplies res.trace = 1 ∧ filtered res.trace = [candidate e sev msg lg call scopes] := by
  have hf' : e.inner.filter [] (Rec.mk' sev msg (call ++ lg.wrappers.map viewsOf ++ scopes) e.thread)
      = some true := hf
  have hs' : f [.filter (Rec.mk' sev msg (call ++ lg.wrappers.map viewsOf ++ scopes) e.thread)]
      = some text := hs
  have hr : (Rec.mk' sev msg (call ++ lg.wrappers.map viewsOf ++ scopes) e.thread).activate text e.now
      = delivered e sev msg (text.getD msg) lg call scopes := by
    cases text <;> rfl
  rw [logLazy_eq]
  simp only [consume, hsc, bind, Except.bind, hf', hs', hr]
  obtain ⟨rest, hrest⟩ := handleAll_prefix (delivered e sev msg (text.getD msg) lg call scopes) 0
    e.inner.handlers
    ([.filter (Rec.mk' sev msg (call ++ lg.wrappers.map viewsOf ++ scopes) e.thread)] ++ [.supply])
  refine ⟨_, rest, rfl, rfl, ?_, hrest, ?_, ?_⟩
  · simp only [calls_handleAll, List.range_eq_range']
    rfl
  · simp [supplies_handleAll, supplies]
  · simp only [filtered_handleAll]; rfl

/-- **C02, diagnostics.** After acceptance the rest of the trace is, for some list of outcomes (one per handler,
each being what that handler did in the state in which it was called), exactly: each handler call followed by one
line for an exception and by nothing otherwise. -/
theorem C02_handlers_isolated
    (hf : e.inner.filter [] (candidate e sev msg lg call scopes) = some true) :
    ∃ (res : Result) (outs : List HOut), lg.logPack e sev msg call = .ok res ∧ res.outcome = .returned ∧
      outs.length = e.inner.handlers.length ∧
      res.trace = .filter (candidate e sev msg lg call scopes) ::
        blocks (delivered e sev msg msg lg call scopes) 0 outs ∧
      ∀ (i : Nat) (h : Handler), e.inner.handlers[i]? = some h →
        outs[i]? = some (h (.filter (candidate e sev msg lg call scopes) ::
          blocks (delivered e sev msg msg lg call scopes) 0 (outs.take i))
          (delivered e sev msg msg lg call scopes)) := by
  have hf' : e.inner.filter [] (Rec.mk' sev msg (call ++ lg.wrappers.map viewsOf ++ scopes) e.thread)
      = some true := hf
  obtain ⟨outs, h1, h2, h3⟩ := handleAll_blocks (delivered e sev msg msg lg call scopes) 0
    e.inner.handlers [.filter (candidate e sev msg lg call scopes)]
  rw [logPack_eq]
  simp only [consume, hsc, bind, Except.bind, hf']
  exact ⟨_, outs, rfl, rfl, h1, h2, h3⟩

/-- **C02, diagnostics, lazy message.** The same for lazily supplied messages. -/
theorem C02_handlers_isolated_lazy (f : Trace → Option (Option Str)) (text : Option Str)
    (hf : e.inner.filter [] (candidate e sev msg lg call scopes) = some true)
    (hs : f [.filter (candidate e sev msg lg call scopes)] = some text) :
    ∃ (res : Result) (outs : List HOut), lg.logLazy e sev msg f call = .ok res ∧ res.outcome = .returned ∧
      outs.length = e.inner.handlers.length ∧
      res.trace = .filter (candidate e sev msg lg call scopes) :: .supply ::
        blocks (delivered e sev msg (text.getD msg) lg call scopes) 0 outs ∧
      ∀ (i : Nat) (h : Handler), e.inner.handlers[i]? = some h →
        outs[i]? = some (h (.filter (candidate e sev msg lg call scopes) :: .supply ::
          blocks (delivered e sev msg (text.getD msg) lg call scopes) 0 (outs.take i))
          (delivered e sev msg (text.getD msg) lg call scopes)) := by
  have hf' : e.inner.filter [] (Rec.mk' sev msg (call ++ lg.wrappers.map viewsOf ++ scopes) e.thread)
      = some true := hf
  have hs' : f [.filter (Rec.mk' sev msg (call ++ lg.wrappers.map viewsOf ++ scopes) e.thread)]
      = some text := hs
  have hr : (Rec.mk' sev msg (call ++ lg.wrappers.map viewsOf ++ scopes) e.thread).activate text e.now
      = delivered e sev msg (text.getD msg) lg call scopes := by
    cases text <;> rfl
  obtain ⟨outs, h1, h2, h3⟩ := handleAll_blocks (delivered e sev msg (text.getD msg) lg call scopes) 0
    e.inner.handlers [.filter (candidate e sev msg lg call scopes), .supply]
  rw [logLazy_eq]
  simp only [consume, hsc, bind, Except.bind, hf', hs', hr]
  exact ⟨_, outs, rfl, rfl, h1, h2, h3⟩

/-- **C02, throwing filter.** The exception reaches the caller and nothing else happened. -/
theorem C02_filter_throws (f : Trace → Option (Option Str))
    (hf : e.inner.filter [] (candidate e sev msg lg call scopes) = none) :
    ∃ res, lg.logLazy e sev msg f call = .ok res ∧ res.outcome = .filterThrew ∧
      calls res.trace = [] ∧ supplies res.trace = 0 ∧ printed res.trace = [] := by
  have hf' : e.inner.filter [] (Rec.mk' sev msg (call ++ lg.wrappers.map viewsOf ++ scopes) e.thread)
      = none := hf
  rw [logLazy_eq]
  simp only [consume, hsc, bind, Except.bind, hf']
  exact ⟨_, rfl, rfl, rfl, rfl, rfl⟩

/-- **C02, throwing supplier.** The exception reaches the caller and no handler has been called. -/
theorem C02_supplier_throws (f : Trace → Option (Option Str))
    (hf : e.inner.filter [] (candidate e sev msg lg call scopes) = some true)
    (hs : f [.filter (candidate e sev msg lg call scopes)] = none) :
    ∃ res, lg.logLazy e sev msg f call = .ok res ∧ res.outcome = .supplierThrew ∧
      calls res.trace = [] ∧ supplies res.trace = 1 ∧ printed res.trace = [] := by
  have hf' : e.inner.filter [] (Rec.mk' sev msg (call ++ lg.wrappers.map viewsOf ++ scopes) e.thread)
      = some true := hf
  have hs' : f [.filter (Rec.mk' sev msg (call ++ lg.wrappers.map viewsOf ++ scopes) e.thread)]
      = none := hs
  rw [logLazy_eq]
  simp only [consume, hsc, bind, Except.bind, hf', hs']
  exact ⟨_, rfl, rfl, rfl, rfl, rfl⟩

/-- **C03, the message-only overload** behaves as a call with an empty attribute pack. -/
theorem C03_message_only (hf : e.inner.filter [] (candidate e sev msg lg [] scopes) = some true) :
    ∃ res, lg.logMsg e sev msg = .ok res ∧
      calls res.trace =
        (List.range e.inner.handlers.length).map
          (fun i => (i, delivered e sev msg msg lg [] scopes)) := by
  rw [logMsg_eq]
  obtain ⟨res, h1, -, h2, -⟩ := C01_accepted_plain e sev msg lg [] scopes hsc hf
  exact ⟨res, h1, h2⟩

omit hsc in
/-- **C03, contents.** One by one, the attributes in a record are those of the call, then those that the wrappers were made
with, in their order and each reading as its value in every type, then those of the scopes. -/
theorem C03_contents (call : Pack) (wrappers : List Attrs) (scopes : List AttrList) :
    ∃ own : AttrList, (expectedAttributes call wrappers scopes).flatten = call.flatten ++ own ++ scopes.flatten
      ∧ own.map (fun a => (a.1, fun k => a.2.get k)) = wrappers.flatten.map (fun a => (a.1, fun k => a.2.get k)) := by
  have hv : ∀ as : Attrs, (viewsOf as).map (fun a => (a.1, fun k => a.2.get k))
      = as.map (fun a => (a.1, fun k => a.2.get k)) := by
    intro as
    induction as with
    | nil => rfl
    | cons a as ih =>
      obtain ⟨k, v⟩ := a
      simp only [viewsOf, List.map_cons, ih, Attr.C13_view_reads_like_value]
  refine ⟨(wrappers.map viewsOf).flatten, by simp [expectedAttributes], ?_⟩
  induction wrappers with
  | nil => rfl
  | cons w ws ih =>
    simp only [List.map_cons, List.flatten_cons, List.map_append, hv, ih]

/-- **C03, attribute order.** Every record that any handler sees during the call, and the one the filter sees,
carries exactly the call's attributes, then the wrappers' in the order the call passes through them, then the
scopes newest first; severity and message are those of the call. -/
theorem C03_attribute_order (f : Trace → Option (Option Str)) :
    ∃ res, lg.logLazy e sev msg f call = .ok res ∧
      (∀ p ∈ calls res.trace, p.2.attributes = expectedAttributes call lg.wrappers scopes ∧
        p.2.severity = sev ∧ p.2.message = msg ∧ p.2.tid = e.thread) ∧
      (∀ r ∈ filtered res.trace, r.attributes = expectedAttributes call lg.wrappers scopes ∧
        r.severity = sev ∧ r.message = msg ∧ r.tid = e.thread) ∧
      (filtered res.trace).length = 1 := by
  cases hf : e.inner.filter [] (candidate e sev msg lg call scopes) with
  | none =>
    have hf' : e.inner.filter [] (Rec.mk' sev msg (call ++ lg.wrappers.map viewsOf ++ scopes) e.thread)
      = none := hf
    rw [logLazy_eq]
    simp only [consume, hsc, bind, Except.bind, hf']
    exact ⟨_, rfl, by simp [calls], by simp [filtered, Rec.mk', expectedAttributes], rfl⟩
  | some b =>
    cases b with
    | false =>
      obtain ⟨res, h1, -, h3, h4, -⟩ := C01_rejected_lazy e sev msg lg call scopes hsc f hf
      exact ⟨res, h1, by simp [h4], by simp [h3, filtered, candidate], by simp [h3, filtered]⟩
    | true =>
      cases hs : f [.filter (candidate e sev msg lg call scopes)] with
      | none =>
        have hf' : e.inner.filter []
            (Rec.mk' sev msg (call ++ lg.wrappers.map viewsOf ++ scopes) e.thread) = some true := hf
        have hs' : f [.filter (Rec.mk' sev msg (call ++ lg.wrappers.map viewsOf ++ scopes) e.thread)]
          = none := hs
        rw [logLazy_eq]
        simp only [consume, hsc, bind, Except.bind, hf', hs']
        exact ⟨_, rfl, by simp [calls], by simp [filtered, Rec.mk', expectedAttributes], rfl⟩
      | some text =>
        obtain ⟨res, rest, h1, -, h3, -, -, h6⟩ :=
          C01_accepted_lazy e sev msg lg call scopes hsc f text hf hs
        refine ⟨res, h1, ?_, by simp [h6, candidate], by simp [h6]⟩
        rw [h3]
        simp [delivered]

/-- The caller's pack, passed by non-const reference, grows by the wrappers' and scopes' lists, so reusing it
for a second call duplicates them. -/
theorem C03_pack_grows (f : Trace → Option (Option Str)) :
    ∃ res, lg.logLazy e sev msg f call = .ok res ∧
      res.pack = expectedAttributes call lg.wrappers scopes := by
  rw [logLazy_eq]
  simp only [consume, hsc, bind, Except.bind, expectedAttributes]
  repeat' split
  all_goals exact ⟨_, rfl, rfl⟩

/-- **C07, activation.** During a call, the record shown to the filter is inactive and every record shown to a
handler is active, whenever the clock does not read exactly the epoch. -/
theorem C07_handlers_see_active (f : Trace → Option (Option Str)) (hnow : e.now ≠ 0) :
    ∃ res, lg.logLazy e sev msg f call = .ok res ∧
      (∀ p ∈ calls res.trace, p.2.isActive = true ∧ p.2.timestamp = e.now) ∧
      (∀ r ∈ filtered res.trace, r.isActive = false ∧ r.formatted = r.message) := by
  cases hf : e.inner.filter [] (candidate e sev msg lg call scopes) with
  | none =>
    have hf' : e.inner.filter [] (Rec.mk' sev msg (call ++ lg.wrappers.map viewsOf ++ scopes) e.thread)
      = none := hf
    rw [logLazy_eq]
    simp only [consume, hsc, bind, Except.bind, hf']
    exact ⟨_, rfl, by simp [calls], by simp [filtered, Rec.mk', Rec.isActive]⟩
  | some b =>
    cases b with
    | false =>
      obtain ⟨res, h1, -, h3, h4, -⟩ := C01_rejected_lazy e sev msg lg call scopes hsc f hf
      exact ⟨res, h1, by simp [h4], by simp [h3, filtered, candidate, Rec.isActive]⟩
    | true =>
      cases hs : f [.filter (candidate e sev msg lg call scopes)] with
      | none =>
        have hf' : e.inner.filter []
            (Rec.mk' sev msg (call ++ lg.wrappers.map viewsOf ++ scopes) e.thread) = some true := hf
        have hs' : f [.filter (Rec.mk' sev msg (call ++ lg.wrappers.map viewsOf ++ scopes) e.thread)]
          = none := hs
        rw [logLazy_eq]
        simp only [consume, hsc, bind, Except.bind, hf', hs']
        exact ⟨_, rfl, by simp [calls], by simp [filtered, Rec.mk', Rec.isActive]⟩
      | some text =>
        obtain ⟨res, rest, h1, -, h3, -, -, h6⟩ :=
          C01_accepted_lazy e sev msg lg call scopes hsc f text hf hs
        refine ⟨res, h1, ?_, by simp [h6, candidate, Rec.isActive]⟩
        rw [h3]
        simp [delivered, Rec.isActive, hnow]

omit hsc

/-- **C03, reachable memories.** The assumption on the memory holds after every supported history of scopes and
moves, for every live logger, with the scopes given by the specification. -/
theorem C03_reachable (ops : List Scope.Op) (s : Scope.SState) (outs : List (List AttrList))
    (h : Scope.SRun Scope.SState.init ops s outs) (t l : Nat) (hl : s.status l = .live) :
    ∃ w, Scope.World.init.run ops = .ok (w, outs) ∧ w.scoped t l = .ok ((s.stack l t).map Prod.snd) :=
  Scope.C04_next_log ops s outs h t l hl

/-- **C07, activation of one record.** Activation changes nothing but the text and the timestamp. -/
theorem C07_activate (r : Rec) (text : Option Str) (now : Int) :
    (r.activate text now).message = r.message ∧ (r.activate text now).severity = r.severity ∧
    (r.activate text now).tid = r.tid ∧ (r.activate text now).attributes = r.attributes ∧
    (r.activate text now).timestamp = now ∧
    (text = none → (r.activate text now).formatted = r.formatted) ∧
    (∀ s, text = some s → (r.activate text now).formatted = s) := by
  cases text <;> simp [Rec.activate]

/-- **C07, inactive until activated**, for every clock reading other than the epoch. -/
theorem C07_active_iff (sev : Int) (msg : Str) (p : Pack) (tid : Nat) (text : Option Str) (now : Int) :
    (Rec.mk' sev msg p tid).isActive = false ∧
    ((Rec.mk' sev msg p tid).activate text now).isActive = (now != 0) ∧
    (Rec.mk' sev msg p tid).formatted = msg := by
  cases text <;> simp [Rec.mk', Rec.activate, Rec.isActive]

/-! ## Witnesses -/

section
private def w0 : Env :=
  { world := Scope.World.init.construct 0, thread := 3, logger := 0, now := 77
    inner := { filter := fun _ r => some (r.severity ≥ 2)
               handlers := [fun _ _ => .ok, fun tr _ => if tr.length = 2 then .throwStd ['x'] else .ok,
                 fun _ _ => .throwOther] } }

private def lg0 : Logger := .wrapper [(['a'], .null)] (.wrapper [(['b'], .bool true)] .root)

example : w0.world.scoped w0.thread w0.logger = .ok [] := rfl
example : w0.inner.filter [] (candidate w0 2 ['m'] lg0 [] []) = some true := rfl
example : w0.inner.filter [] (candidate w0 1 ['m'] lg0 [] []) = some false := rfl
example : w0.now ≠ 0 := by decide

/-- A full call: the second and third handlers throw, the record carries both wrappers' attributes. -/
example : (lg0.logMsg w0 5 ['m']).map (fun r => (calls r.trace).length) = .ok 3 := rfl
example : (lg0.logMsg w0 5 ['m']).map (fun r => (printed r.trace).length) = .ok 2 := rfl
example : expectedAttributes [] lg0.wrappers [] = [[(['a'], .null)], [(['b'], .bool true)]] := rfl

/-! The theorems above, of calls through `lg0`: below the threshold, above it, with a supplier that gives a text, and with
one that throws. -/

private def callPack : Pack := [[(['c'], .sint 7)]]
private def supplier : Trace → Option (Option Str) := fun tr => some (some [Char.ofNat (48 + tr.length)])

example := C01_rejected_plain w0 1 ['m'] lg0 callPack [] rfl rfl
example := C01_rejected_lazy w0 1 ['m'] lg0 callPack [] rfl supplier rfl
example := C01_accepted_plain w0 2 ['m'] lg0 callPack [] rfl rfl
example := C01_accepted_lazy w0 2 ['m'] lg0 callPack [] rfl supplier (some ['1']) rfl rfl
example := C02_handlers_isolated w0 2 ['m'] lg0 callPack [] rfl rfl
example := C02_handlers_isolated_lazy w0 2 ['m'] lg0 callPack [] rfl supplier (some ['1']) rfl rfl
example := C02_filter_throws { w0 with inner := { w0.inner with filter := fun _ _ => none } } 2 ['m'] lg0 callPack [] rfl
  supplier rfl
example := C02_supplier_throws w0 2 ['m'] lg0 callPack [] rfl (fun _ => none) rfl rfl
example := C03_contents callPack lg0.wrappers [[(['s'], .uint 1)]]
example := C03_message_only w0 2 ['m'] lg0 [] rfl rfl
example := C07_handlers_see_active w0 2 ['m'] lg0 callPack [] rfl supplier (by decide)

/-- In a scope: the attributes of the call come first, then those of the wrappers and of the scope. -/
private def w1 : Env := 
  { w0 with world := ((w0.world.openScope 3 0 [(['s'], .uint 1)]).toOption.map Prod.fst).getD w0.world }

/-- The history behind that memory. -/
example := C03_reachable [.construct 0, .open 3 0 [(['s'], .uint 1)]] _ []
  (Scope.SRun.cons (out := none) (.construct rfl) (Scope.SRun.cons (out := none) (.open rfl) .nil)) 3 0 rfl

example := C03_attribute_order w1 2 ['m'] lg0 callPack [[(['s'], .uint 1)]] rfl supplier
example := C03_pack_grows w1 2 ['m'] lg0 callPack [[(['s'], .uint 1)]] rfl supplier
end

end Blackhole.Root
