import Verif.Flush.Model
import Verif.Ostream.Props

/-!
# C101: what log calls printed survives the death of the process

When a log call returns, all that its handlers and the logger itself printed to a standard stream has left the process. If the
process dies in the middle of a log call then what the calls before printed is there in full, and of that call there is a
beginning.
-/

namespace Blackhole.Flush

open Ostream Rec

/-! ## Specification -/

/-- What the logger prints about an exception. -/
def reportText (t : Option Str) : Str := ch! "logging core error occurred: " ++ t.getD (ch! "unknown") ++ ch! "\n"

/-- What a handler and the report about it print to a stream whose flags are as at the start of the program. -/
def Work.text (what : Exc → Option Str) (f : Format) : Work → Str
  | .console tty severity text sinks => sinks.flatMap fun sink => Job.line ⟨sink, tty, severity, text⟩
  | .dev env libc dtoa tty r =>
    match Dev.handle env libc (dtoa f) tty r with
    | (t, none) => t
    | (t, some e) => t ++ reportText (what e)
  | .other none => []
  | .other (some t) => reportText t

/-- The handler prints nothing to the stream, nor does the logger because of it. -/
def Work.silent : Work → Prop
  | .console _ severity _ sinks => ∀ sink ∈ sinks, sink.filter severity = .deny
  | .dev .. => False
  | .other thrown => thrown = none

/-! ## Lemmas -/

theorem take_format (b : Buf) (op : Op) : (b.take op).format = planFormat b.format [op] := by
  cases op <;> rfl

theorem run_format (b : Buf) (op : Op) : (b.run op).format = planFormat b.format [op] := by
  unfold Buf.run
  split
  · exact take_format b op
  · exact take_format b op

theorem take_all (b : Buf) (op : Op) :
    (b.take op).device ++ (b.take op).pending = b.device ++ b.pending ++ plan b.format [op] := by
  cases op <;> simp [Buf.take, Buf.flush, plan]

theorem run_all (b : Buf) (op : Op) :
    (b.run op).device ++ (b.run op).pending = b.device ++ b.pending ++ plan b.format [op] := by
  unfold Buf.run
  split
  · rw [← take_all]
    simp [Buf.flush]
  · exact take_all b op

theorem take_device (b : Buf) (op : Op) : b.device <+: (b.take op).device := by
  cases op
  · exact List.prefix_refl _
  · exact List.prefix_refl _
  · exact List.prefix_append _ _

theorem run_device (b : Buf) (op : Op) : b.device <+: (b.run op).device := by
  unfold Buf.run
  split
  · exact (take_device b op).trans (List.prefix_append _ _)
  · exact take_device b op

/-- Nothing is lost, added or exchanged on the way through the buffer. -/
theorem Steps.all {b b' : Buf} {ops : List Op} (h : Steps b ops b') :
    b'.device ++ b'.pending = b.device ++ b.pending ++ plan b.format ops ∧ b'.format = planFormat b.format ops ∧
      b.device <+: b'.device := by
  induction h with
  | done b => exact ⟨by simp [plan], rfl, List.prefix_refl _⟩
  | @spill b b' ops k h ih =>
    obtain ⟨h1, h2, h3⟩ := ih
    refine ⟨?_, h2, (List.prefix_append _ _).trans h3⟩
    rw [h1]
    simp [Buf.spill, List.append_assoc]
  | @op b b' op ops h ih =>
    obtain ⟨h1, h2, h3⟩ := ih
    have e := plan_append b.format [op] ops
    have e' := planFormat_append b.format [op] ops
    rw [List.singleton_append] at e e'
    refine ⟨?_, by rw [h2, run_format, e'], (run_device b op).trans h3⟩
    rw [h1, run_all, run_format, e, List.append_assoc]

theorem Steps.split {b b' : Buf} {ops : List Op} (h : Steps b ops b') : ∀ p q, ops = p ++ q →
    ∃ m, Steps b p m ∧ Steps m q b' := by
  induction h with
  | done b =>
    intro p q e
    obtain ⟨rfl, rfl⟩ := List.append_eq_nil_iff.1 e.symm
    exact ⟨b, .done b, .done b⟩
  | @spill b b' ops k h ih =>
    intro p q e
    obtain ⟨m, h1, h2⟩ := ih p q e
    exact ⟨m, .spill k h1, h2⟩
  | @op b b' op ops h ih =>
    intro p q e
    cases p with
    | nil => exact ⟨b, .done b, by rw [List.nil_append] at e; rw [← e]; exact .op h⟩
    | cons o p =>
      simp only [List.cons_append, List.cons.injEq] at e
      obtain ⟨rfl, e⟩ := e
      obtain ⟨m, h1, h2⟩ := ih p q e
      exact ⟨m, .op h1, h2⟩

theorem Steps.empty {b b' : Buf} {ops : List Op} (h : Steps b ops b') (hp : b.pending = []) (ho : ops = []) :
    b'.pending = [] := by
  induction h with
  | done b => exact hp
  | @spill b b' ops k h ih => exact ih (by simp [Buf.spill, hp]) ho
  | op h ih => cases ho

/-- After a flush nothing is left in the buffer. -/
theorem Steps.flushed {b b' : Buf} {ops : List Op} (h : Steps b (ops ++ [.flush]) b') : b'.pending = [] := by
  obtain ⟨m, -, h⟩ := h.split ops [.flush] rfl
  have key : ∀ {b b' : Buf} {os : List Op}, Steps b os b' → os = [.flush] → b'.pending = [] := by
    intro b b' os h
    induction h with
    | done b => intro e; cases e
    | spill k h ih => exact ih
    | @op b b' op ops h ih =>
      intro e
      simp only [List.cons.injEq] at e
      obtain ⟨rfl, rfl⟩ := e
      refine h.empty ?_ rfl
      unfold Buf.run
      split <;> rfl
  exact key h rfl

theorem emitOps_end (sink : Console.Sink) (tty : Bool) (severity : Int) (m : Str) :
    (emitOps sink tty severity m = [] ↔ sink.filter severity = .deny) ∧
    (emitOps sink tty severity m = [] ∨ ∃ ops, emitOps sink tty severity m = ops ++ [.flush]) := by
  unfold emitOps
  cases sink.filter severity with
  | deny => exact ⟨⟨fun _ => rfl, fun _ => rfl⟩, .inl rfl⟩
  | _ =>
    refine ⟨⟨?_, fun h => by cases h⟩, .inr ?_⟩
    · simp only
      split <;> simp [colour]
    · simp only
      split
      · exact ⟨colour (sink.mapping severity) ++ [.raw m] ++ colour Console.Color.reset ++ [.raw ['\n']], by simp [endl]⟩
      · exact ⟨[.raw m] ++ [.raw ['\n']], by simp [endl]⟩

/-- Lists of operations that are empty or end with a flush. -/
def Ends (ops : List Op) : Prop := ops = [] ∨ ∃ init, ops = init ++ [.flush]

theorem Ends.append {a b : List Op} (ha : Ends a) (hb : Ends b) : Ends (a ++ b) := by
  rcases hb with rfl | ⟨init, rfl⟩
  · rwa [List.append_nil]
  · exact .inr ⟨a ++ init, by simp⟩

theorem report_end (t : Option Str) : ∃ init, report t = init ++ [.flush] := by
  cases t with
  | none => exact ⟨[.fmt (Format.text (ch! "logging core error occurred: unknown")), .raw ['\n']], rfl⟩
  | some w =>
    exact ⟨[.fmt (Format.text (ch! "logging core error occurred: ")), .fmt (Format.text w), .raw ['\n']], rfl⟩

theorem okPrefix_end (ts : List (Except Exc Op)) (op : Op) :
    (okPrefix (ts ++ [.ok op])).2 = none → ∃ init, (okPrefix (ts ++ [.ok op])).1 = init ++ [op] := by
  induction ts with
  | nil => intro _; exact ⟨[], rfl⟩
  | cons t ts ih =>
    cases t with
    | error e => intro h; cases h
    | ok o =>
      intro h
      obtain ⟨init, e⟩ := ih h
      exact ⟨o :: init, by rw [List.cons_append, okPrefix]; simp only; rw [e]; rfl⟩

theorem devOps_end (env : Env) (libc : Date.Libc) (dtoa : Format → Nat → Str) (tty : Bool) (r : Record) :
    ∃ ts, devOps env libc dtoa tty r = ts ++ [.ok .flush] := by
  unfold devOps
  exact ⟨_, by
    rw [show endl.map (.ok : Op → Except Exc Op) = [.ok (.raw ['\n'])] ++ [.ok .flush] from rfl, ← List.append_assoc]⟩

theorem work_end (what : Exc → Option Str) (w : Work) :
    Ends ((w.ops what).1 ++ (match (w.ops what).2 with
      | some t => report t
      | none => [])) := by
  cases w with
  | console tty severity text sinks =>
    show Ends ((sinks.flatMap fun sink => emitOps sink tty severity text) ++ [])
    rw [List.append_nil]
    induction sinks with
    | nil => exact .inl rfl
    | cons sink sinks ih =>
      rw [List.flatMap_cons]
      exact Ends.append (emitOps_end ..).2 ih
  | other t =>
    cases t with
    | none => exact .inl rfl
    | some t => exact .inr (report_end t)
  | dev env libc dtoa tty r =>
    simp only [Work.ops]
    cases h : (okPrefix (devOps env libc dtoa tty r)).2 with
    | none =>
      obtain ⟨ts, e⟩ := devOps_end env libc dtoa tty r
      rw [e] at h ⊢
      obtain ⟨init, e⟩ := okPrefix_end ts .flush h
      exact .inr ⟨init, by rw [e]; simp⟩
    | some x =>
      obtain ⟨init, e⟩ := report_end (what x)
      exact .inr ⟨(okPrefix (devOps env libc dtoa tty r)).1 ++ init, by simp [e]⟩

theorem call_end (what : Exc → Option Str) (ws : List Work) : Ends (callOps what ws) := by
  induction ws with
  | nil => exact .inl rfl
  | cons w ws ih => exact Ends.append (work_end what w) ih

/-! ## The operations are those of the log call -/

/-- The log call with all its handlers performs these operations, in this order, whatever state the stream is in and however its
device behaves, if no exceptions are enabled on it. -/
theorem C101_operations (what : Exc → Option Str) (failure : Str) (ws : List Work) (s : Stream) (n : Nat)
    (hm : s.mask = Mask.none) :
    handleAll s n (ws.map (Work.handler what failure)) = ((runOps s (callOps what ws)).1, n + ws.length, .returned) := by
  have km : ∀ (t : Stream) (ops : List Op), t.mask = Mask.none → (runOps t ops).1.mask = Mask.none := by
    intro t ops ht
    rw [(runOps_none ht ops).2.mask, ht]
  have key : ∀ (t : Stream) (ops : List Op), t.mask = Mask.none → runOps t ops = ((runOps t ops).1, false) := by
    intro t ops ht
    rw [← (runOps_none ht ops).1]
  have app : ∀ (t : Stream) (a b : List Op), t.mask = Mask.none → runOps t (a ++ b) = runOps (runOps t a).1 b := by
    intro t a b ht
    rw [runOps_append, key t a ht]
  have one : ∀ (w : Work) (t : Stream), t.mask = Mask.none → Work.handler what failure w t =
      ((runOps t (w.ops what).1).1, match (w.ops what).2 with
        | some x => .threw x
        | none => .returned) := by
    intro w t ht
    cases w with
    | console tty severity text sinks =>
      show blocking failure tty severity text sinks t =
        ((runOps t (sinks.flatMap fun sink => emitOps sink tty severity text)).1, .returned)
      induction sinks generalizing t with
      | nil => rfl
      | cons sink sinks ih =>
        rw [blocking, emit_none ht]
        simp only
        rw [ih _ (km _ _ ht), List.flatMap_cons, app _ _ _ ht]
    | dev env libc dtoa tty r =>
      simp only [Work.handler, Work.ops, devHandle]
      rw [runTokens_eq, (runOps_none ht _).1]
      cases (okPrefix (devOps env libc dtoa tty r)).2 <;> rfl
    | other x => cases x <;> rfl
  induction ws generalizing s n with
  | nil => rfl
  | cons w ws ih =>
    rw [List.map_cons, handleAll, one w s hm, callOps]
    cases (w.ops what).2 with
    | none =>
      simp only
      rw [ih _ _ (km _ _ hm), List.append_nil, app _ _ _ hm]
      simp only [List.length_cons, Nat.add_assoc, Nat.add_comm 1]
    | some x =>
      simp only
      rw [key _ (report x) (km _ _ hm)]
      simp only
      rw [ih _ _ (km _ _ (km _ _ hm)), app _ _ _ hm, app _ _ _ hm]
      simp only [List.length_cons, Nat.add_assoc, Nat.add_comm 1]

/-- What the operations print to a stream with the flags of the start of the program. -/
theorem C101_text (what : Exc → Option Str) (f : Format) (hf : f.Plain) (hb : f.boolalpha = false) (ws : List Work) :
    plan f (callOps what ws) = ws.flatMap (Work.text what f) := by
  have app : ∀ a b : List Op, plan f (a ++ b) = plan f a ++ plan f b := by
    intro a b
    rw [plan_append, planFormat_plain hf]
  have rep : ∀ t, plan f (report t) = reportText t := by
    intro t
    have ht : ∀ x : Str, Format.text x f = x := fun x => text_plain hf.2.2 x
    have hw : ({ f with width := 0 } : Format) = f := hf.zero
    cases t with
    | none => simp [report, endl, plan, hw, ht, reportText]
    | some w => simp [report, endl, plan, hw, ht, reportText]
  induction ws with
  | nil => rfl
  | cons w ws ih =>
    rw [callOps, app, app, ih, List.flatMap_cons]
    congr 1
    cases w with
    | console tty severity text sinks =>
      show plan f (sinks.flatMap fun sink => emitOps sink tty severity text) ++ [] =
        sinks.flatMap fun sink => Job.line ⟨sink, tty, severity, text⟩
      rw [List.append_nil]
      induction sinks with
      | nil => rfl
      | cons sink sinks ih =>
        rw [List.flatMap_cons, List.flatMap_cons, app, ih]
        congr 1
        exact emitOps_line hf ⟨sink, tty, severity, text⟩
    | dev env libc dtoa tty r =>
      obtain ⟨h1, h2⟩ := same_dev hf hb env libc dtoa tty r
      simp only [Work.ops, Work.text]
      rw [h1, h2]
      unfold Dev.handle
      cases h : Dev.printAll (Dev.pieces env libc (dtoa f) tty r) with
      | mk t x =>
        cases x with
        | none => simp [plan]
        | some e => simp [rep]
    | other x =>
      cases x with
      | none => rfl
      | some t => simp [Work.ops, Work.text, plan, rep]

/-- Log calls that print nothing are those with only sinks that refuse the record and handlers that return. -/
theorem C101_silent (what : Exc → Option Str) (ws : List Work) :
    callOps what ws = [] ↔ ∀ w ∈ ws, w.silent := by
  induction ws with
  | nil => simp [callOps]
  | cons w ws ih =>
    rw [callOps, List.append_eq_nil_iff, ih, List.forall_mem_cons]
    refine and_congr_left fun _ => ?_
    cases w with
    | console tty severity text sinks =>
      show (sinks.flatMap fun sink => emitOps sink tty severity text) ++ [] = [] ↔ ∀ sink ∈ sinks, sink.filter severity = .deny
      rw [List.append_nil, List.flatMap_eq_nil_iff]
      exact ⟨fun h sink hs => (emitOps_end sink tty severity text).1.1 (h sink hs),
        fun h sink hs => (emitOps_end sink tty severity text).1.2 (h sink hs)⟩
    | other x =>
      cases x with
      | none => simp [Work.ops, Work.silent]
      | some t =>
        obtain ⟨init, e⟩ := report_end t
        simp [Work.ops, Work.silent, e]
    | dev env libc dtoa tty r =>
      simp only [Work.ops, Work.silent, iff_false]
      intro h
      rw [List.append_eq_nil_iff] at h
      cases hx : (okPrefix (devOps env libc dtoa tty r)).2 with
      | none =>
        obtain ⟨ts, e⟩ := devOps_end env libc dtoa tty r
        rw [e] at hx h
        obtain ⟨init, e⟩ := okPrefix_end ts .flush hx
        rw [e] at h
        simp at h
      | some x =>
        obtain ⟨init, e⟩ := report_end (what x)
        rw [hx] at h
        simp [e] at h

/-! ## C101 -/

/-- **When a log call returns nothing that was printed is left in the process.** The text of the call is on the device, behind
all that was printed before, whoever printed that and whatever formatting flags are set. -/
theorem C101_returned (what : Exc → Option Str) (ws : List Work) (b b' : Buf) (h : Steps b (callOps what ws) b')
    (hw : ∃ w ∈ ws, ¬ w.silent) :
    b'.pending = [] ∧ b'.device = b.device ++ b.pending ++ plan b.format (callOps what ws) := by
  have hne : callOps what ws ≠ [] := by
    intro e
    obtain ⟨w, hw, hs⟩ := hw
    exact hs ((C101_silent what ws).1 e w hw)
  rcases call_end what ws with e | ⟨init, e⟩
  · exact absurd e hne
  · have h1 := h.all.1
    rw [e] at h
    have h2 := h.flushed
    rw [h2, List.append_nil] at h1
    exact ⟨h2, h1⟩

/-- **The process dies** at any point of a history of log calls: after `done` calls and the operations `part` of the call in
progress. What the calls printed that had returned is on the device in full, and of the call in progress there is a beginning of
what it would have printed. -/
theorem C101_crash (what : Exc → Option Str) (done : List (List Work)) (last : List Work) (part rest : List Op)
    (hl : callOps what last = part ++ rest) (b b' : Buf) (hp : b.pending = []) (hf : b.format.Plain)
    (hb : b.format.boolalpha = false) (h : Steps b (done.flatMap (callOps what) ++ part) b') :
    ∃ shown, shown <+: last.flatMap (Work.text what b.format) ∧
      b'.device = b.device ++ done.flatMap (fun ws => ws.flatMap (Work.text what b.format)) ++ shown := by
  obtain ⟨m, h1, h2⟩ := h.split _ _ rfl
  have hmf : m.format = b.format := by rw [h1.all.2.1, planFormat_plain hf]
  have hme : m.pending = [] ∧ m.device = b.device ++ plan b.format (done.flatMap (callOps what)) := by
    have he : Ends (done.flatMap (callOps what)) := by
      clear h h1
      induction done with
      | nil => exact .inl rfl
      | cons ws done ih => rw [List.flatMap_cons]; exact (call_end what ws).append ih
    have h3 := h1.all.1
    rw [hp, List.append_nil] at h3
    have h4 : m.pending = [] := by
      rcases he with e | ⟨init, e⟩
      · exact h1.empty hp e
      · rw [e] at h1; exact h1.flushed
    rw [h4, List.append_nil] at h3
    exact ⟨h4, h3⟩
  have htext : plan b.format (done.flatMap (callOps what)) =
      done.flatMap fun ws => ws.flatMap (Work.text what b.format) := by
    clear h h1 hme
    induction done with
    | nil => rfl
    | cons ws done ih =>
      rw [List.flatMap_cons, List.flatMap_cons, plan_append, planFormat_plain hf, ih, C101_text what _ hf hb]
  obtain ⟨h3, -, shown, h4⟩ := h2.all
  rw [hme.1, List.append_nil, hmf, ← h4, List.append_assoc, List.append_right_inj] at h3
  refine ⟨shown, ?_, ?_⟩
  · have h5 := plan_append b.format part rest
    rw [← hl, C101_text what _ hf hb] at h5
    rw [h5, ← h3, List.append_assoc]
    exact List.prefix_append _ _
  · rw [← h4, hme.2, htext]

/-- **Threads.** However the operations of several threads are mixed, when all log calls of a thread so far have returned then
all that was printed up to the end of the last of them that printed something has left the process: there is a point in the
history behind all operations of the thread, and the text up to that point is on the device. -/
theorem C101_threads (what : Exc → Option Str) (history : List (Nat × Op)) (t : Nat) (calls : List (List Work))
    (hc : (history.filter (·.1 = t)).map (·.2) = calls.flatMap (callOps what)) (b b' : Buf)
    (h : Steps b (history.map (·.2)) b') :
    ∃ before after, history = before ++ after ∧ (∀ x ∈ after, x.1 ≠ t) ∧
      (calls.flatMap (callOps what) ≠ [] →
        b.device ++ b.pending ++ plan b.format (before.map (·.2)) <+: b'.device) := by
  have split : ∀ hist : List (Nat × Op), ∃ before after, hist = before ++ after ∧ (∀ x ∈ after, x.1 ≠ t) ∧
      (before = [] ∨ ∃ init op, before = init ++ [(t, op)]) := by
    intro hist
    induction hist with
    | nil => exact ⟨[], [], rfl, by simp, .inl rfl⟩
    | cons x hist ih =>
      obtain ⟨before, after, e, h1, h2⟩ := ih
      rcases h2 with rfl | ⟨init, op, rfl⟩
      · rw [List.nil_append] at e
        by_cases hx : x.1 = t
        · refine ⟨[x], after, by rw [e]; rfl, h1, .inr ⟨[], x.2, ?_⟩⟩
          rw [← hx]
          rfl
        · refine ⟨[], x :: after, by rw [e]; rfl, ?_, .inl rfl⟩
          intro y hy
          rcases List.mem_cons.1 hy with rfl | hy
          · exact hx
          · exact h1 y hy
      · exact ⟨x :: (init ++ [(t, op)]), after, by rw [e]; rfl, h1, .inr ⟨x :: init, op, rfl⟩⟩
  obtain ⟨before, after, e, h1, h2⟩ := split history
  refine ⟨before, after, e, h1, ?_⟩
  intro hne
  have hends : Ends (calls.flatMap (callOps what)) := by
    clear hc hne
    induction calls with
    | nil => exact .inl rfl
    | cons ws calls ih => rw [List.flatMap_cons]; exact (call_end what ws).append ih
  have hfil : after.filter (·.1 = t) = [] := by
    rw [List.filter_eq_nil_iff]
    intro x hx
    simpa using h1 x hx
  rw [e, List.filter_append, hfil, List.append_nil] at hc
  rcases h2 with rfl | ⟨init, op, rfl⟩
  · rw [← hc] at hne
    exact absurd rfl hne
  · rw [List.filter_append, List.map_append] at hc
    rcases hends with e0 | ⟨ops, e0⟩
    · exact absurd e0 hne
    · rw [e0] at hc
      have hop : op = .flush := by
        have := congrArg List.getLast? hc
        simpa using this
      subst hop
      rw [e, List.map_append] at h
      obtain ⟨m, h3, h4⟩ := h.split _ _ rfl
      have h5 := h3.all.1
      rw [List.map_append] at h3
      rw [h3.flushed, List.append_nil] at h5
      rw [← h5]
      exact h4.all.2.2

/-- Streams that are flushed after every operation, such as `std::cerr`, keep nothing back even in the middle of a call. -/
theorem C101_unit (ops : List Op) (b b' : Buf) (hu : b.unit = true) (hp : b.pending = []) (h : Steps b ops b') :
    b'.pending = [] ∧ b'.device = b.device ++ plan b.format ops := by
  have key : b'.pending = [] := by
    have : ∀ {b b' : Buf} {ops : List Op}, Steps b ops b' → b.unit = true → b.pending = [] → b'.pending = [] := by
      intro b b' ops h
      induction h with
      | done b => exact fun _ hp => hp
      | spill k h ih => exact fun hu hp => ih hu (by simp [Buf.spill, hp])
      | @op b b' op ops h ih =>
        intro hu _
        refine ih ?_ ?_
        · unfold Buf.run
          cases op <;> simp [hu, Buf.take, Buf.flush]
        · unfold Buf.run
          rw [if_pos hu]
          rfl
    exact this h hu hp
  have h1 := h.all.1
  rw [key, hp, List.append_nil, List.append_nil] at h1
  exact ⟨key, h1⟩

/-! ## Non-vacuity -/

/-- A sink that prints everything in red, on the standard output. -/
def red : Console.Sink := ⟨.stdout, Console.zen, fun _ => Console.Color.red⟩

/-- A call with a sink and a handler that throws, while the buffer holds something of the program and is written out in the
middle: in the end the device has everything. -/
example : ∃ b', Steps ⟨[], ch! "Loading... ", Format.default, false⟩
      (callOps (fun _ => none) [.console true 3 (ch! "disk full") [red], .other (some (some (ch! "no route")))]) b' ∧
    b'.device = ch! "Loading... \x1b[31mdisk full\x1b[0m\nlogging core error occurred: no route\n" ∧ b'.pending = [] :=
  ⟨_, .op (.spill 5 (.op (.op (.op (.op (.op (.op (.op (.op (.op (.op (.spill 2 (.op (.op (.done _))))))))))))))),
    by decide, by decide⟩

/-- It dies before the flush: a beginning of the line may be there. -/
example : ∃ b', Steps ⟨[], [], Format.default, false⟩ [.raw (ch! "disk full"), .raw ['\n']] b' ∧ b'.device = ch! "disk" :=
  ⟨_, .op (.spill 4 (.op (.done _))), by decide⟩

example : (Work.console false 3 (ch! "disk full") [red]).text (fun _ => none) Format.default = ch! "disk full\n" := by decide
example : ¬ (Work.console false 3 (ch! "disk full") [red]).silent := by
  intro h
  exact absurd (h red (by simp)) (by decide)

end Blackhole.Flush
