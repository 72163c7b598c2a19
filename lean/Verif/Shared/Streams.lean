import Verif.Lock.Plain
import Verif.Shared.Props

/-! # Console sinks of several threads: C67 -/

namespace Blackhole.Shared

open Pipeline (Process Call Handler Reply Given Fails Says Accepted Renders)
open Lock (Complete In Inv doneBy after Guarded Occurs byThread)

/-! ## Specification -/

/-- What the sinks of handler `i`, from number `j` on, print to a stream during the call: each console sink on this
stream that does not deny the severity prints the text once. -/
def sinksPrint (c : Call) (st : Console.Stream) (i : Nat) (text : Str) : Nat → List Pipeline.Sink → List Str
  | _, [] => []
  | j, .console k _ :: rest =>
    (if k.stream = st ∧ k.filter c.severity ≠ .deny then [k.output (c.replies i j).tty c.severity text] else [])
      ++ sinksPrint c st i text (j + 1) rest
  | j, _ :: rest => sinksPrint c st i text (j + 1) rest

/-- The same for the handlers from number `i` on, with the texts that their formatters give. -/
def handlersPrint (c : Call) (st : Console.Stream) : Nat → List (Handler × Str) → List Str
  | _, [] => []
  | i, (h, text) :: rest => sinksPrint c st i text 0 h.sinks ++ handlersPrint c st (i + 1) rest

/-- What a call in which nothing fails has to print to a stream. -/
inductive Shown (p : Process) (hs : List Handler) (st : Console.Stream) (c : Call) : List Str → Prop
  | accepted {r : Root.Rec} {texts : List Str} : Accepted p c r →
      Both (fun (h : Handler) text => Renders p c h.formatter r text) hs texts →
      Shown p hs st c (handlersPrint c st 0 (hs.zip texts))
  | notAccepted : (∀ r, ¬ Accepted p c r) → Shown p hs st c []

/-! ## Lemmas -/

theorem print_all (cs : Str) (printed : Str) :
    (cs.map print).foldl (fun r f => f r) (.stream printed) = Obj.stream (printed ++ cs) := by
  induction cs generalizing printed with
  | nil => simp
  | cons c cs ih =>
    rw [List.map_cons, List.foldl_cons]
    show (cs.map print).foldl _ (Obj.stream (printed ++ [c])) = _
    rw [ih]
    simp

/-- What an emit prints. -/
def outOf (op : Emit) : Str :=
  match op.apply (.stream []) with
  | .stream printed => printed
  | _ => []

theorem outOf_console (k : Console.Sink) (rep : Reply) (sev : Int) (text : Str) :
    outOf (consoleEmit k rep sev text).toOp = k.output rep.tty sev text := by
  have : (consoleEmit k rep sev text).toOp.apply (.stream []) = .stream (k.output rep.tty sev text) := by
    unfold Lock.Op.apply
    simp only [consoleEmit]
    rw [print_all, List.nil_append]
  simp only [outOf, this]

def shownAt (st : Console.Stream) (l : List (Emit × Bool)) : List Str :=
  l.filterMap fun x => if x.1.res = .stream st then some (outOf x.1) else none

theorem shownAt_append (st : Console.Stream) (a b : List (Emit × Bool)) :
    shownAt st (a ++ b) = shownAt st a ++ shownAt st b := by simp [shownAt]

/-- What tasks show if nothing fails. -/
def tasksShow (st : Console.Stream) (l : List Task) : List Str := shownAt st (l.map fun x => (x.toOp, false))

theorem tasksShow_append (st : Console.Stream) (a b : List Task) :
    tasksShow st (a ++ b) = tasksShow st a ++ tasksShow st b := by simp [tasksShow, shownAt_append]

theorem emits_show (st : Console.Stream) (i j : Nat) (c : Call) (text : Str) (s : Pipeline.Sink) (rest : List Pipeline.Sink) :
    tasksShow st (emits i j (c.replies i j) c.severity text s) ++ sinksPrint c st i text (j + 1) rest
      = sinksPrint c st i text j (s :: rest) := by
  cases s with
  | file path s => rfl
  | null => rfl
  | other s given => rfl
  | console k out =>
    simp only [emits, sinksPrint]
    by_cases hd : k.filter c.severity = .deny
    · simp [hd, tasksShow, shownAt]
    · rw [if_neg hd]
      by_cases hs : k.stream = st
      · rw [if_pos ⟨hs, hd⟩]
        congr 1
        have : (consoleEmit k (c.replies i j) c.severity text).toOp.res = .stream st := by rw [← hs]; rfl
        simp only [tasksShow, shownAt, List.map_cons, List.map_nil, List.filterMap_cons, this, if_true, List.filterMap_nil,
          outOf_console]
      · rw [if_neg fun h => hs h.1]
        have : (consoleEmit k (c.replies i j) c.severity text).toOp.res ≠ .stream st := by
          intro h; exact hs (by injection h)
        simp only [tasksShow, shownAt, List.map_cons, List.map_nil, List.filterMap_cons, this, if_false, List.filterMap_nil]

theorem emitAll_show (st : Console.Stream) (i j : Nat) (c : Call) (text : Str) (sinks : List Pipeline.Sink) :
    tasksShow st (emitAll i (c.replies i) c.severity text j sinks) = sinksPrint c st i text j sinks := by
  induction sinks generalizing j with
  | nil => rfl
  | cons s rest ih => rw [emitAll, tasksShow_append, ih, emits_show]

/-- Nothing fails in the call. -/
def Fine (hs : List Handler) (c : Call) : Prop :=
  ∀ i h, hs[i]? = some h → ∀ k s, h.sinks[k]? = some s → ¬ Fails (c.replies i k) s

theorem emits_fine {i j : Nat} {c : Call} {sev : Int} {text : Str} {s : Pipeline.Sink} (hf : ¬ Fails (c.replies i j) s)
    {x : Task} (hx : x ∈ emits i j (c.replies i j) sev text s) : ¬ CanFail x.toOp ∧ x.lock ≠ none := by
  cases s with
  | file path s =>
    simp only [emits, List.mem_singleton] at hx
    subst hx
    exact ⟨fun h => hf (file_canFail h), by simp [fileEmit]⟩
  | null => cases hx
  | console k out =>
    simp only [emits] at hx
    split at hx
    · cases hx
    · rw [List.mem_singleton] at hx
      subst hx
      refine ⟨?_, by simp [consoleEmit]⟩
      rintro ⟨r, h⟩
      cases h
  | other s given =>
    simp only [emits, List.mem_singleton] at hx
    subst hx
    refine ⟨?_, by simp [otherEmit]⟩
    rintro ⟨r, h⟩
    simp only [Fails, Decidable.not_not] at hf
    simp [otherEmit, hf] at h

theorem handleAll_show {p : Process} {hs : List Handler} {c : Call} {r : Root.Rec} (st : Console.Stream)
    (hsev : (Pipeline.recordOf p r).severity = c.severity) (k n : Nat) (hkn : k + n = hs.length)
    {gs : List (List Task)} {texts : List Str}
    (h : handleAll p hs c ((List.range' k n).map fun i => (i, r)) = .ok gs)
    (ht : Both (fun (h : Handler) text => Renders p c h.formatter r text) (hs.drop k) texts) (hfine : Fine hs c) :
    tasksShow st gs.flatten = handlersPrint c st k ((hs.drop k).zip texts)
    ∧ ∀ g ∈ gs, ∀ x ∈ g, ¬ CanFail x.toOp ∧ x.lock ≠ none := by
  induction n generalizing k gs texts with
  | zero =>
    cases h
    have : hs.drop k = [] := List.drop_eq_nil_of_le (by omega)
    rw [this] at ht ⊢
    cases ht
    exact ⟨rfl, by intro g hg; cases hg⟩
  | succ n ih =>
    have hk : k < hs.length := by omega
    rw [List.drop_eq_getElem_cons hk] at ht ⊢
    have hget : hs[k]? = some hs[k] := List.getElem?_eq_getElem hk
    cases ht with
    | @cons _ text _ texts ht hts =>
      simp only [List.range'_succ, List.map_cons, handleAll, hget] at h
      split at h
      · cases h
      · rename_i g hg
        split at h
        · cases h
        · rename_i gs' hgs
          cases h
          obtain ⟨ih1, ih2⟩ := ih (k + 1) (by omega) hgs hts
          have hr := Pipeline.renders_iff.1 ht
          rcases handle_cases hg with ⟨text', ht', rfl⟩ | ⟨hnt, o, rfl⟩
          · rw [hr] at ht'
            cases ht'
            rw [hsev]
            refine ⟨?_, ?_⟩
            · rw [List.flatten_cons, tasksShow_append, ih1, emitAll_show, List.zip_cons_cons]
              rfl
            · intro g hg x hx
              rcases List.mem_cons.1 hg with rfl | hg
              · obtain ⟨m, s, h1, h2⟩ := emitAll_mem hx
                rw [Nat.zero_add] at h2
                exact emits_fine (hfine k _ hget m s h1) h2
              · exact ih2 g hg x hx
          · exact absurd hr (hnt text)

theorem logCall_show {p : Process} {hs : List Handler} {c : Call} {st : Console.Stream} {gs : List (List Task)}
    {out : List Str} (h : logCall p hs c = .ok gs) (hout : Shown p hs st c out) (hfine : Fine hs c) :
    tasksShow st gs.flatten = out ∧ ∀ g ∈ gs, ∀ x ∈ g, ¬ CanFail x.toOp ∧ x.lock ≠ none := by
  unfold logCall at h
  split at h
  · cases h
  · rename_i res hlog
    split at h
    · cases h
    · rename_i gs' hgs
      cases h
      rcases Pipeline.log_calls hlog with ⟨r, hacc, hcalls⟩ | ⟨hno, hcalls⟩
      · rw [hcalls, List.range_eq_range', Pipeline.roots_length] at hgs
        have hsev : (Pipeline.recordOf p r).severity = c.severity := by cases hacc; rfl
        cases hout with
        | @accepted r' texts hacc' ht =>
          have hrr := Pipeline.accepted_unique hacc hacc'
          subst hrr
          have := handleAll_show st hsev 0 hs.length (by omega) hgs (texts := texts) (by simpa using ht) hfine
          simpa using this
        | notAccepted hno => exact absurd hacc (hno r)
      · rw [hcalls] at hgs
        cases hgs
        cases hout with
        | accepted hacc ht => exact absurd hacc (hno _)
        | notAccepted _ => exact ⟨rfl, by intro g hg; cases hg⟩

theorem program_show {p : Process} {hs : List Handler} {cs : List Call} {st : Console.Stream} {gs : List (List Task)}
    {outs : List (List Str)} (h : program p hs cs = .ok gs) (hout : Both (Shown p hs st) cs outs)
    (hfine : ∀ c ∈ cs, Fine hs c) :
    tasksShow st gs.flatten = outs.flatten ∧ ∀ g ∈ gs, ∀ x ∈ g, ¬ CanFail x.toOp ∧ x.lock ≠ none := by
  induction hout generalizing gs with
  | nil => cases h; exact ⟨rfl, by intro g hg; cases hg⟩
  | @cons c out cs outs hc _ ih =>
    simp only [program] at h
    split at h
    · cases h
    · rename_i g1 hg1
      split at h
      · cases h
      · rename_i g2 hg2
        cases h
        obtain ⟨a1, a2⟩ := logCall_show hg1 hc (hfine c List.mem_cons_self)
        obtain ⟨b1, b2⟩ := ih hg2 fun c hc => hfine c (List.mem_cons_of_mem _ hc)
        refine ⟨by rw [List.flatten_append, tasksShow_append, a1, b1, List.flatten_cons], ?_⟩
        intro g hg
        rcases List.mem_append.1 hg with hg | hg
        · exact a2 g hg
        · exact b2 g hg

/-- What was printed to a stream, and by which threads. -/
def printedAt (st : Console.Stream) (done : List (Nat × Emit × Bool)) : List (Nat × Str) :=
  done.filterMap fun d => if d.2.1.res = .stream st then some (d.1, outOf d.2.1) else none

theorem printed_by (st : Console.Stream) (t : Nat) (done : List (Nat × Emit × Bool)) :
    byThread t (printedAt st done) = shownAt st (doneBy t done) := by
  induction done with
  | nil => rfl
  | cons d done ih =>
    have h1 : printedAt st (d :: done) = (if d.2.1.res = .stream st then [(d.1, outOf d.2.1)] else []) ++ printedAt st done := by
      unfold printedAt
      by_cases h : d.2.1.res = .stream st <;> simp [h]
    have h2 : doneBy t (d :: done) = (if d.1 = t then [d.2] else []) ++ doneBy t done := by
      unfold doneBy
      by_cases h : d.1 = t <;> simp [h]
    rw [h1, h2, shownAt_append, ← ih]
    unfold byThread
    rw [List.filter_append, List.map_append]
    congr 1
    by_cases hk : d.2.1.res = .stream st <;> by_cases ht : d.1 = t <;> simp [shownAt, hk, ht]

theorem after_streams {st : Console.Stream} (done : List (Nat × Emit × Bool))
    (h : ∀ d ∈ done, d.2.1.res = .stream st → ∃ k rep sev text, d.2.1 = (consoleEmit k rep sev text).toOp) :
    after (.stream st) done (.stream []) = .stream ((printedAt st done).flatMap (·.2)) := by
  induction done using snoc_induction with
  | nil => rfl
  | snoc done d ih =>
    rw [Lock.after_snoc, ih fun x hx => h x (by simp [hx])]
    have he : printedAt st (done ++ [d]) = printedAt st done ++ printedAt st [d] := by simp [printedAt]
    by_cases hd : d.2.1.res = .stream st
    · obtain ⟨k, rep, sev, text, e⟩ := h d (by simp) hd
      rw [if_pos hd, he]
      have h1 : printedAt st [d] = [(d.1, k.output rep.tty sev text)] := by
        simp only [printedAt, List.filterMap_cons, hd, if_true, List.filterMap_nil]
        rw [e, outOf_console]
      rw [h1, e]
      unfold Lock.Op.apply
      simp only [consoleEmit, print_all]
      simp
    · rw [if_neg hd, he]
      have h1 : printedAt st [d] = [] := by simp [printedAt, hd]
      rw [h1, List.append_nil]

/-- The standard streams of threads whose programs are made of emits that do not fail; `outs t` is what thread `t` has to
print. -/
theorem streams_of (hs : List Handler) (n : Nat) (programs : Nat → List (List Task)) (hn : ∀ t, n ≤ t → programs t = [])
    (hp : ∀ t op, In (programs t) op → Kind hs op) (schedule : List Nat) (st : Console.Stream) (outs : Nat → List (List Str))
    (hshow : ∀ t, tasksShow st (programs t).flatten = (outs t).flatten
      ∧ ∀ g ∈ programs t, ∀ x ∈ g, ¬ CanFail x.toOp ∧ x.lock ≠ none) :
    ∃ (printed : List (Nat × Str)) (current : Str),
      (run programs hs schedule).res (.stream st) = .stream (printed.flatMap (·.2) ++ current)
      ∧ (∀ t, byThread t printed <+: (outs t).flatten)
      ∧ (current = [] ∨ ∃ t output, byThread t printed ++ [output] <+: (outs t).flatten ∧ current <+: output)
      ∧ ((run programs hs schedule).finished → current = [] ∧ ∀ t, byThread t printed = (outs t).flatten) := by
  have hkind : ∀ op : Emit, Occurs (fun t => Lock.plain (programs t)) op → Kind hs op ∧ ¬ CanFail op ∧ op.lock ≠ none := by
    intro op ho
    obtain ⟨t, g, hg, x, hx, rfl⟩ := Lock.plain_occurs ho
    exact ⟨hp t _ ⟨g, hg, x, hx, .inl rfl⟩, (hshow t).2 g hg x hx⟩
  have hguard : ∀ k, Guarded (fun t => Lock.plain (programs t)) k := by
    intro k
    refine ⟨match k with | .stream _ => .console | .sink i j => .sink i j, fun op ho he => ?_⟩
    obtain ⟨hk, -, hl⟩ := hkind op ho
    subst he
    cases hk with
    | file _ _ => rfl
    | console _ _ _ => rfl
    | other _ _ => rfl
    | report => exact absurd rfl hl
  have hnofail : ∀ sched, ∀ d ∈ ((Lock.State.init (fun t => Lock.plain (programs t)) (start hs)).run sched).done,
      d.2.2 = false := by
    intro sched d hd
    have hinv := (Inv.start (fun t => Lock.plain (programs t)) (start hs)).run sched
    obtain ⟨a, b, e⟩ := List.append_of_mem hd
    have := hinv.truthful d.2.1.res (hguard _) a d b e rfl
    cases hf : d.2.2 with
    | false => rfl
    | true => exact absurd ⟨_, by rw [← this, hf]⟩ (hkind _ (hinv.did hd)).2.1
  have halike := Lock.plain_run programs (start hs) schedule (hnofail schedule)
  have hfinished : (run programs hs schedule).finished →
      ((Lock.State.init (fun t => Lock.plain (programs t)) (start hs)).run schedule).finished := by
    intro hf t
    rw [halike.todo t]
    rw [show ((Lock.State.init programs (start hs)).run schedule).threads t = (run programs hs schedule).threads t from rfl,
      hf t]
    rfl
  have hres : (run programs hs schedule).res (.stream st)
      = ((Lock.State.init (fun t => Lock.plain (programs t)) (start hs)).run schedule).res (.stream st) := by
    rw [halike.res]; rfl
  rw [hres]
  have hinv := (Inv.start (fun t => Lock.plain (programs t)) (start hs)).run schedule
  have hnf := fun more => hnofail (schedule ++ more)
  have hsplit : ∀ more, (Lock.State.init (fun t => Lock.plain (programs t)) (start hs)).run (schedule ++ more)
      = ((Lock.State.init (fun t => Lock.plain (programs t)) (start hs)).run schedule).run more := by
    intro more; simp [Lock.State.run]
  simp only [hsplit] at hnf
  clear hsplit halike hres hnofail
  generalize (Lock.State.init (fun t => Lock.plain (programs t)) (start hs)).run schedule = s at hinv hnf hfinished ⊢
  have hnp : ∀ t, n ≤ t → Lock.plain (programs t) = [] := by
    intro t ht
    rw [hn t ht]
    rfl
  obtain ⟨more, hfin⟩ := hinv.can_finish hnp
  have hinv' := hinv.run more
  obtain ⟨extra, hextra⟩ := Lock.done_grows s more
  have hcomplete : ∀ t, Complete (Lock.plain (programs t)) (doneBy t (s.run more).done) := by
    intro t
    have := hinv'.ran t
    rw [hfin t] at this
    have := this.complete .nil
    rwa [List.append_nil] at this
  have hall : ∀ t, shownAt st (doneBy t (s.run more).done) = (outs t).flatten := by
    intro t
    rw [(hcomplete t).plain, ← (hshow t).1]
    · rfl
    · intro x hx
      obtain ⟨d, hd, rfl⟩ := List.mem_map.1 hx
      exact hnf more d (List.mem_filter.1 hd).1
  have hconsole : ∀ op : Emit, Occurs (fun t => Lock.plain (programs t)) op → op.res = .stream st →
      ∃ k rep sev text, op = (consoleEmit k rep sev text).toOp := by
    intro op ho he
    obtain ⟨hk, -, hl⟩ := hkind op ho
    cases hk with
    | file _ _ => cases he
    | console _ _ _ => exact ⟨_, _, _, _, rfl⟩
    | other _ _ => cases he
    | report => exact absurd rfl hl
  have hafter := after_streams s.done fun d hd he => hconsole d.2.1 (hinv.did hd) he
  have hstart : start hs (.stream st) = .stream [] := rfl
  have hpre : ∀ t, byThread t (printedAt st s.done) <+: (outs t).flatten := by
    intro t
    rw [← hall t, hextra, Lock.doneBy_append, shownAt_append, printed_by]
    exact List.prefix_append _ _
  by_cases hbusy : ∃ t op past rest, Lock.Inside s t op past rest ∧ op.res = .stream st
  · obtain ⟨t, op, past, rest, hin, he⟩ := hbusy
    have hb := hinv.busy t op past rest hin (hguard _)
    obtain ⟨x, ops, groups, etodo, hx⟩ := hin.todo
    obtain ⟨k, rep, sev, text, eop⟩ := hconsole op (hx ▸ hinv.occurs etodo) he
    rw [he, hstart, hafter] at hb
    have hsteps := hin.steps
    rw [eop] at hsteps
    obtain ⟨l1, l2, e1, e2, e3⟩ := prefix_map_split _ _ _ _ hsteps
    rw [e2, print_all] at hb
    refine ⟨printedAt st s.done, l1, hb, hpre, .inr ⟨t, k.output rep.tty sev text, ?_, ⟨l2, e1.symm⟩⟩, ?_⟩
    · rw [← hall t, printed_by, hextra, Lock.doneBy_append, shownAt_append]
      have hran := hinv.ran t
      rw [etodo] at hran
      have hc := hcomplete t
      rw [hextra, Lock.doneBy_append] at hc
      have hrest := hran.rest hc
      have : ∃ b l, doneBy t extra = (op, b) :: l := by
        rw [← hx]
        generalize doneBy t extra = e at hrest
        cases hrest with
        | ok _ => exact ⟨_, _, rfl⟩
        | failed _ => exact ⟨_, _, rfl⟩
      obtain ⟨b, l, e⟩ := this
      rw [e]
      refine ⟨shownAt st l, ?_⟩
      have h1 : shownAt st ((op, b) :: l) = outOf op :: shownAt st l := by
        simp only [shownAt, List.filterMap_cons, he, if_true]
      rw [h1, eop, outOf_console]
      simp
    · intro hf
      rw [hfinished hf t] at etodo
      cases etodo
  · have hidle := hinv.idle (.stream st) (hguard _) fun t op past rest hin he => hbusy ⟨t, op, past, rest, hin, he⟩
    rw [hstart, hafter] at hidle
    refine ⟨printedAt st s.done, [], by rw [hidle, List.append_nil], hpre, .inl rfl, ?_⟩
    intro hf
    refine ⟨rfl, fun t => ?_⟩
    rw [← hall t, printed_by, Lock.finished_run (hfinished hf)]

/-! ## C67 -/

/-- **C67, the standard streams.** Threads log through handlers with any number of console sinks, and nothing fails. At
any moment what was printed to a stream is whole outputs of calls and the beginning of at most one more: outputs are
never mixed. What comes from each thread is what its calls have to print, in the order of its calls; when all threads
are done, all of it. -/
theorem C67_streams (p : Process) (hs : List Handler) (n : Nat) (calls : Nat → List Call) (hn : ∀ t, n ≤ t → calls t = [])
    (programs : Nat → List (List Task)) (hp : ∀ t, program p hs (calls t) = .ok (programs t)) (schedule : List Nat)
    (st : Console.Stream)
    (hok : ∀ t, ∀ c ∈ calls t, ∀ i h, hs[i]? = some h → ∀ k s, h.sinks[k]? = some s → ¬ Fails (c.replies i k) s)
    (outs : Nat → List (List Str)) (houts : ∀ t, Both (Shown p hs st) (calls t) (outs t)) :
    ∃ (printed : List (Nat × Str)) (current : Str),
      (run programs hs schedule).res (.stream st) = .stream (printed.flatMap (·.2) ++ current)
      ∧ (∀ t, byThread t printed <+: (outs t).flatten)
      ∧ (current = [] ∨ ∃ t output, byThread t printed ++ [output] <+: (outs t).flatten ∧ current <+: output)
      ∧ ((run programs hs schedule).finished → current = [] ∧ ∀ t, byThread t printed = (outs t).flatten) := by
  refine streams_of hs n programs ?_ (fun t op => program_kind (hp t)) schedule st outs
    fun t => program_show (hp t) (houts t) fun c hc => hok t c hc
  intro t ht
  have := hp t
  rw [hn t ht] at this
  injection this with this
  exact this.symm

/-- **C67, reports.** Whatever else a call does than to give texts to sinks is a report of an error: it is printed to the standard
output without a mutex, and if nothing comes in between it is the line that `C07` speaks of, with its end of line. -/
theorem C67_reports {p : Process} {hs : List Handler} {cs : List Call} {gs : List (List Task)}
    (h : program p hs cs = .ok gs) {op : Emit} (hop : In gs op) (hw : op.what = none) :
    op.res = .stream .stdout ∧ op.lock = none
      ∧ ∃ o, ∀ printed, op.apply (.stream printed) = .stream (printed ++ (Root.report o).flatMap (· ++ ch! "\n")) := by
  cases program_kind h hop with
  | file => simp [fileEmit] at hw
  | console => simp [consoleEmit] at hw
  | other => simp at hw
  | @report o =>
    refine ⟨rfl, rfl, o, fun printed => ?_⟩
    unfold Lock.Op.apply
    simp only [report]
    rw [print_all]
    cases o <;> simp [reportText, Root.report] <;> rfl

end Blackhole.Shared
