import Verif.Shared.Cases

/-! # The standard streams, character by character, whatever fails: C67 -/

namespace Blackhole.Shared

open Pipeline (Process Call Handler Reply Given Fails Says Accepted Renders SeenAs)
open Lock (Complete In Inv doneBy after Guarded Occurs byThread)
open Root (HOut)

/-! ## Specification -/

/-- The report of an exception, if it goes to this stream. -/
def reportOn (st : Console.Stream) (o : HOut) : List Str :=
  if st = .stdout then (Root.report o).map (· ++ ch! "\n") else []

/-- What a sink throws if it fails. -/
def thrown (rep : Reply) : Pipeline.Sink → HOut
  | .file _ _ => .throwStd rep.what
  | .other _ _ => rep.other
  | _ => .ok

/-- What may be printed to a stream while a handler gives a text to its sinks, those from number `j` on: console sinks print,
and a sink that fails is reported and ends this. Whether a file sink fails that met something that may make it fail depends on
the files it has open, that is on the other threads; sinks of other kinds fail if they say so. -/
inductive SinksMay (c : Call) (st : Console.Stream) (i : Nat) (text : Str) : Nat → List Pipeline.Sink → List Str → Prop
  | nil {j : Nat} : SinksMay c st i text j [] []
  | fine {j : Nat} {s : Pipeline.Sink} {rest : List Pipeline.Sink} {out : List Str} :
      (∀ e given, s = .other e given → (c.replies i j).other = .ok) → SinksMay c st i text (j + 1) rest out →
      SinksMay c st i text j (s :: rest) (sinksPrint c st i text j [s] ++ out)
  | failed {j : Nat} {s : Pipeline.Sink} {rest : List Pipeline.Sink} : Fails (c.replies i j) s →
      SinksMay c st i text j (s :: rest) (reportOn st (thrown (c.replies i j) s))

/-- What the root logger sees of an error of a formatter. -/
def thrownBy : Rec.Exc → Option HOut
  | .fmt (.format m) => some (.throwStd m)
  | .logic m => some (.throwStd m)
  | .user _ => some .throwOther
  | _ => none

/-- What may be printed while handler `i`, which is `h`, handles the record. -/
inductive HandlerMay (p : Process) (c : Call) (st : Console.Stream) (r : Root.Rec) (i : Nat) (h : Handler) : List Str → Prop
  | rendered {text : Str} {out : List Str} : Renders p c h.formatter r text → SinksMay c st i text 0 h.sinks out →
      HandlerMay p c st r i h out
  | notRendered {seen : Rec.Record} {e : Rec.Exc} {o : HOut} : SeenAs p r seen →
      Pipeline.render p c.lwp seen h.formatter = .error e → thrownBy e = some o → HandlerMay p c st r i h (reportOn st o)

/-- The same for the handlers from number `i` on: each does its part, whatever happened to those before. -/
inductive HandlersMay (p : Process) (c : Call) (st : Console.Stream) (r : Root.Rec) : Nat → List Handler → List Str → Prop
  | nil {i : Nat} : HandlersMay p c st r i [] []
  | cons {i : Nat} {h : Handler} {hs : List Handler} {out outs : List Str} : HandlerMay p c st r i h out →
      HandlersMay p c st r (i + 1) hs outs → HandlersMay p c st r i (h :: hs) (out ++ outs)

/-- What a call may print to a stream. -/
inductive MayPrint (p : Process) (hs : List Handler) (st : Console.Stream) (c : Call) : List Str → Prop
  | accepted {r : Root.Rec} {out : List Str} : Accepted p c r → HandlersMay p c st r 0 hs out → MayPrint p hs st c out
  | notAccepted : (∀ r, ¬ Accepted p c r) → MayPrint p hs st c []

/-! ## What programs print -/

theorem outOf_report (o : HOut) : outOf (report o) = reportText o := by
  have : (report o).apply (.stream []) = .stream (reportText o) := by
    unfold Lock.Op.apply
    simp only [report]
    rw [print_all, List.nil_append]
  simp only [outOf, this]

theorem shown_report (st : Console.Stream) {o : HOut} (ho : o ≠ .ok) (b : Bool) :
    shownAt st [(report o, b)] = reportOn st o := by
  have h1 : (report o).res = .stream .stdout := rfl
  by_cases h : st = .stdout
  · subst h
    simp only [shownAt, List.filterMap_cons, h1, if_true, List.filterMap_nil, outOf_report, reportOn]
    cases o with
    | ok => exact absurd rfl ho
    | throwStd w => simp [reportText, Root.report] <;> rfl
    | throwOther => simp [reportText, Root.report] <;> rfl
  · have : (report o).res ≠ .stream st := by rw [h1]; intro e; injection e with e; exact h e.symm
    simp [shownAt, this, reportOn, h]

/-- Results that some object accounts for. -/
def Real (d : Done) : Prop := (∀ x ∈ d, ∃ r, x.2 = x.1.failed r) ∧ Honest d

theorem Real.left {a b : Done} (h : Real (a ++ b)) : Real a :=
  ⟨fun x hx => h.1 x (by simp [hx]), fun x hx => h.2 x (by simp [hx])⟩
theorem Real.right {a b : Done} (h : Real (a ++ b)) : Real b :=
  ⟨fun x hx => h.1 x (by simp [hx]), fun x hx => h.2 x (by simp [hx])⟩

theorem complete_alone {op : Emit} {d : Done} (h : Complete [[op.alone]] d) : ∃ b, d = [(op, b)] := by
  cases h with
  | ok h => cases h with | next h => cases h; exact ⟨_, rfl⟩
  | failed h => cases h with | next h => cases h; exact ⟨_, rfl⟩

theorem emitAll_may {c : Call} {st : Console.Stream} {i : Nat} {text : Str} {sinks : List Pipeline.Sink} {j : Nat} {d : Done}
    (h : Complete [emitAll i (c.replies i) c.severity text j sinks] d) (hr : Real d) :
    ∃ out, SinksMay c st i text j sinks out ∧ shownAt st d = out := by
  induction sinks generalizing j d with
  | nil =>
    cases h with
    | next h => cases h; exact ⟨_, .nil, rfl⟩
  | cons s rest ih =>
    have shows : ∀ (x : Task) (d' : Done), emits i j (c.replies i j) c.severity text s = [x] →
        shownAt st ((x.toOp, false) :: d') = sinksPrint c st i text j [s] ++ shownAt st d' := by
      intro x d' hx
      have h1 := emits_show st i j c text s []
      rw [hx] at h1
      simp only [sinksPrint, List.append_nil] at h1
      have h2 : shownAt st ((x.toOp, false) :: d') = shownAt st [(x.toOp, false)] ++ shownAt st d' := shownAt_append st [_] d'
      rw [h2]
      congr 1
    have one : ∀ (x : Task), emits i j (c.replies i j) c.severity text s = [x] →
        (∀ r, x.failed r = false → ∀ e given, s = .other e given → (c.replies i j).other = .ok) →
        (CanFail x.toOp → Fails (c.replies i j) s ∧ thrown (c.replies i j) s ≠ .ok ∧
          x.rescue = [report (thrown (c.replies i j) s)]) →
        ∃ out, SinksMay c st i text j (s :: rest) out ∧ shownAt st d = out := by
      intro x hx hok hfail
      rw [emitAll, hx, List.singleton_append] at h
      cases h with
      | ok h =>
        obtain ⟨r, hr0⟩ := hr.1 _ List.mem_cons_self
        obtain ⟨out, h1, h2⟩ := ih h (Real.right (a := [(x.toOp, false)]) hr)
        exact ⟨_, .fine (hok r hr0.symm) h1, by rw [shows x _ hx, h2]⟩
      | @failed _ _ _ d' h =>
        obtain ⟨h1, h2, h3⟩ := hfail (hr.2 _ List.mem_cons_self rfl)
        rw [h3] at h
        obtain ⟨b, hd'⟩ := complete_alone h
        subst hd'
        refine ⟨_, .failed h1, ?_⟩
        have h4 : shownAt st ((x.toOp, true) :: [(report (thrown (c.replies i j) s), b)])
            = shownAt st [(x.toOp, true)] ++ shownAt st [(report (thrown (c.replies i j) s), b)] := shownAt_append st [_] [_]
        have h5 : shownAt st [(x.toOp, true)] = [] := by
          have : x.res ≠ .stream st := by
            cases s with
            | file path s => simp only [emits, List.cons.injEq, and_true] at hx; subst hx; simp [fileEmit]
            | other e given => simp only [emits, List.cons.injEq, and_true] at hx; subst hx; simp [otherEmit]
            | console k out => cases h1
            | null => cases h1
          simp [shownAt, this]
        rw [h4, h5, shown_report st h2]
        rfl
    cases s with
    | file path s =>
      refine one _ rfl (fun r _ e given he => by cases he) fun hf => ?_
      exact ⟨file_canFail hf, by simp [thrown], rfl⟩
    | other e given =>
      refine one _ rfl (fun r hf e' given' _ => ?_) fun ⟨r, hf⟩ => ?_
      · simpa [otherEmit] using hf
      · have : (c.replies i j).other ≠ .ok := by simpa [otherEmit] using hf
        exact ⟨this, this, rfl⟩
    | null =>
      obtain ⟨out, h1, h2⟩ := ih (j := j + 1) (d := d) (by simpa [emitAll, emits] using h) hr
      exact ⟨_, .fine (fun e given he => by cases he) h1, by rw [h2]; rfl⟩
    | console k out =>
      by_cases hd : k.filter c.severity = .deny
      · obtain ⟨out', h1, h2⟩ := ih (j := j + 1) (d := d) (by simpa [emitAll, emits, hd] using h) hr
        exact ⟨_, .fine (fun e given he => by cases he) h1, by rw [h2]; simp [sinksPrint, hd]⟩
      · refine one (consoleEmit k (c.replies i j) c.severity text) (by simp [emits, hd]) (fun r _ e given he => by cases he)
          fun ⟨r, hf⟩ => by cases hf

theorem handle_may {p : Process} {c : Call} {st : Console.Stream} {r : Root.Rec} {i : Nat} {h : Handler} {g : List Task}
    {d : Done} (hsev : (Pipeline.recordOf p r).severity = c.severity)
    (hh : handle p c i h (Pipeline.recordOf p r) = .ok g) (hc : Complete [g] d) (hr : Real d) :
    ∃ out, HandlerMay p c st r i h out ∧ shownAt st d = out := by
  have fails {e : Rec.Exc} {o : HOut} (he : Pipeline.render p c.lwp (Pipeline.recordOf p r) h.formatter = .error e)
      (ho : thrownBy e = some o) (hne : o ≠ .ok) (hg : g = [(report o).alone]) :
      ∃ out, HandlerMay p c st r i h out ∧ shownAt st d = out := by
    subst hg
    obtain ⟨b, rfl⟩ := complete_alone hc
    exact ⟨_, .notRendered (Pipeline.seen_iff.2 rfl) he ho, shown_report st hne b⟩
  unfold handle at hh
  split at hh
  · cases hh
  · cases hh
  · next m he => cases hh; exact fails he rfl (by simp) rfl
  · next m he => cases hh; exact fails he rfl (by simp) rfl
  · next he => cases hh; exact fails he rfl (by simp) rfl
  · next text he =>
    cases hh
    rw [hsev] at hc
    obtain ⟨out, h1, h2⟩ := emitAll_may (st := st) hc hr
    exact ⟨out, .rendered (Pipeline.renders_iff.2 he) h1, h2⟩

theorem handleAll_may {p : Process} {hs : List Handler} {c : Call} {r : Root.Rec} {st : Console.Stream}
    (hsev : (Pipeline.recordOf p r).severity = c.severity) (k n : Nat) (hkn : k + n = hs.length)
    {gs : List (List Task)} {d : Done} (h : handleAll p hs c ((List.range' k n).map fun i => (i, r)) = .ok gs)
    (hc : Complete gs d) (hr : Real d) : ∃ out, HandlersMay p c st r k (hs.drop k) out ∧ shownAt st d = out := by
  induction n generalizing k gs d with
  | zero =>
    cases h
    cases hc
    rw [List.drop_eq_nil_of_le (by omega)]
    exact ⟨_, .nil, rfl⟩
  | succ n ih =>
    have hk : k < hs.length := by omega
    rw [List.drop_eq_getElem_cons hk]
    simp only [List.range'_succ, List.map_cons, handleAll, List.getElem?_eq_getElem hk] at h
    split at h
    · cases h
    · rename_i g hg
      split at h
      · cases h
      · rename_i gs' hgs
        cases h
        obtain ⟨d1, d2, rfl, hc1, hc2⟩ := Complete.append (a := [g]) (b := gs') hc
        obtain ⟨o1, a1, a2⟩ := handle_may (st := st) hsev hg hc1 hr.left
        obtain ⟨o2, b1, b2⟩ := ih (k + 1) (by omega) hgs hc2 hr.right
        exact ⟨_, .cons a1 b1, by rw [shownAt_append, a2, b2]⟩

theorem program_may {p : Process} {hs : List Handler} {cs : List Call} {st : Console.Stream} {gs : List (List Task)}
    {d : Done} (h : program p hs cs = .ok gs) (hc : Complete gs d) (hr : Real d) :
    ∃ outs, Both (MayPrint p hs st) cs outs ∧ shownAt st d = outs.flatten := by
  induction cs generalizing gs d with
  | nil => cases h; cases hc; exact ⟨[], .nil, rfl⟩
  | cons c cs ih =>
    simp only [program] at h
    split at h
    · cases h
    · rename_i g1 hg1
      split at h
      · cases h
      · rename_i g2 hg2
        cases h
        obtain ⟨d1, d2, rfl, hc1, hc2⟩ := Complete.append hc
        obtain ⟨outs, b1, b2⟩ := ih hg2 hc2 hr.right
        have : ∃ out, MayPrint p hs st c out ∧ shownAt st d1 = out := by
          unfold logCall at hg1
          split at hg1
          · cases hg1
          · rename_i res hlog
            split at hg1
            · cases hg1
            · rename_i gs' hgs
              cases hg1
              rcases Pipeline.log_calls hlog with ⟨r, hacc, hcalls⟩ | ⟨hno, hcalls⟩
              · rw [hcalls, List.range_eq_range', Pipeline.roots_length] at hgs
                have hsev : (Pipeline.recordOf p r).severity = c.severity := by cases hacc; rfl
                obtain ⟨out, a1, a2⟩ := handleAll_may (st := st) hsev 0 hs.length (by omega) hgs hc1 hr.left
                exact ⟨out, .accepted hacc (by simpa using a1), a2⟩
              · rw [hcalls] at hgs
                cases hgs
                cases hc1
                exact ⟨_, .notAccepted hno, rfl⟩
        obtain ⟨out, a1, a2⟩ := this
        exact ⟨out :: outs, .cons a1 b1, by rw [shownAt_append, a2, b2, List.flatten_cons]⟩

/-! ## What is on the stream -/

theorem stream_steps {hs : List Handler} {op : Emit} (hk : Kind hs op) {st : Console.Stream} (he : op.res = .stream st) :
    op.steps = (outOf op).map print := by
  cases hk with
  | file _ _ => cases he
  | console _ _ _ => rw [outOf_console]; rfl
  | other _ _ => cases he
  | report => rw [outOf_report]; rfl

/-- What a thread has printed of the output it is in. -/
def part (st : Console.Stream) (th : Lock.Thread Place Mutex What Obj) : Str :=
  match th.todo, th.doing with
  | (x :: _) :: _, some rest =>
    if x.res = .stream st then (outOf x.toOp).take ((outOf x.toOp).length - rest.length) else []
  | _, _ => []

theorem byThread_snoc_same {α : Type} (t : Nat) (l : List (Nat × α)) (a : α) : byThread t (l ++ [(t, a)]) = byThread t l ++ [a] := by
  simp [byThread]

theorem byThread_snoc_other {α : Type} {t u : Nat} (h : u ≠ t) (l : List (Nat × α)) (a : α) :
    byThread u (l ++ [(t, a)]) = byThread u l := by
  simp [byThread, Ne.symm h]

/-- The stream has the characters that the threads printed, and each thread has printed its finished outputs and a part of
one more. -/
def Chars (st : Console.Stream) (s : State) : Prop :=
  ∃ chars : List (Nat × Char), s.res (.stream st) = .stream (chars.map (·.2))
    ∧ ∀ t, byThread t chars = (shownAt st (doneBy t s.done)).flatten ++ part st (s.threads t)

theorem Chars.step {hs : List Handler} {programs : Nat → List (List Task)} {init : Place → Obj}
    (hp : ∀ t op, In (programs t) op → Kind hs op) {st : Console.Stream} {s : State} (hinv : Inv programs init s)
    (h : Chars st s) (t : Nat) : Chars st (s.step t) := by
  obtain ⟨chars, hres, hby⟩ := h
  have keep : ∀ (th : Lock.Thread Place Mutex What Obj) (f : Nat → Lock.Thread Place Mutex What Obj),
      f = Lock.upd s.threads t th → part st th = part st (s.threads t) →
      ∀ u, byThread u chars = (shownAt st (doneBy u s.done)).flatten ++ part st (f u) := by
    intro th f hf he u
    subst hf
    by_cases hu : u = t
    · subst hu; rw [Lock.upd_same, he]; exact hby u
    · rw [Lock.upd_other _ _ hu]; exact hby u
  unfold Lock.State.step
  cases htodo : (s.threads t).todo with
  | nil => exact ⟨chars, hres, hby⟩
  | cons g groups =>
    cases g with
    | nil =>
      refine ⟨chars, hres, keep _ _ rfl ?_⟩
      simp only [part, htodo]
    | cons x ops =>
      have hkind : Kind hs x.toOp := occurs_kind hp (hinv.occurs htodo)
      cases hdoing : (s.threads t).doing with
      | none =>
        simp only
        split
        · refine ⟨chars, hres, keep _ _ rfl ?_⟩
          simp only [part, htodo, hdoing]
          split
          · next he => rw [stream_steps hkind he]; simp
          · rfl
        · exact ⟨chars, hres, hby⟩
      | some rest =>
        obtain ⟨op, past, hin, -⟩ := hinv.holds t rest hdoing
        obtain ⟨x', ops', groups', e1, e2⟩ := hin.todo
        rw [htodo] at e1
        simp only [List.cons.injEq] at e1
        obtain ⟨⟨rfl, rfl⟩, rfl⟩ := e1
        have hsteps : x.steps = past ++ rest := by have := hin.steps; rwa [← e2] at this
        cases rest with
        | nil =>
          simp only
          refine ⟨chars, hres, fun u => ?_⟩
          by_cases hu : u = t
          · subst hu
            simp only [Lock.upd_same]
            rw [hby u, Lock.doneBy_same, shownAt_append, List.flatten_append, List.append_assoc]
            congr 1
            simp only [part, htodo, hdoing]
            by_cases he : x.res = .stream st
            · simp [he, shownAt]
            · simp [he, shownAt]
          · simp only [Lock.upd_other _ _ hu, Lock.doneBy_other hu]
            exact hby u
        | cons f fs =>
          simp only
          by_cases he : x.res = .stream st
          · have h1 := stream_steps hkind he
            rw [hsteps] at h1
            have h2 : (outOf x.toOp).length = past.length + (fs.length + 1) := by
              have := congrArg List.length h1
              simpa using this.symm
            have hlt : past.length < (outOf x.toOp).length := by omega
            have hf : f = print ((outOf x.toOp)[past.length]'hlt) := by
              have := congrArg (·[past.length]?) h1
              simp only [List.getElem?_append_right (Nat.le_refl _), Nat.sub_self, List.getElem?_cons_zero, List.getElem?_map,
                List.getElem?_eq_getElem hlt, Option.map_some, Option.some.injEq] at this
              exact this
            refine ⟨chars ++ [(t, (outOf x.toOp)[past.length])], ?_, fun u => ?_⟩
            · show Lock.upd s.res x.res (f (s.res x.res)) (.stream st) = _
              rw [he, Lock.upd_same, hres, hf]
              simp [print]
            · by_cases hu : u = t
              · subst hu
                rw [byThread_snoc_same, hby u, List.append_assoc]
                simp only [Lock.upd_same, part, htodo, hdoing, he, if_true]
                congr 1
                rw [show (outOf x.toOp).length - (f :: fs).length = past.length by simp; omega,
                  show (outOf x.toOp).length - fs.length = past.length + 1 by omega]
                exact (List.take_succ_eq_append_getElem hlt).symm
              · rw [byThread_snoc_other hu]
                simp only [Lock.upd_other _ _ hu]
                exact hby u
          · refine ⟨chars, ?_, keep _ _ rfl ?_⟩
            · show Lock.upd s.res x.res (f (s.res x.res)) (.stream st) = _
              rw [Lock.upd_other _ _ (Ne.symm he)]
              exact hres
            · simp [part, htodo, hdoing, he]

theorem Chars.run {hs : List Handler} {programs : Nat → List (List Task)} {init : Place → Obj}
    (hp : ∀ t op, In (programs t) op → Kind hs op) {st : Console.Stream} {s : State} (hinv : Inv programs init s)
    (h : Chars st s) (schedule : List Nat) : Chars st (s.run schedule) := by
  induction schedule generalizing s with
  | nil => exact h
  | cons t ts ih => exact ih (hinv.step t) (h.step hp hinv t)

/-! ## C67 -/

/-- **C67, the standard streams with errors.** Threads log through handlers with any sinks, any of which may fail. What is on a
standard stream is made of what the threads print, character by character: nothing is lost or doubled, and the characters of
each thread are the beginning of outputs and reports that its calls may print, in their order; all of it when the threads are done.
(Outputs of console sinks are whole as long as nothing is reported: `C67_streams`.) -/
theorem C67_characters (p : Process) (hs : List Handler) (n : Nat) (calls : Nat → List Call) (hn : ∀ t, n ≤ t → calls t = [])
    (programs : Nat → List (List Task)) (hp : ∀ t, program p hs (calls t) = .ok (programs t)) (schedule : List Nat)
    (st : Console.Stream) :
    ∃ (chars : List (Nat × Char)) (outs : Nat → List (List Str)),
      (run programs hs schedule).res (.stream st) = .stream (chars.map (·.2))
      ∧ (∀ t, Both (MayPrint p hs st) (calls t) (outs t))
      ∧ (∀ t, byThread t chars <+: (outs t).flatten.flatten)
      ∧ ((run programs hs schedule).finished → ∀ t, byThread t chars = (outs t).flatten.flatten) := by
  have hk : ∀ t op, In (programs t) op → Kind hs op := fun t op => program_kind (hp t)
  have hinv : Inv programs (start hs) (run programs hs schedule) := (Inv.start programs (start hs)).run schedule
  have hnp : ∀ t, n ≤ t → programs t = [] := by
    intro t ht
    have := hp t
    rw [hn t ht] at this
    injection this with this
    exact this.symm
  obtain ⟨chars, hres, hby⟩ : Chars st (run programs hs schedule) :=
    Chars.run hk (Inv.start programs (start hs)) ⟨[], rfl, fun t => by
      have : part st ⟨programs t, none⟩ = [] := by
        unfold part
        split
        · next h => simp at h
        · rfl
      simp only [Lock.State.init, this]
      rfl⟩ schedule
  generalize run programs hs schedule = s at hinv hres hby ⊢
  obtain ⟨more, hfin⟩ := hinv.can_finish hnp
  have hinv' := hinv.run more
  obtain ⟨extra, hextra⟩ := Lock.done_grows s more
  have hcomplete : ∀ t, Complete (programs t) (doneBy t (s.run more).done) := by
    intro t
    have := hinv'.ran t
    rw [hfin t] at this
    have := this.complete .nil
    rwa [List.append_nil] at this
  have hreal : ∀ t, Real (doneBy t (s.run more).done) := by
    intro t
    refine ⟨fun x hx => ?_, fun x hx hf => ?_⟩
    · obtain ⟨d, hd, rfl⟩ := List.mem_map.1 hx
      exact hinv'.result d (List.mem_filter.1 hd).1
    · obtain ⟨d, hd, rfl⟩ := List.mem_map.1 hx
      exact honest_done hk hinv' (List.mem_filter.1 hd).1 hf
  have hmay := fun t => program_may (st := st) (hp t) (hcomplete t) (hreal t)
  refine ⟨chars, fun t => (hmay t).choose, hres, fun t => (hmay t).choose_spec.1, fun t => ?_, fun hf t => ?_⟩
  · rw [← (hmay t).choose_spec.2, hby t, hextra, Lock.doneBy_append, shownAt_append, List.flatten_append]
    refine List.prefix_append_right_inj _ |>.2 ?_
    unfold part
    split
    · next x ops groups rest htodo hdoing =>
      split
      · next he =>
        have hran := hinv.ran t
        rw [htodo] at hran
        have hc := hcomplete t
        rw [hextra, Lock.doneBy_append] at hc
        have hrest := hran.rest hc
        have : ∃ b l, doneBy t extra = (x.toOp, b) :: l := by
          generalize doneBy t extra = e at hrest
          cases hrest with
          | ok _ => exact ⟨_, _, rfl⟩
          | failed _ => exact ⟨_, _, rfl⟩
        obtain ⟨b, l, e⟩ := this
        rw [e]
        simp only [shownAt, List.filterMap_cons, he, if_true, List.flatten_cons]
        exact (List.take_prefix _ _).trans (List.prefix_append _ _)
      · exact List.nil_prefix
    · exact List.nil_prefix
  · rw [← (hmay t).choose_spec.2, hby t, Lock.finished_run hf]
    have : part st (s.threads t) = [] := by
      unfold part
      rw [hf t]
    rw [this, List.append_nil]

namespace Example

open Pipeline.Example (process fine)

/-- The hypotheses of `C67_characters`: the file of thread 1 is broken. -/
example (schedule : List Nat) (st : Console.Stream) :
    ∃ (chars : List (Nat × Char)) (outs : Nat → List (List Str)),
      (run (programs brokenInputs) handlers schedule).res (.stream st) = .stream (chars.map (·.2))
      ∧ (∀ t, Both (MayPrint process handlers st) (brokenCalls t) (outs t))
      ∧ ∀ t, byThread t chars <+: (outs t).flatten.flatten := by
  obtain ⟨chars, outs, h1, h2, h3, -⟩ := C67_characters process handlers 2 brokenCalls
    (fun t ht => by match t, ht with | t + 2, _ => rfl) _ broken_programs schedule st
  exact ⟨chars, outs, h1, h2, h3⟩

/-- What the call of thread 1 may print to the standard output: its line, then the report. -/
example : MayPrint process handlers .stdout (call (ch! "b") broken) [ch! "b\n", ch! "logging core error occurred: no\n"] :=
  .accepted (accepted _ _)
    (.cons (out := [ch! "b\n"]) (outs := [ch! "logging core error occurred: no\n"])
      (.rendered (text := ch! "b") (Pipeline.renders_iff.2 rfl)
        (.fine (s := console .stdout) (fun _ _ h => by cases h) (.fine (s := console .stderr) (fun _ _ h => by cases h) .nil)))
      (.cons (out := [ch! "logging core error occurred: no\n"]) (outs := [])
        (.rendered (text := ch! "b") (Pipeline.renders_iff.2 rfl)
          (SinksMay.failed (c := call (ch! "b") broken) (st := .stdout) (.inl rfl)))
        .nil))

/-- A call whose file is not broken prints its line and nothing else. -/
example (out : List Str) (h : MayPrint process handlers .stdout (call (ch! "a") fine) out) : out = [ch! "a\n"] := by
  cases h with
  | notAccepted h => exact absurd (accepted _ _) (h _)
  | accepted ha hh =>
    cases Pipeline.accepted_unique ha (accepted _ _)
    have key : ∀ {i : Nat} {h : Handler} {o : List Str}, h.formatter = formatter →
        HandlerMay process (call (ch! "a") fine) .stdout ⟨ch! "a", ch! "a", 1, 1000, 5, []⟩ i h o →
        SinksMay (call (ch! "a") fine) .stdout i (ch! "a") 0 h.sinks o := by
      intro i h o hf hm
      cases hm with
      | rendered h1 h2 =>
        have h1 := Pipeline.renders_iff.1 h1
        rw [hf] at h1
        cases h1
        exact h2
      | notRendered h1 h2 _ =>
        cases Pipeline.seen_iff.1 h1
        rw [hf] at h2
        cases h2
    cases hh with
    | cons h1 h2 =>
      cases h2 with
      | cons h2 h3 =>
        cases h3
        have k1 := key rfl h1
        have k2 := key rfl h2
        clear h1 h2
        generalize e1 : [console .stdout, console .stderr] = l at k1
        cases k1 with
        | nil => cases e1
        | failed h => cases e1; cases h
        | fine _ k1 =>
          cases e1
          cases k1 with
          | failed h => cases h
          | fine _ k1 =>
            cases k1
            cases k2 with
            | failed h => simp [Fails, call, fine] at h
            | fine _ k2 => cases k2; rfl

end Example

end Blackhole.Shared
