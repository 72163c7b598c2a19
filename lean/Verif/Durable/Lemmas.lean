import Verif.Durable.Spec
import Verif.File.DiskProps
import Verif.Chain.Lemmas

namespace Blackhole.Durable

open Async (State accepted delivered CPc)
open File (RotateFactory FlusherFactory)
open File.Disk (Oracle Reply OStream Outcome OkReply)

/-! ## Errors of the stream -/

/-- The process dies where the stream fails. -/
def toCrash (n : Nat) : Reply → Reply
  | .fail k _ => .crash n k
  | r => r

theorem toCrash_ok (n : Nat) (r : Reply) : OkReply (toCrash n r) := by
  intro k left
  cases r <;> simp [toCrash]

def lethal (m : Str) (o : Oracle) : Oracle :=
  { o with write := toCrash m.length o.write, newline := toCrash 1 o.newline, flush := toCrash 0 o.flush }

theorem select_lethal (s : File.Disk.Sink) (m : Str) (o : Oracle) : s.select (lethal m o) = s.select o := rfl

theorem write_lethal {s s' : File.Disk.Sink} {o : Oracle} {m : Str} {out : Outcome}
    (hb : ∀ st b, s.current = some (st, b) → st.bad = false) (h : s.write o m = (s', out)) :
    (out ≠ .ioFailed → s.write (lethal m o) m = (s', out))
    ∧ (out = .ioFailed → ∃ s'', s.write (lethal m o) m = (s'', .crashed) ∧ s''.onDisk = s'.onDisk) := by
  unfold File.Disk.Sink.write at h ⊢
  cases hc : s.current with
  | none =>
    rw [hc] at h
    simp only [Prod.mk.injEq] at h ⊢
    obtain ⟨rfl, rfl⟩ := h
    simp
  | some x =>
    obtain ⟨st, b⟩ := x
    have hbad := hb st b hc
    rw [hc] at h
    simp only [OStream.write, OStream.flush, hbad, Bool.false_eq_true, if_false, lethal] at h ⊢
    cases hw : o.write with
    | fail k left =>
      simp only [hw, toCrash] at h ⊢
      simp only [Prod.mk.injEq, File.Disk.Status.outcome] at h
      obtain ⟨rfl, rfl⟩ := h
      refine ⟨by simp, fun _ => ⟨_, rfl, ?_⟩⟩
      simp [File.Disk.Sink.onDisk]
    | crash t k =>
      simp only [hw, toCrash] at h ⊢
      simp only [Prod.mk.injEq, File.Disk.Status.outcome] at h
      obtain ⟨rfl, rfl⟩ := h
      exact ⟨fun _ => rfl, by simp⟩
    | ok k =>
      simp only [hw, toCrash] at h ⊢
      simp only [Bool.false_eq_true, if_false] at h ⊢
      cases hn : o.newline with
      | fail k left =>
        simp only [hn] at h ⊢
        simp only [Prod.mk.injEq, File.Disk.Status.outcome] at h
        obtain ⟨rfl, rfl⟩ := h
        refine ⟨by simp, fun _ => ⟨_, rfl, ?_⟩⟩
        simp [File.Disk.Sink.onDisk]
      | crash t k =>
        simp only [hn] at h ⊢
        simp only [Prod.mk.injEq, File.Disk.Status.outcome] at h
        obtain ⟨rfl, rfl⟩ := h
        exact ⟨fun _ => rfl, by simp⟩
      | ok k =>
        simp only [hn] at h ⊢
        cases hf : b.flusher.update (m.length + 1) with
        | mk fl due =>
          cases due with
          | false =>
            simp only [hf, Prod.mk.injEq] at h ⊢
            obtain ⟨rfl, rfl⟩ := h
            simp
          | true =>
            simp only [hf, Bool.false_eq_true, if_false] at h ⊢
            cases hr : o.flush with
            | fail k left =>
              simp only [hr] at h ⊢
              simp only [Prod.mk.injEq, File.Disk.Status.outcome] at h
              obtain ⟨rfl, rfl⟩ := h
              refine ⟨by simp, fun _ => ⟨_, rfl, ?_⟩⟩
              simp [File.Disk.Sink.onDisk]
            | crash t k =>
              simp only [hr] at h ⊢
              simp only [Prod.mk.injEq, File.Disk.Status.outcome] at h
              obtain ⟨rfl, rfl⟩ := h
              exact ⟨fun _ => rfl, by simp⟩
            | ok k =>
              simp only [hr] at h ⊢
              simp only [Prod.mk.injEq, File.Disk.Status.outcome] at h
              obtain ⟨rfl, rfl⟩ := h
              exact ⟨fun _ => rfl, by simp⟩

variable {f : FlusherFactory} {Fits : Str → Prop} {Pend : Str → File.Flusher → List Str → Prop}
  {Good : List Str → Str → Prop}

theorem emit_lost (pol : File.Disk.Policy f Fits Pend Good) {lines : List Str} {s s' : File.Disk.Sink} {o : Oracle} {m : Str}
    {out : Outcome} (i : File.Disk.Inv f Pend lines s) (hm : Fits m) (ho : OkReply o.close) (h : s.emit o m = (s', out)) :
    (out = .ok → File.Disk.Inv f Pend (lines ++ [m ++ ['\n']]) s')
    ∧ (out ≠ .ok → Good lines s'.onDisk ∧ s'.onDisk <+: lines.flatten ++ (m ++ ['\n'])) := by
  have hlo : OkReply (lethal m o).close ∧ OkReply (lethal m o).write ∧ OkReply (lethal m o).newline
      ∧ OkReply (lethal m o).flush := ⟨ho, toCrash_ok _ _, toCrash_ok _ _, toCrash_ok _ _⟩
  have key : (out ≠ .ioFailed → s.emit (lethal m o) m = (s', out))
      ∧ (out = .ioFailed → ∃ s'', s.emit (lethal m o) m = (s'', .crashed) ∧ s''.onDisk = s'.onDisk) := by
    unfold File.Disk.Sink.emit at h ⊢
    rw [select_lethal]
    cases hs : s.select o with
    | mk s1 e =>
      rw [hs] at h
      cases e with
      | ok =>
        simp only at h ⊢
        exact write_lethal (fun st b hc => (((File.Disk.select_inv pol i ho hs).1 rfl).1.current st b hc).1) h
      | ioFailed => exact absurd rfl (File.Disk.select_inv pol i ho hs).2.2.2.1
      | _ => simp only [Prod.mk.injEq] at h ⊢; obtain ⟨rfl, rfl⟩ := h; simp
  refine ⟨?_, ?_⟩
  · rintro rfl
    exact (File.Disk.emit_inv pol i hm hlo (key.1 (by simp))).1 rfl
  · intro hne
    by_cases hio : out = .ioFailed
    · obtain ⟨s'', h1, h2⟩ := key.2 hio
      rw [← h2]
      exact (File.Disk.emit_inv pol i hm hlo h1).2.2.1 rfl
    · obtain ⟨-, c2, c3, -⟩ := File.Disk.emit_inv pol i hm hlo (key.1 hio)
      cases out with
      | ok => exact absurd rfl hne
      | ioFailed => exact absurd rfl hio
      | crashed => exact c3 rfl
      | openFailed =>
        have i' := c2 (.inl rfl)
        exact ⟨i'.good pol, (show s'.onDisk <+: lines.flatten by rw [← i'.whole]; exact List.prefix_append _ _).trans (List.prefix_append _ _)⟩
      | statFailed =>
        have i' := c2 (.inr rfl)
        exact ⟨i'.good pol, (show s'.onDisk <+: lines.flatten by rw [← i'.whole]; exact List.prefix_append _ _).trans (List.prefix_append _ _)⟩

/-! ## The invariant -/

/-- The lines that the file sink was given. -/
def Sys.sunk (s : Sys) : List Str := (delivered s.q.trace).map fun x => x.2 ++ ['\n']

/-- What is promised at every moment. -/
def Kept (Good : List Str → Str → Prop) (cap : Nat) (s : Sys) : Prop :=
  ∃ acked rest, s.lines = acked ++ rest ∧ rest.length ≤ cap + 1 ∧ Good acked s.onDisk ∧ s.onDisk <+: s.lines.flatten

structure Sound (f : FlusherFactory) (Pend : Str → File.Flusher → List Str → Prop) (Good : List Str → Str → Prop) (cap : Nat)
    (s : Sys) : Prop where
  async : Async.Inv cap s.q
  joined : s.q.joined = true → s.q.consumer = .exited
  shut : s.closed = true → s.q.joined = true
  up : s.down = false → s.closed = false → File.Disk.Inv f Pend s.sunk s.file
  after : s.down = false → s.closed = true → s.onDisk = s.sunk.flatten
  kept : Kept Good cap s

theorem inHand_length {E : Type} (c : CPc E) : c.inHand.length ≤ 1 := by
  cases c with
  | got e => cases e <;> simp [CPc.inHand]
  | _ => simp [CPc.inHand]

theorem lines_split {cap : Nat} {s : Sys} (h : Async.Inv cap s.q) : ∃ rest, s.lines = s.sunk ++ rest ∧ rest.length ≤ cap + 1 := by
  refine ⟨(s.q.consumer.inHand ++ s.q.queue).map fun x => x.2 ++ ['\n'], ?_, ?_⟩
  · simp only [Sys.lines, Sys.sunk, h.fifo, List.map_append, List.append_assoc]
  · have h1 := inHand_length s.q.consumer
    have h2 := h.bound
    simp only [List.length_map, List.length_append]
    omega

/-- While the process runs the promise follows from the rest. -/
theorem kept_up (pol : File.Disk.Policy f Fits Pend Good) {cap : Nat} {s : Sys} (h : Async.Inv cap s.q)
    (h1 : File.Disk.Inv f Pend s.sunk s.file) : Kept Good cap s := by
  obtain ⟨rest, e1, e2⟩ := lines_split h
  refine ⟨s.sunk, rest, e1, e2, h1.good pol, ?_⟩
  rw [e1, List.flatten_append, ← h1.whole, List.append_assoc]
  exact List.prefix_append _ _

theorem kept_after (pol : File.Disk.Policy f Fits Pend Good) {cap : Nat} {s : Sys} (h : Async.Inv cap s.q)
    (h1 : s.onDisk = s.sunk.flatten) : Kept Good cap s := by
  obtain ⟨rest, e1, e2⟩ := lines_split h
  refine ⟨s.sunk, rest, e1, e2, by rw [h1]; exact pol.none _, ?_⟩
  rw [e1, List.flatten_append, h1]
  exact List.prefix_append _ _

theorem sound_init (pol : File.Disk.Policy f Fits Pend Good) (cap : Nat) (r : RotateFactory) :
    Sound f Pend Good cap (Sys.init r f) := by
  have hd : File.Disk.Inv f Pend (Sys.init r f).sunk (Sys.init r f).file := File.Disk.Inv.init r
  exact ⟨Async.Inv.init, by simp [Sys.init, State.init], by simp [Sys.init], fun _ _ => hd, by simp [Sys.init],
    kept_up pol Async.Inv.init hd⟩

/-- A step of the queue in which the worker does not call the file sink. -/
theorem sound_queue (pol : File.Disk.Policy f Fits Pend Good) {cap : Nat} {policy : Async.Policy} {s : Sys} {q' : State Str}
    {c : Async.Cmd Str} (i : Sound f Pend Good cap s) (hup : s.down = false) (h : s.q.step cap policy c = some q')
    (hj : q'.joined = true → q'.consumer = .exited) (hs : s.q.joined = true → q'.joined = true)
    (hd : delivered q'.trace = delivered s.q.trace) : Sound f Pend Good cap { s with q := q' } := by
  have a := i.async.step h
  have hsunk : Sys.sunk { s with q := q' } = s.sunk := by simp only [Sys.sunk, hd]
  refine ⟨a, hj, fun hc => hs (i.shut hc), fun h1 h2 => hsunk ▸ i.up h1 h2, fun h1 h2 => hsunk ▸ i.after h1 h2, ?_⟩
  cases hc : s.closed with
  | false => exact kept_up pol a (hsunk ▸ i.up hup hc)
  | true => exact kept_after pol a (hsunk ▸ i.after hup hc)

theorem joined_step {E : Type} {cap : Nat} {policy : Async.Policy} {q q' : State E} {c : Async.Cmd E}
    (h : q.step cap policy c = some q') (hq : q.joined = true → q.consumer = .exited) :
    (q'.joined = true → q'.consumer = .exited) ∧ (q.joined = true → q'.joined = true) := by
  cases c with
  | emit p e =>
    simp only [State.step] at h
    split at h <;> simp only [Option.some.injEq, reduceCtorEq] at h
    subst h
    exact ⟨hq, id⟩
  | producer p =>
    simp only [State.step, State.produce] at h
    (repeat' split at h) <;> simp only [Option.some.injEq, reduceCtorEq] at h <;> subst h <;> exact ⟨hq, id⟩
  | consumer =>
    simp only [State.step, State.consume] at h
    (repeat' split at h) <;> simp only [Option.some.injEq, reduceCtorEq] at h <;> subst h <;> simp_all
  | consumerThrows =>
    simp only [State.step] at h
    split at h <;> simp only [Option.some.injEq, reduceCtorEq] at h
    subst h
    simp_all
  | stop =>
    simp only [State.step] at h
    split at h <;> simp only [Option.some.injEq, reduceCtorEq] at h
    subst h
    exact ⟨hq, id⟩
  | join =>
    simp only [State.step] at h
    split at h <;> simp only [Option.some.injEq, reduceCtorEq] at h
    subst h
    simp_all

theorem sound_step (pol : File.Disk.Policy f Fits Pend Good) {cap : Nat} {policy : Async.Policy} {s s' : Sys} {c : Cmd}
    (i : Sound f Pend Good cap s) (hf : ∀ x ∈ accepted s.q.trace, Fits x.2)
    (hc1 : ∀ o, c = .worker o → OkReply o.close) (hc2 : ∀ k left, c ≠ .close (.fail k left))
    (h : s.step cap policy c = some s') : Sound f Pend Good cap s' := by
  unfold Sys.step at h
  split at h
  · cases h
  · rename_i hup
    have hup : s.down = false := by simpa using hup
    cases c with
    | emit p m =>
      simp only [Option.map_eq_some_iff] at h
      obtain ⟨q', hq, rfl⟩ := h
      obtain ⟨j1, j2⟩ := joined_step hq i.joined
      exact sound_queue pol i hup hq j1 j2 (Chain.step_other hq (by simp) (by simp)).2
    | thread p =>
      simp only [Option.map_eq_some_iff] at h
      obtain ⟨q', hq, rfl⟩ := h
      obtain ⟨j1, j2⟩ := joined_step hq i.joined
      exact sound_queue pol i hup hq j1 j2 (Chain.step_other hq (by simp) (by simp)).2
    | stop =>
      simp only [Option.map_eq_some_iff] at h
      obtain ⟨q', hq, rfl⟩ := h
      obtain ⟨j1, j2⟩ := joined_step hq i.joined
      exact sound_queue pol i hup hq j1 j2 (Chain.step_other hq (by simp) (by simp)).2
    | join =>
      simp only [Option.map_eq_some_iff] at h
      obtain ⟨q', hq, rfl⟩ := h
      obtain ⟨j1, j2⟩ := joined_step hq i.joined
      exact sound_queue pol i hup hq j1 j2 (Chain.step_other hq (by simp) (by simp)).2
    | close r =>
      simp only at h
      split at h
      · rename_i hcl
        obtain ⟨hcl1, hcl2⟩ := hcl
        injection h with h
        subst h
        have d := i.up hup hcl2
        have hw := d.whole
        refine ⟨i.async, i.joined, fun _ => hcl1, by simp, ?_, ?_⟩
        · intro hdn _
          cases r with
          | fail k left => exact absurd rfl (hc2 k left)
          | crash t k => simp [dies] at hdn
          | ok k =>
            show (s.file.destroy _).onDisk = s.sunk.flatten
            rw [← hw]
            unfold File.Disk.Sink.destroy
            cases hs : s.file.current with
            | none => simp [File.Disk.Sink.onDisk, File.Disk.Sink.pending, hs]
            | some x => simp [File.Disk.Sink.onDisk, File.Disk.Sink.pending, hs, OStream.close]
        · obtain ⟨rest, e1, e2⟩ := lines_split i.async
          have hgrow : s.file.onDisk <+: (s.file.destroy r).onDisk ∧ (s.file.destroy r).onDisk <+: s.sunk.flatten := by
            rw [← hw]
            unfold File.Disk.Sink.destroy
            cases hs : s.file.current with
            | none => simp [File.Disk.Sink.onDisk, File.Disk.Sink.pending, hs]
            | some x =>
              cases r with
              | fail k left => exact absurd rfl (hc2 k left)
              | ok k => simp [File.Disk.Sink.onDisk, File.Disk.Sink.pending, hs, OStream.close]
              | crash t k =>
                simp only [File.Disk.Sink.onDisk, File.Disk.Sink.pending, hs, OStream.close, List.flatMap_append,
                  List.flatMap_cons, List.flatMap_nil, List.append_nil, List.append_assoc]
                refine ⟨?_, ?_⟩
                · rw [← List.append_assoc]; exact List.prefix_append _ _
                · rw [List.prefix_append_right_inj, List.prefix_append_right_inj]
                  exact List.take_prefix _ _
          refine ⟨s.sunk, rest, e1, e2, pol.mono (d.good pol) hgrow.1, ?_⟩
          show (s.file.destroy r).onDisk <+: s.lines.flatten
          rw [e1, List.flatten_append]
          exact hgrow.2.trans (List.prefix_append _ _)
      · cases h
    | worker o =>
      simp only [Sys.work] at h
      have hcl : s.q.consumer = .exited → False := by
        intro he
        simp [he, State.step, State.consume] at h
      have hopen : s.closed = false := by
        cases hc : s.closed with
        | false => rfl
        | true => exact (hcl (i.joined (i.shut hc))).elim
      have d := i.up hup hopen
      split at h
      · rename_i e he
        have hfit : Fits e.2 := hf e (by rw [i.async.fifo, he]; simp [CPc.inHand])
        have hnext : ∃ rest, s.lines = s.sunk ++ (e.2 ++ ['\n']) :: rest ∧ rest.length ≤ cap := by
          refine ⟨s.q.queue.map fun x => x.2 ++ ['\n'], ?_, by simpa using i.async.bound⟩
          simp only [Sys.lines, Sys.sunk, i.async.fifo, he, CPc.inHand, List.map_append, List.append_assoc, List.map_cons,
            List.cons_append, List.nil_append]
        obtain ⟨rest, r1, r2⟩ := hnext
        have hdead : ∀ (file : File.Disk.Sink) (out : Outcome), s.file.emit o e.2 = (file, out) → out ≠ .ok →
            ∀ q', accepted q'.trace = accepted s.q.trace →
            Kept Good cap { s with q := q', file := file, down := true } := by
          intro file out hem hne q' ha
          obtain ⟨g1, g2⟩ := (emit_lost pol d hfit (hc1 o rfl) hem).2 hne
          have hl : Sys.lines { s with q := q', file := file, down := true } = s.lines := by simp only [Sys.lines, ha]
          refine ⟨s.sunk, (e.2 ++ ['\n']) :: rest, by rw [hl, r1], by simpa using r2, g1, ?_⟩
          rw [hl, r1]
          simp only [List.flatten_append, List.flatten_cons]
          rw [← List.append_assoc]
          exact g2.trans (List.prefix_append _ _)
        split at h
        · rename_i file hem
          simp only [Option.map_eq_some_iff] at h
          obtain ⟨q', hq, rfl⟩ := h
          have hdel := Chain.consume_deliver he (.inl hq)
          have d' := (emit_lost pol d hfit (hc1 o rfl) hem).1 rfl
          have hsunk : Sys.sunk { s with q := q', file := file } = s.sunk ++ [e.2 ++ ['\n']] := by
            simp only [Sys.sunk, hdel, List.map_append, List.map_cons, List.map_nil]
          have a := i.async.step hq
          obtain ⟨j1, j2⟩ := joined_step hq i.joined
          exact ⟨a, j1, fun hc => j2 (i.shut hc), fun _ _ => hsunk ▸ d', fun _ hc => by simp [hopen] at hc,
            kept_up pol a (hsunk ▸ d')⟩
        · rename_i file hem
          injection h with h
          subst h
          exact ⟨i.async, i.joined, i.shut, by simp, by simp, hdead file _ hem (by simp) s.q rfl⟩
        · rename_i file out hne _ hem
          simp only [Option.map_eq_some_iff] at h
          obtain ⟨q', hq, rfl⟩ := h
          have a := i.async.step hq
          obtain ⟨j1, j2⟩ := joined_step hq i.joined
          exact ⟨a, j1, fun hc => j2 (i.shut hc), by simp, by simp,
            hdead file out hem hne q' (Chain.step_inside hq (by simp) (by simp)).2.1⟩
      · rename_i hne
        simp only [Option.map_eq_some_iff] at h
        obtain ⟨q', hq, rfl⟩ := h
        obtain ⟨j1, j2⟩ := joined_step hq i.joined
        exact sound_queue pol i hup hq j1 j2 (Chain.consume_quiet (fun e he => hne e he) hq)

theorem accepted_step {cap : Nat} {policy : Async.Policy} {s s' : Sys} {c : Cmd} (h : s.step cap policy c = some s') :
    accepted s.q.trace <+: accepted s'.q.trace := by
  have key : ∀ {c : Async.Cmd Str} {q' : State Str}, s.q.step cap policy c = some q' →
      accepted s.q.trace <+: accepted q'.trace := by
    intro c q' h
    cases c <;> simp only [State.step, State.produce, State.consume] at h <;> (repeat' split at h) <;>
      simp only [Option.some.injEq, reduceCtorEq] at h <;> subst h <;> simp [State.setProducer, Async.accepted]
  unfold Sys.step at h
  split at h
  · cases h
  · cases c with
    | close r =>
      simp only at h
      split at h
      · injection h with h
        subst h
        exact List.prefix_refl _
      · cases h
    | worker o =>
      simp only [Sys.work] at h
      split at h
      · split at h
        · simp only [Option.map_eq_some_iff] at h
          obtain ⟨q', hq, rfl⟩ := h
          exact key hq
        · injection h with h
          subst h
          exact List.prefix_refl _
        · simp only [Option.map_eq_some_iff] at h
          obtain ⟨q', hq, rfl⟩ := h
          exact key hq
      · simp only [Option.map_eq_some_iff] at h
        obtain ⟨q', hq, rfl⟩ := h
        exact key hq
    | _ =>
      simp only [Option.map_eq_some_iff] at h
      obtain ⟨q', hq, rfl⟩ := h
      exact key hq

theorem accepted_run {cap : Nat} {policy : Async.Policy} (cs : List Cmd) {s s' : Sys} (h : s.run cap policy cs = some s') :
    accepted s.q.trace <+: accepted s'.q.trace := by
  induction cs generalizing s with
  | nil => cases h; exact List.prefix_refl _
  | cons c cs ih =>
    simp only [Sys.run, Option.bind_eq_some_iff] at h
    obtain ⟨m, h1, h2⟩ := h
    exact (accepted_step h1).trans (ih h2)

theorem sound_run (pol : File.Disk.Policy f Fits Pend Good) {cap : Nat} {policy : Async.Policy} (cs : List Cmd) {s s' : Sys}
    (i : Sound f Pend Good cap s) (hf : ∀ x ∈ accepted s'.q.trace, Fits x.2) (hc : ClosesWell cs)
    (h : s.run cap policy cs = some s') : Sound f Pend Good cap s' := by
  induction cs generalizing s with
  | nil => cases h; exact i
  | cons c cs ih =>
    simp only [Sys.run, Option.bind_eq_some_iff] at h
    obtain ⟨m, h1, h2⟩ := h
    have hsub := (accepted_step h1).trans (accepted_run cs h2)
    refine ih (sound_step pol i (fun x hx => hf x (hsub.subset hx)) ?_ ?_ h1) ⟨?_, ?_⟩ h2
    · rintro o rfl
      exact hc.1 o List.mem_cons_self
    · rintro k left rfl
      exact hc.2 k left List.mem_cons_self
    · exact fun o ho => hc.1 o (List.mem_cons_of_mem _ ho)
    · exact fun k left hm => hc.2 k left (List.mem_cons_of_mem _ hm)

end Blackhole.Durable
