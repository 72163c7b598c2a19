import Verif.File.Disk
import Verif.File.Lemmas

/-!
# C61: what a crash can take; C62: what a write error does

`(Sink.init r f).run h`: the emits `h` until the process dies, if it does; `onDisk` is what the files hold then.
-/

namespace Blackhole.File.Disk

/-! ## Helpers -/

/-- What is in the buffer of the current stream. -/
def Sink.pending (s : Sink) : Str :=
  match s.current with
  | some (st, _) => st.buffer
  | none => []

/-- What has to be known about a flushing policy: `Pend buffer flusher lines` relates the buffer to the lines that have
been acknowledged; `Good lines disk` is what it promises, for messages that satisfy `Fits`. -/
structure Policy (f : FlusherFactory) (Fits : Str → Prop) (Pend : Str → Flusher → List Str → Prop) (Good : List Str → Str → Prop) :
    Prop where
  fresh : ∀ lines, Pend [] f.create lines
  idle : ∀ {buf fl lines m fl' buf'}, Pend buf fl lines → Fits m → fl.update (m.length + 1) = (fl', false) →
    buf' <:+ buf ++ (m ++ ['\n']) → Pend buf' fl' (lines ++ [m ++ ['\n']])
  due : ∀ {buf fl lines m fl'}, Pend buf fl lines → Fits m → fl.update (m.length + 1) = (fl', true) →
    Pend [] fl' (lines ++ [m ++ ['\n']])
  good : ∀ {buf fl lines disk}, Pend buf fl lines → disk ++ buf = lines.flatten → Good lines disk
  none : ∀ lines, Good lines lines.flatten
  mono : ∀ {lines disk disk'}, Good lines disk → disk <+: disk' → Good lines disk'

structure Inv (f : FlusherFactory) (Pend : Str → Flusher → List Str → Prop) (lines : List Str) (s : Sink) : Prop where
  factory : s.flusherFactory = f
  whole : s.onDisk ++ s.pending = lines.flatten
  current : ∀ st b, s.current = some (st, b) → st.bad = false ∧ Pend st.buffer b.flusher lines

variable {f : FlusherFactory} {Fits : Str → Prop} {Pend : Str → Flusher → List Str → Prop} {Good : List Str → Str → Prop}

theorem Inv.good (pol : Policy f Fits Pend Good) {lines : List Str} {s : Sink} (i : Inv f Pend lines s) :
    Good lines s.onDisk := by
  have hw := i.whole
  cases hc : s.current with
  | none =>
    simp only [Sink.pending, hc, List.append_nil] at hw
    rw [hw]
    exact pol.none lines
  | some x =>
    obtain ⟨st, b⟩ := x
    simp only [Sink.pending, hc] at hw
    exact pol.good (i.current st b hc).2 hw

def OkReply (r : Reply) : Prop := ∀ k left, r ≠ .fail k left

theorem create_inv (pol : Policy f Fits Pend Good) {lines : List Str} {s s' : Sink} {o : Oracle} {out : Outcome}
    (i : Inv f Pend lines s) (hn : s.current = none) (h : s.create o = (s', out)) :
    (out = .ok → Inv f Pend lines s' ∧ s'.current ≠ none) ∧ (out ≠ .ok → Inv f Pend lines s' ∧ s'.current = none)
      ∧ s'.onDisk = s.onDisk ∧ out ≠ .ioFailed := by
  obtain ⟨i1, i2, i3⟩ := i
  unfold Sink.create at h
  split at h
  · simp only [Prod.mk.injEq] at h
    obtain ⟨rfl, rfl⟩ := h
    exact ⟨by simp, fun _ => ⟨⟨i1, i2, i3⟩, hn⟩, rfl, by simp⟩
  · simp only [Prod.mk.injEq] at h
    obtain ⟨rfl, rfl⟩ := h
    exact ⟨by simp, fun _ => ⟨⟨i1, i2, i3⟩, hn⟩, rfl, by simp⟩
  · simp only at h
    have hw : s.closed.flatMap OStream.disk = lines.flatten := by
      simpa [Sink.onDisk, Sink.pending, hn] using i2
    split at h
    · simp only [Prod.mk.injEq] at h
      obtain ⟨rfl, rfl⟩ := h
      refine ⟨fun _ => ⟨⟨i1, by simp [Sink.onDisk, Sink.pending, hw], ?_⟩, by simp⟩, by simp, by simp [Sink.onDisk, hn],
        by simp⟩
      rintro st b hsb
      simp only [Option.some.injEq, Prod.mk.injEq] at hsb
      obtain ⟨rfl, rfl⟩ := hsb
      exact ⟨rfl, i1 ▸ pol.fresh lines⟩
    · split at h
      · simp only [Prod.mk.injEq] at h
        obtain ⟨rfl, rfl⟩ := h
        refine ⟨by simp, fun _ => ⟨⟨i1, ?_, ?_⟩, hn⟩, by simp [Sink.onDisk, hn], by simp⟩
        · simp [Sink.onDisk, Sink.pending, hw, hn]
        · intro st b hsb
          simp only [hn, reduceCtorEq] at hsb
      · simp only [Prod.mk.injEq] at h
        obtain ⟨rfl, rfl⟩ := h
        refine ⟨fun _ => ⟨⟨i1, by simp [Sink.onDisk, Sink.pending, hw], ?_⟩, by simp⟩, by simp,
          by simp [Sink.onDisk, hn], by simp⟩
        rintro st b hsb
        simp only [Option.some.injEq, Prod.mk.injEq] at hsb
        obtain ⟨rfl, rfl⟩ := hsb
        exact ⟨rfl, i1 ▸ pol.fresh lines⟩

/-- Grown, but not beyond `total`. -/
def Between (s s' : Sink) (total : Str) : Prop := s.onDisk <+: s'.onDisk ∧ s'.onDisk <+: total

theorem take_grows (st : OStream) (b : Backend) (s : Sink) (hc : s.current = some (st, b)) (lines : List Str)
    (hw : s.onDisk ++ s.pending = lines.flatten) (line : Str) (more : Str) (hm : more <+: line) (k : Nat) (st' : OStream)
    (b' : Backend) (hd : st'.disk = st.disk ++ (st.buffer ++ more).take k) :
    Between s { s with current := some (st', b') } (lines.flatten ++ line) := by
  have e1 : s.onDisk = s.closed.flatMap OStream.disk ++ st.disk := by simp [Sink.onDisk, hc]
  have e2 : s.pending = st.buffer := by simp [Sink.pending, hc]
  have e3 : Sink.onDisk { s with current := some (st', b') }
      = s.closed.flatMap OStream.disk ++ (st.disk ++ (st.buffer ++ more).take k) := by simp [Sink.onDisk, hd]
  refine ⟨?_, ?_⟩
  · rw [e1, e3, ← List.append_assoc]
    exact List.prefix_append _ _
  · rw [e3, ← hw, e1, e2, ← List.append_assoc, List.append_assoc _ st.buffer]
    refine (List.prefix_append_right_inj _).2 ?_
    obtain ⟨t, rfl⟩ := hm
    refine (List.take_prefix k _).trans ?_
    rw [← List.append_assoc]
    exact List.prefix_append _ _

theorem select_inv (pol : Policy f Fits Pend Good) {lines : List Str} {s s' : Sink} {o : Oracle} {out : Outcome}
    (i : Inv f Pend lines s) (ho : OkReply o.close) (h : s.select o = (s', out)) :
    (out = .ok → Inv f Pend lines s' ∧ s'.current ≠ none)
      ∧ (out = .openFailed ∨ out = .statFailed → Inv f Pend lines s')
      ∧ (out = .crashed → Between s s' lines.flatten) ∧ out ≠ .ioFailed ∧ s.onDisk <+: s'.onDisk := by
  unfold Sink.select at h
  split at h
  · rename_i hn
    obtain ⟨c1, c2, c3, c4⟩ := create_inv pol i hn h
    refine ⟨c1, fun hout => (c2 (by rcases hout with rfl | rfl <;> simp)).1, fun hout => ?_, c4, c3 ▸ List.prefix_refl _⟩
    refine ⟨c3 ▸ List.prefix_refl _, ?_⟩
    rw [c3, ← i.whole]
    exact List.prefix_append _ _
  · rename_i st b hc
    split at h
    · split at h
      · rename_i st' hcl
        simp only [Prod.mk.injEq] at h
        obtain ⟨rfl, rfl⟩ := h
        unfold OStream.close at hcl
        have key := take_grows st b s hc lines i.whole [] [] (List.prefix_refl _)
        split at hcl <;> simp only [Prod.mk.injEq, reduceCtorEq, and_false, and_true] at hcl
        rename_i k _
        have kk := key k st' b (by rw [← hcl]; simp)
        simp only [List.append_nil] at kk
        refine ⟨by simp, by simp, fun _ => kk, by simp, kk.1⟩
      · rename_i st' status hnc hcl
        have hcl' : st'.disk = st.disk ++ st.buffer ∧ st'.buffer = [] := by
          unfold OStream.close at hcl
          split at hcl
          · simp only [Prod.mk.injEq] at hcl
            obtain ⟨rfl, -⟩ := hcl
            exact ⟨rfl, rfl⟩
          · rename_i k left hr
            exact absurd hr (ho k left)
          · simp only [Prod.mk.injEq] at hcl
            exact absurd hcl.2.symm hnc
        have e1 : s.onDisk = s.closed.flatMap OStream.disk ++ st.disk := by simp [Sink.onDisk, hc]
        have e2 : s.pending = st.buffer := by simp [Sink.pending, hc]
        have i' : Inv f Pend lines { s with closed := s.closed ++ [st'], current := none } := by
          refine ⟨i.factory, ?_, by simp⟩
          rw [← i.whole, e1, e2]
          simp [Sink.onDisk, Sink.pending, hcl'.1]
        obtain ⟨c1, c2, c3, c4⟩ := create_inv pol i' rfl h
        have hpre : s.onDisk <+: s'.onDisk := by
          rw [c3, e1]
          simp only [Sink.onDisk, List.flatMap_append, List.flatMap_cons, List.flatMap_nil, List.append_nil, hcl'.1]
          rw [← List.append_assoc]
          exact List.prefix_append _ _
        refine ⟨c1, fun hout => (c2 (by rcases hout with rfl | rfl <;> simp)).1, fun hout => ⟨hpre, ?_⟩, c4, hpre⟩
        rw [c3, ← i'.whole]
        exact List.prefix_append _ _
    · simp only [Prod.mk.injEq] at h
      obtain ⟨rfl, rfl⟩ := h
      exact ⟨fun _ => ⟨i, by simp [hc]⟩, by simp, by simp, by simp, List.prefix_refl _⟩

theorem write_good {st st' : OStream} {bytes : Str} {r : Reply} {status : Status} (hb : st.bad = false)
    (hr : OkReply r) (h : st.write bytes r = (st', status)) :
    status ≠ .failed ∧ st'.bad = false ∧ (∃ more k, more <+: bytes ∧ st'.disk = st.disk ++ (st.buffer ++ more).take k
      ∧ st'.buffer = (st.buffer ++ more).drop k ∧ (status = .ok → more = bytes)) := by
  unfold OStream.write at h
  rw [hb] at h
  simp only [Bool.false_eq_true, if_false] at h
  split at h
  · simp only [Prod.mk.injEq] at h
    obtain ⟨rfl, rfl⟩ := h
    exact ⟨by simp, rfl, _, _, List.prefix_refl _, rfl, rfl, fun _ => rfl⟩
  · exact absurd rfl (hr _ _)
  · simp only [Prod.mk.injEq] at h
    obtain ⟨rfl, rfl⟩ := h
    exact ⟨by simp, rfl, _, _, List.take_prefix _ _, rfl, rfl, by simp⟩

theorem write_inv (pol : Policy f Fits Pend Good) {lines : List Str} {s s' : Sink} {o : Oracle} {m : Str} {out : Outcome}
    (i : Inv f Pend lines s) (hm : Fits m) (hcur : s.current ≠ none) (ho : OkReply o.write ∧ OkReply o.newline ∧ OkReply o.flush)
    (h : s.write o m = (s', out)) :
    (out = .ok → Inv f Pend (lines ++ [m ++ ['\n']]) s')
      ∧ (out = .crashed → Between s s' (lines.flatten ++ (m ++ ['\n']))) ∧ (out = .ok ∨ out = .crashed) := by
  unfold Sink.write at h
  split at h
  · rename_i hn; exact absurd hn hcur
  · rename_i st b hc
    obtain ⟨hbad, hpend⟩ := i.current st b hc
    have e1 : s.onDisk = s.closed.flatMap OStream.disk ++ st.disk := by simp [Sink.onDisk, hc]
    have e2 : s.pending = st.buffer := by simp [Sink.pending, hc]
    have hwh := i.whole
    rw [e1, e2] at hwh
    split at h
    · rename_i st1 hw1
      obtain ⟨-, b1, more1, k1, p1, d1, f1, m1⟩ := write_good hbad ho.1 hw1
      have := m1 rfl; subst this
      have sp1 : st1.disk ++ st1.buffer = st.disk ++ st.buffer ++ more1 := by
        rw [d1, f1, List.append_assoc, List.take_append_drop, List.append_assoc]
      split at h
      · rename_i st2 hw2
        obtain ⟨-, b2, more2, k2, p2, d2, f2, m2⟩ := write_good b1 ho.2.1 hw2
        have := m2 rfl; subst this
        have sp2 : st2.disk ++ st2.buffer = st.disk ++ st.buffer ++ (more1 ++ ['\n']) := by
          rw [d2, f2, List.append_assoc, List.take_append_drop, ← List.append_assoc, sp1, List.append_assoc]
        have g2 : st.disk <+: st2.disk := by
          rw [d2, d1, List.append_assoc]; exact List.prefix_append _ _
        split at h
        · rename_i fl hup
          split at h
          rename_i st3 r hfl
          simp only [Prod.mk.injEq] at h
          obtain ⟨rfl, rfl⟩ := h
          unfold OStream.flush at hfl
          rw [b2] at hfl
          simp only [Bool.false_eq_true, if_false] at hfl
          split at hfl
          · simp only [Prod.mk.injEq] at hfl
            obtain ⟨rfl, rfl⟩ := hfl
            refine ⟨fun _ => ⟨i.factory, ?_, ?_⟩, by simp [Status.outcome], by simp [Status.outcome]⟩
            · simp only [Sink.onDisk, Sink.pending, List.append_nil, sp2, List.flatten_append, List.flatten_cons,
                List.flatten_nil, ← hwh, List.append_assoc]
            · rintro st' b' hsb
              simp only [Option.some.injEq, Prod.mk.injEq] at hsb
              obtain ⟨rfl, rfl⟩ := hsb
              exact ⟨rfl, pol.due hpend hm hup⟩
          · rename_i k left hr
            exact absurd hr (ho.2.2 k left)
          · rename_i k _
            simp only [Prod.mk.injEq] at hfl
            obtain ⟨rfl, rfl⟩ := hfl
            refine ⟨by simp [Status.outcome], fun _ => ?_, by simp [Status.outcome]⟩
            refine ⟨?_, ?_⟩
            · simp only [Sink.onDisk, hc]
              refine (List.prefix_append_right_inj _).2 (g2.trans (List.prefix_append _ _))
            · have : st2.disk ++ st2.buffer.take k <+: st.disk ++ st.buffer ++ (more1 ++ ['\n']) := by
                rw [← sp2]
                exact (List.prefix_append_right_inj _).2 (List.take_prefix k _)
              simp only [Sink.onDisk]
              rw [← hwh, List.append_assoc, List.append_assoc]
              rw [List.append_assoc] at this
              exact (List.prefix_append_right_inj _).2 this
        · rename_i fl hup
          simp only [Prod.mk.injEq] at h
          obtain ⟨rfl, rfl⟩ := h
          refine ⟨fun _ => ⟨i.factory, ?_, ?_⟩, by simp, by simp⟩
          · simp only [Sink.onDisk, Sink.pending]
            rw [List.append_assoc, sp2]
            simp only [List.flatten_append, List.flatten_cons, List.flatten_nil, ← hwh, List.append_assoc,
              List.append_nil]
          · rintro st' b' hsb
            simp only [Option.some.injEq, Prod.mk.injEq] at hsb
            obtain ⟨rfl, rfl⟩ := hsb
            refine ⟨b2, pol.idle hpend hm hup ?_⟩
            rw [f2, f1]
            refine (List.drop_suffix _ _).trans ?_
            rw [← List.append_assoc]
            obtain ⟨t, ht⟩ := List.drop_suffix k1 (st.buffer ++ more1)
            exact ⟨t, by rw [← List.append_assoc, ht]⟩
      · rename_i st2 r hnok hw2
        obtain ⟨n2, b2, more2, k2, p2, d2, f2, m2⟩ := write_good b1 ho.2.1 hw2
        simp only [Prod.mk.injEq] at h
        obtain ⟨rfl, rfl⟩ := h
        have hr : r = .crashed := by
          cases r with
          | ok => exact absurd rfl hnok
          | failed => exact absurd rfl n2
          | crashed => rfl
        subst hr
        refine ⟨by simp [Status.outcome], fun _ => ?_, by simp [Status.outcome]⟩
        refine ⟨?_, ?_⟩
        · simp only [Sink.onDisk, hc]
          refine (List.prefix_append_right_inj _).2 ?_
          rw [d2, d1, List.append_assoc]; exact List.prefix_append _ _
        · have : st2.disk <+: st.disk ++ st.buffer ++ (more1 ++ ['\n']) := by
            rw [d2]
            refine ((List.prefix_append_right_inj _).2 (List.take_prefix _ _)).trans ?_
            rw [← List.append_assoc, sp1, ← List.append_assoc]
            exact (List.prefix_append_right_inj _).2 p2
          simp only [Sink.onDisk]
          rw [← hwh, List.append_assoc, List.append_assoc]
          rw [List.append_assoc] at this
          exact (List.prefix_append_right_inj _).2 this
    · rename_i st1 r hnok hw1
      obtain ⟨n1, b1, more1, k1, p1, d1, f1, m1⟩ := write_good hbad ho.1 hw1
      simp only [Prod.mk.injEq] at h
      obtain ⟨rfl, rfl⟩ := h
      have hr : r = .crashed := by
        cases r with
        | ok => exact absurd rfl hnok
        | failed => exact absurd rfl n1
        | crashed => rfl
      subst hr
      exact ⟨by simp [Status.outcome],
        fun _ => take_grows st b s hc lines i.whole (m ++ ['\n']) more1 (p1.trans (List.prefix_append _ _)) k1 st1 b d1,
        by simp [Status.outcome]⟩

theorem emit_inv (pol : Policy f Fits Pend Good) {lines : List Str} {s s' : Sink} {o : Oracle} {m : Str} {out : Outcome}
    (i : Inv f Pend lines s) (hm : Fits m)
    (ho : OkReply o.close ∧ OkReply o.write ∧ OkReply o.newline ∧ OkReply o.flush)
    (h : s.emit o m = (s', out)) :
    (out = .ok → Inv f Pend (lines ++ [m ++ ['\n']]) s')
      ∧ (out = .openFailed ∨ out = .statFailed → Inv f Pend lines s')
      ∧ (out = .crashed → Good lines s'.onDisk ∧ s'.onDisk <+: lines.flatten ++ (m ++ ['\n'])) ∧ out ≠ .ioFailed := by
  unfold Sink.emit at h
  split at h
  · rename_i s1 hs
    obtain ⟨c1, -, -, -, -⟩ := select_inv pol i ho.1 hs
    obtain ⟨i1, n1⟩ := c1 rfl
    obtain ⟨d1, d2, d3⟩ := write_inv pol i1 hm n1 ho.2 h
    refine ⟨d1, ?_, ?_, ?_⟩
    · rintro (rfl | rfl) <;> simp at d3
    · rintro hout
      exact ⟨pol.mono (i1.good pol) (d2 hout).1, (d2 hout).2⟩
    · rintro rfl; simp at d3
  · rename_i s1 e hne hs
    obtain ⟨c1, c2, c3, c4, -⟩ := select_inv pol i ho.1 hs
    simp only [Prod.mk.injEq] at h
    obtain ⟨rfl, rfl⟩ := h
    refine ⟨fun hout => absurd hout hne, c2, ?_, c4⟩
    intro hout
    exact ⟨pol.mono (i.good pol) (c3 hout).1, (c3 hout).2.trans (List.prefix_append _ _)⟩

theorem noError_cons {x : Oracle × Str} {h : List (Oracle × Str)} (hn : NoIoError (x :: h)) :
    (OkReply x.1.close ∧ OkReply x.1.write ∧ OkReply x.1.newline ∧ OkReply x.1.flush) ∧ NoIoError h :=
  ⟨⟨fun k l => (hn x (by simp) k l).1, fun k l => (hn x (by simp) k l).2.1, fun k l => (hn x (by simp) k l).2.2.1,
    fun k l => (hn x (by simp) k l).2.2.2⟩, fun y hy => hn y (by simp [hy])⟩

/-- The shape of both crash theorems. -/
theorem run_good (pol : Policy f Fits Pend Good) : ∀ (h : List (Oracle × Str)) (lines : List Str) (s : Sink),
    Inv f Pend lines s → NoIoError h → (∀ x ∈ h, Fits x.2) →
    Good (lines ++ acknowledged h (s.run h).2) (s.run h).1.onDisk
      ∧ (s.run h).1.onDisk <+: (lines ++ acknowledged h (s.run h).2).flatten ++ inFlight h (s.run h).2
      ∧ (.crashed ∉ (s.run h).2 → Inv f Pend (lines ++ acknowledged h (s.run h).2) (s.run h).1) := by
  intro h
  induction h with
  | nil =>
    intro lines s i _ _
    simp only [Sink.run, acknowledged, inFlight, List.append_nil]
    exact ⟨i.good pol, i.whole ▸ List.prefix_append _ _, fun _ => i⟩
  | cons x h ih =>
    obtain ⟨o, m⟩ := x
    intro lines s i hn hf
    obtain ⟨ho, hn'⟩ := noError_cons hn
    cases he : s.emit o m with
    | mk s1 out =>
      obtain ⟨c1, c2, c3, c4⟩ := emit_inv pol i (hf (o, m) (by simp)) ho he
      cases out with
      | crashed =>
        simp only [Sink.run, he, acknowledged, inFlight, List.append_nil]
        obtain ⟨g1, g2⟩ := c3 rfl
        exact ⟨g1, g2, by simp⟩
      | ioFailed => exact absurd rfl c4
      | ok =>
        have := ih _ s1 (c1 rfl) hn' (fun y hy => hf y (by simp [hy]))
        simp only [Sink.run, he, acknowledged, inFlight]
        simp only [List.append_assoc, List.cons_append, List.nil_append] at this
        refine ⟨this.1, this.2.1, ?_⟩
        intro hnc
        exact this.2.2 (by simpa using hnc)
      | openFailed =>
        have := ih _ s1 (c2 (.inl rfl)) hn' (fun y hy => hf y (by simp [hy]))
        simp only [Sink.run, he, acknowledged, inFlight]
        exact ⟨this.1, this.2.1, fun hnc => this.2.2 (by simpa using hnc)⟩
      | statFailed =>
        have := ih _ s1 (c2 (.inr rfl)) hn' (fun y hy => hf y (by simp [hy]))
        simp only [Sink.run, he, acknowledged, inFlight]
        exact ⟨this.1, this.2.1, fun hnc => this.2.2 (by simpa using hnc)⟩

theorem Inv.init (r : RotateFactory) : Inv f Pend [] (Sink.init r f) :=
  ⟨rfl, rfl, by simp [Sink.init]⟩

/-! ### The policies -/

/-- At most `n - 1` of the last lines are missing. -/
def AllButFew (n : Nat) (lines : List Str) (disk : Str) : Prop :=
  ∃ k, lines.length < k + n ∧ k ≤ lines.length ∧ (lines.take k).flatten <+: disk

def PendEvents (n : Nat) (buf : Str) (fl : Flusher) (lines : List Str) : Prop :=
  ∃ c old recent, fl = .repeat c n ∧ c < n ∧ lines = old ++ recent ∧ recent.length ≤ c ∧ buf <:+ recent.flatten

theorem eventsPolicy (n : Nat) (hpos : 0 < n) (hn : n < 2 ^ 64) :
    Policy (.repeat n) (fun _ => True) (PendEvents n) (AllButFew n) := by
  have hu : u64 = 2 ^ 64 := by decide
  refine ⟨?_, ?_, ?_, ?_, ?_, ?_⟩
  · intro lines
    exact ⟨0, lines, [], by simp [FlusherFactory.create, hpos], hpos, by simp, by simp, by simp⟩
  · rintro buf fl lines m fl' buf' ⟨c, old, recent, rfl, hc, rfl, hl, hb⟩ - hup hs
    simp only [Flusher.update, Nat.add_eq_zero_iff, Nat.succ_ne_self, and_false, ne_eq, not_false_eq_true, if_true,
      Prod.mk.injEq, beq_eq_false_iff_ne] at hup
    obtain ⟨rfl, hne⟩ := hup
    have h1 : (c + 1) % u64 = c + 1 := Nat.mod_eq_of_lt (by omega)
    rw [h1] at hne ⊢
    have h2 : c + 1 < n := by
      rcases Nat.lt_or_ge (c + 1) n with h | h
      · exact h
      · have : c + 1 = n := by omega
        rw [this, Nat.mod_self] at hne
        exact absurd rfl hne
    refine ⟨_, old, recent ++ [m ++ ['\n']], rfl, Nat.mod_lt _ hpos, by simp, ?_, ?_⟩
    · rw [Nat.mod_eq_of_lt h2]; simp; omega
    · refine hs.trans ?_
      obtain ⟨t, ht⟩ := hb
      exact ⟨t, by rw [← List.append_assoc, ht]; simp⟩
  · rintro buf fl lines m fl' ⟨c, old, recent, rfl, hc, rfl, hl, hb⟩ - hup
    simp only [Flusher.update, Nat.add_eq_zero_iff, Nat.succ_ne_self, and_false, ne_eq, not_false_eq_true, if_true,
      Prod.mk.injEq] at hup
    obtain ⟨rfl, -⟩ := hup
    exact ⟨_, (old ++ recent) ++ [m ++ ['\n']], [], rfl, Nat.mod_lt _ hpos, by simp, by simp, by simp⟩
  · rintro buf fl lines disk ⟨c, old, recent, rfl, hc, rfl, hl, hb⟩ hw
    refine ⟨old.length, by simp; omega, by simp, ?_⟩
    obtain ⟨t, ht⟩ := hb
    rw [List.take_left]
    rw [List.flatten_append, ← ht, ← List.append_assoc] at hw
    have := List.append_cancel_right hw
    rw [this]
    exact List.prefix_append _ _
  · intro lines
    exact ⟨lines.length, by omega, by omega, by rw [List.take_length]; exact List.prefix_refl _⟩
  · rintro lines disk disk' ⟨k, h1, h2, h3⟩ hd
    exact ⟨k, h1, h2, h3.trans hd⟩

/-- Fewer than `n` bytes at the end are missing. -/
def AllButBytes (n : Nat) (lines : List Str) (disk : Str) : Prop :=
  ∃ rest, rest.length < n ∧ ∃ kept, lines.flatten = kept ++ rest ∧ kept <+: disk

def PendBytes (n : Nat) (buf : Str) (fl : Flusher) (_ : List Str) : Prop :=
  ∃ c, fl = .bytecount c n ∧ c < n ∧ buf.length ≤ c

theorem bytesPolicy (n : Nat) (hpos : 0 < n) :
    Policy (.bytecount n) (fun m => m.length + 1 + n ≤ 2 ^ 64) (PendBytes n) (AllButBytes n) := by
  have hu : u64 = 2 ^ 64 := by decide
  refine ⟨?_, ?_, ?_, ?_, ?_, ?_⟩
  · intro lines
    exact ⟨0, by simp [FlusherFactory.create, hpos], hpos, by simp⟩
  · rintro buf fl lines m fl' buf' ⟨c, rfl, hc, hb⟩ hm hup hs
    simp only [Flusher.update, Nat.add_eq_zero_iff, Nat.succ_ne_self, and_false, ne_eq, not_false_eq_true, if_true,
      Prod.mk.injEq, decide_eq_false_iff_not] at hup
    obtain ⟨rfl, hne⟩ := hup
    have h1 : (c + (m.length + 1)) % u64 = c + (m.length + 1) := Nat.mod_eq_of_lt (by omega)
    rw [h1] at hne ⊢
    refine ⟨_, rfl, Nat.mod_lt _ hpos, ?_⟩
    rw [Nat.mod_eq_of_lt (by omega)]
    have := hs.length_le
    simp at this
    omega
  · rintro buf fl lines m fl' ⟨c, rfl, hc, hb⟩ hm hup
    simp only [Flusher.update, Nat.add_eq_zero_iff, Nat.succ_ne_self, and_false, ne_eq, not_false_eq_true, if_true,
      Prod.mk.injEq] at hup
    obtain ⟨rfl, -⟩ := hup
    exact ⟨_, rfl, Nat.mod_lt _ hpos, by simp⟩
  · rintro buf fl lines disk ⟨c, rfl, hc, hb⟩ hw
    exact ⟨buf, by omega, disk, hw.symm, List.prefix_refl _⟩
  · intro lines
    exact ⟨[], by simpa using hpos, lines.flatten, by simp, List.prefix_refl _⟩
  · rintro lines disk disk' ⟨rest, h1, kept, h2, h3⟩ hd
    exact ⟨rest, h1, kept, h2, h3.trans hd⟩

/-- No promise beyond the order. -/
theorem anyPolicy (f : FlusherFactory) : Policy f (fun _ => True) (fun _ _ _ => True) (fun _ _ => True) :=
  ⟨by simp, by simp, by simp, by simp, by simp, by simp⟩

/-! ## C61: crashes -/

/-- Whenever the process dies, and whatever the stream has handed over by then: the files, in the order of opening, hold
a beginning of the acknowledged lines in order, followed at most by a part of the line being written. -/
theorem C61_prefix (r : RotateFactory) (f : FlusherFactory) (h : List (Oracle × Str)) (hio : NoIoError h) :
    ((Sink.init r f).run h).1.onDisk
      <+: (acknowledged h ((Sink.init r f).run h).2).flatten ++ inFlight h ((Sink.init r f).run h).2 := by
  have := (run_good (anyPolicy f) h [] _ (Inv.init r) hio (by simp)).2.1
  simpa using this

/-- With a flush every `n` events a crash takes at most `n - 1` acknowledged events, the last ones. -/
theorem C61_events (r : RotateFactory) (n : Nat) (hpos : 0 < n) (hn : n < 2 ^ 64) (h : List (Oracle × Str))
    (hio : NoIoError h) :
    let acked := acknowledged h ((Sink.init r (.repeat n)).run h).2
    ∃ lost, lost < n ∧ lost ≤ acked.length
      ∧ (acked.take (acked.length - lost)).flatten <+: ((Sink.init r (.repeat n)).run h).1.onDisk := by
  obtain ⟨k, h1, h2, h3⟩ := (run_good (eventsPolicy n hpos hn) h [] _ (Inv.init r) hio (by simp)).1
  simp only [List.nil_append] at h1 h2 h3
  refine ⟨_ - k, ?_, Nat.sub_le _ _, ?_⟩
  · omega
  · rw [Nat.sub_sub_self h2]; exact h3

/-- With a flush every `n` bytes a crash takes fewer than `n` bytes of the acknowledged lines, the last ones. -/
theorem C61_bytes (r : RotateFactory) (n : Nat) (hpos : 0 < n) (h : List (Oracle × Str)) (hio : NoIoError h)
    (hshort : ∀ x ∈ h, x.2.length + 1 + n ≤ 2 ^ 64) :
    let acked := (acknowledged h ((Sink.init r (.bytecount n)).run h).2).flatten
    ∃ lost, lost < n ∧ acked.take (acked.length - lost) <+: ((Sink.init r (.bytecount n)).run h).1.onDisk := by
  obtain ⟨rest, h1, kept, h2, h3⟩ := (run_good (bytesPolicy n hpos) h [] _ (Inv.init r) hio hshort).1
  simp only [List.nil_append] at h2
  refine ⟨rest.length, h1, ?_⟩
  rw [h2]
  simpa using h3

/-- Flushing every event loses nothing. -/
theorem C61_every_event (r : RotateFactory) (h : List (Oracle × Str)) (hio : NoIoError h) :
    (acknowledged h ((Sink.init r (.repeat 1)).run h).2).flatten <+: ((Sink.init r (.repeat 1)).run h).1.onDisk := by
  obtain ⟨lost, h1, -, h3⟩ := C61_events r 1 (by decide) (by decide) h hio
  have : lost = 0 := by omega
  subst this
  simpa using h3

/-- Destroying the sink loses nothing, whatever the policy. -/
theorem C61_destroyed (r : RotateFactory) (f : FlusherFactory) (h : List (Oracle × Str)) (hio : NoIoError h)
    (hc : .crashed ∉ ((Sink.init r f).run h).2) (k : Nat) :
    (((Sink.init r f).run h).1.destroy (.ok k)).onDisk = (acknowledged h ((Sink.init r f).run h).2).flatten := by
  have i := (run_good (anyPolicy f) h [] _ (Inv.init r) hio (by simp)).2.2 hc
  have hw := i.whole
  simp only [List.nil_append] at hw
  rw [← hw]
  generalize ((Sink.init r f).run h).1 = s
  unfold Sink.destroy
  cases hs : s.current with
  | none => simp [Sink.onDisk, Sink.pending, hs]
  | some x => simp [Sink.onDisk, Sink.pending, hs, OStream.close]

/-- Three events, flushed every two, the process dies while the fourth is written. -/
private def crashing : List (Oracle × Str) :=
  [({ opened := .ok 5, write := .ok 0, newline := .ok 1 }, ch! "ab"), ({}, ch! "c"), ({}, ch! "d"),
   ({ write := .crash 1 1 }, ch! "ef"), ({}, ch! "g")]

example : NoIoError crashing := by
  intro x hx k left
  simp only [crashing, List.mem_cons, List.not_mem_nil, or_false] at hx
  rcases hx with rfl | rfl | rfl | rfl | rfl <;> exact ⟨nofun, nofun, nofun, nofun⟩

example : let r := (Sink.init .null (.repeat 2)).run crashing;
    r.2 = [.ok, .ok, .ok, .crashed] ∧ acknowledged crashing r.2 = [ch! "ab\n", ch! "c\n", ch! "d\n"]
      ∧ inFlight crashing r.2 = ch! "ef\n" ∧ r.1.onDisk = ch! "ab\nc\nd" := by decide

/-- Without a flushing policy, as by default, everything acknowledged can be lost. -/
theorem C61_default_loses : let h := [(({ opened := .ok 5 } : Oracle), ch! "a"), ({}, ch! "b"), ({ write := .crash 0 0 }, ch! "c")]
    let r := (Sink.init .null (.repeat 0)).run h;
    NoIoError h ∧ acknowledged h r.2 = [ch! "a\n", ch! "b\n"] ∧ r.1.onDisk = [] := by
  refine ⟨?_, rfl, rfl⟩
  intro x hx k left
  simp only [List.mem_cons, List.not_mem_nil, or_false] at hx
  rcases hx with rfl | rfl | rfl <;> exact ⟨nofun, nofun, nofun, nofun⟩

/-! ## C62: write errors -/

/-- An error while writing, ending the line or flushing is reported by that very emit. -/
theorem C62_reported (s : Sink) (o : Oracle) (m : Str) (st : OStream) (b : Backend) (hs : s.current = some (st, b))
    (hrot : b.rotate.shouldRotate o.check = false) (hb : st.bad = false) (k : Nat) (left : Str)
    (hw : o.write = .fail k left ∨ (∃ i, o.write = .ok i) ∧ o.newline = .fail k left
      ∨ (∃ i j, o.write = .ok i ∧ o.newline = .ok j) ∧ (b.flusher.update (m.length + 1)).2 = true
        ∧ o.flush = .fail k left) :
    (s.emit o m).2 = .ioFailed := by
  have hsel : s.select o = (s, .ok) := by simp [Sink.select, hs, hrot]
  simp only [Sink.emit, hsel, Sink.write, hs]
  rcases hw with h1 | ⟨⟨i, h0⟩, h1⟩ | ⟨⟨i, j, h0, h1⟩, h2, h3⟩
  · simp [OStream.write, hb, h1, Status.outcome]
  · simp [OStream.write, hb, h0, h1, Status.outcome]
  · cases hu : b.flusher.update (m.length + 1) with
    | mk fl due =>
      rw [hu] at h2
      simp only at h2
      subst h2
      simp [OStream.write, OStream.flush, hb, h0, h1, h3, Status.outcome]

/-- After an error nothing more gets through this stream: every later emit to it throws and leaves the file as it is,
even if writing would be possible again. -/
theorem C62_fails_no_recovery (s : Sink) (o : Oracle) (m : Str) (st : OStream) (b : Backend)
    (hs : s.current = some (st, b)) (hbad : st.bad = true) (hrot : b.rotate.shouldRotate o.check = false) :
    s.emit o m = (s, .ioFailed) := by
  have hsel : s.select o = (s, .ok) := by simp [Sink.select, hs, hrot]
  simp only [Sink.emit, hsel, Sink.write, hs]
  simp [OStream.write, hbad, Status.outcome, ← hs]

/-- Hence without rotation one error silences the sink for good: in every continuation all emits throw. -/
theorem C62_fails_for_ever (s : Sink) (st : OStream) (b : Backend) (hs : s.current = some (st, b)) (hbad : st.bad = true)
    (hnull : b.rotate = .null) (h : List (Oracle × Str)) :
    s.run h = (s, List.replicate h.length .ioFailed) := by
  induction h with
  | nil => rfl
  | cons x h ih =>
    obtain ⟨o, m⟩ := x
    have he := C62_fails_no_recovery s o m st b hs hbad (by rw [hnull]; rfl)
    simp only [Sink.run, he, ih, List.length_cons, List.replicate_succ]

/-- A sink without rotation. -/
structure Plain (s : Sink) : Prop where
  factory : s.rotateFactory = .null
  backend : ∀ st b, s.current = some (st, b) → b.rotate = .null

theorem Plain.write {s : Sink} (h : Plain s) (o : Oracle) (m : Str) : Plain (s.write o m).1
    ∧ ((s.write o m).2 = .ioFailed → ∃ st b, (s.write o m).1.current = some (st, b) ∧ st.bad = true) := by
  cases hs : s.current with
  | none =>
    unfold Sink.write
    rw [hs]
    exact ⟨h, fun h => by cases h⟩
  | some x =>
    obtain ⟨st, b⟩ := x
    have hb := h.backend st b hs
    have hw : ∀ (st : OStream) bytes r st', st.write bytes r = (st', .failed) → st'.bad = true := by
      intro st bytes r st' e
      unfold OStream.write at e
      split at e
      · rename_i hbad; injection e with e _; rw [← e]; exact hbad
      · cases r with
        | ok _ => injection e with _ e; cases e
        | fail _ _ => injection e with e _; rw [← e]
        | crash _ _ => injection e with _ e; cases e
    have hf : ∀ (st : OStream) r st', st.flush r = (st', .failed) → st'.bad = true := by
      intro st r st' e
      unfold OStream.flush at e
      split at e
      · rename_i hbad; injection e with e _; rw [← e]; exact hbad
      · cases r with
        | ok _ => injection e with _ e; cases e
        | fail _ _ => injection e with e _; rw [← e]
        | crash _ _ => injection e with _ e; cases e
    have hp : ∀ st' fl, Plain { s with current := some (st', { b with flusher := fl }) } := fun st' fl =>
      ⟨h.factory, fun _ _ e => by injection e with e; injection e with _ e; rw [← e]; exact hb⟩
    have hp' : ∀ st', Plain { s with current := some (st', b) } := fun st' =>
      ⟨h.factory, fun _ _ e => by injection e with e; injection e with _ e; rw [← e]; exact hb⟩
    unfold Sink.write
    rw [hs]
    simp only
    cases h1 : st.write m o.write with
    | mk st1 r1 =>
      cases r1 with
      | failed => exact ⟨hp' _, fun _ => ⟨_, _, rfl, hw _ _ _ _ h1⟩⟩
      | crashed => exact ⟨hp' _, fun e => by cases e⟩
      | ok =>
        simp only
        cases h2 : st1.write ['\n'] o.newline with
        | mk st2 r2 =>
          cases r2 with
          | failed => exact ⟨hp' _, fun _ => ⟨_, _, rfl, hw _ _ _ _ h2⟩⟩
          | crashed => exact ⟨hp' _, fun e => by cases e⟩
          | ok =>
            simp only
            cases h3 : b.flusher.update (m.length + 1) with
            | mk fl due =>
              cases due with
              | false => exact ⟨hp _ _, fun e => by cases e⟩
              | true =>
                simp only
                cases h4 : st2.flush o.flush with
                | mk st3 r3 =>
                  cases r3 with
                  | failed => exact ⟨hp _ _, fun _ => ⟨_, _, rfl, hf _ _ _ h4⟩⟩
                  | crashed => exact ⟨hp _ _, fun e => by cases e⟩
                  | ok => exact ⟨hp _ _, fun e => by cases e⟩

theorem Plain.emit {s : Sink} (h : Plain s) (o : Oracle) (m : Str) : Plain (s.emit o m).1
    ∧ ((s.emit o m).2 = .ioFailed → ∃ st b, (s.emit o m).1.current = some (st, b) ∧ st.bad = true) := by
  unfold Sink.emit Sink.select
  cases hs : s.current with
  | some x =>
    obtain ⟨st, b⟩ := x
    simp only [h.backend st b hs, Rotate.shouldRotate, Bool.false_eq_true, if_false]
    exact h.write o m
  | none =>
    simp only
    unfold Sink.create
    cases ho : o.opened with
    | fail => exact ⟨h, fun e => by cases e⟩
    | crash => exact ⟨h, fun e => by cases e⟩
    | ok i =>
      simp only [h.factory]
      have hp : ∀ st, Plain { s with rotateFactory := .null, current := some (st, { rotate := .null, flusher := s.flusherFactory.create }) } := fun st =>
        ⟨rfl, fun _ _ e => by injection e with e; injection e with _ e; rw [← e]⟩
      exact (hp _).write o m

theorem silenced {s : Sink} (h : Plain s) (h1 : List (Oracle × Str)) (x : Oracle × Str) (h2 : List (Oracle × Str))
    (outs : List Outcome) (hlen : outs.length = h1.length) (hf : (s.run (h1 ++ [x])).2 = outs ++ [.ioFailed]) :
    s.run (h1 ++ x :: h2) = ((s.run (h1 ++ [x])).1, outs ++ .ioFailed :: List.replicate h2.length .ioFailed) := by
  induction h1 generalizing s outs with
  | nil =>
    obtain rfl := List.eq_nil_of_length_eq_zero hlen
    obtain ⟨o, m⟩ := x
    obtain ⟨hp, hbad⟩ := h.emit o m
    simp only [List.nil_append, Sink.run] at hf ⊢
    cases he : s.emit o m with
    | mk s' r =>
      rw [he] at hf hp hbad
      cases r with
      | ioFailed =>
        obtain ⟨st, b, e1, e2⟩ := hbad rfl
        simp only
        rw [C62_fails_for_ever s' st b e1 e2 (hp.backend _ _ e1)]
      | ok => cases hf
      | openFailed => cases hf
      | statFailed => cases hf
      | crashed => cases hf
  | cons y h1 ih =>
    obtain ⟨o, m⟩ := y
    cases outs with
    | nil => cases hlen
    | cons out outs =>
      have hp := (h.emit o m).1
      simp only [List.cons_append, Sink.run] at hf ⊢
      cases he : s.emit o m with
      | mk s' r =>
        rw [he] at hf hp
        have key : r ≠ .crashed → _ := fun hr => ih hp outs (by simpa using hlen) (by
          cases r <;> simp only [List.cons.injEq] at hf <;> first | exact hf.2 | exact absurd rfl hr)
        cases r with
        | crashed =>
          injection hf with _ hf
          cases outs <;> cases hf
        | ok => have := key (by simp); injection hf with e _; simp only [this, e]
        | openFailed => have := key (by simp); injection hf with e _; simp only [this, e]
        | statFailed => have := key (by simp); injection hf with e _; simp only [this, e]
        | ioFailed => have := key (by simp); injection hf with e _; simp only [this, e]

/-- **C62, silenced.** A sink without rotation, in any history: after the first emit that throws a stream error, be it
from writing, ending the line or flushing, all emits throw, whatever the operating system would answer by then, and
nothing more gets to the file or its buffer. -/
theorem C62_fails_silenced (f : FlusherFactory) (h1 h2 : List (Oracle × Str)) (x : Oracle × Str) (outs : List Outcome)
    (hlen : outs.length = h1.length) (hf : ((Sink.init .null f).run (h1 ++ [x])).2 = outs ++ [.ioFailed]) :
    (Sink.init .null f).run (h1 ++ x :: h2)
      = (((Sink.init .null f).run (h1 ++ [x])).1, outs ++ .ioFailed :: List.replicate h2.length .ioFailed) :=
  silenced ⟨rfl, fun _ _ e => by cases e⟩ h1 x h2 outs hlen hf

/-- A flush fails; the next emits could be written but are not. -/
example : let f : FlusherFactory := .repeat 2;
    ((Sink.init .null f).run ([({ opened := .ok 5 }, ch! "a")] ++ [({ flush := .fail 1 [] }, ch! "b")])).2 = [.ok] ++ [.ioFailed]
    ∧ ((Sink.init .null f).run [({ opened := .ok 5 }, ch! "a"), ({ flush := .fail 1 [] }, ch! "b"), ({}, ch! "c"), ({}, ch! "d")]).2
      = [.ok, .ioFailed, .ioFailed, .ioFailed] := by decide

/-- **C62, closing.** Nobody is told if closing a file fails when it is rotated: the lines that were still buffered are
gone although all emits returned, and the next file begins with the next line. -/
theorem C62_fails_close (m m' : Str) :
    let h := [(({ opened := .ok 5, recorded := some 5 } : Oracle), m),
              ({ check := some 6, close := .fail 0 [], opened := .ok 6, recorded := some 6 }, m')]
    let r := (Sink.init .stat (.repeat 0)).run h
    r.2 = [.ok, .ok] ∧ (r.1.destroy (.ok 0)).onDisk = m' ++ ['\n'] := by
  simp [Sink.run, Sink.emit, Sink.select, Sink.init, Sink.create, Sink.write, OStream.write, Rotate.shouldRotate,
    FlusherFactory.create, Flusher.update, OStream.close, Sink.destroy, Sink.onDisk, show (1 % u64 % (u64 - 1) == 0) = false from rfl]

/-- With rotation by inode the sink recovers when the file is replaced or removed: the next message goes to a new
stream. -/
theorem C62_recovers_partial (s : Sink) (o : Oracle) (m : Str) (st : OStream) (b : Backend) (i j k : Nat)
    (hs : s.current = some (st, b)) (hr : s.rotateFactory = .stat) (hrot : b.rotate.shouldRotate o.check = true)
    (hc : o.close = .ok k) (ho : o.opened = .ok i) (hrec : o.recorded = some j) (k1 k2 k3 : Nat)
    (hw : o.write = .ok k1) (hn : o.newline = .ok k2) (hf : o.flush = .ok k3) :
    (s.emit o m).2 = .ok ∧ ∃ st' b', (s.emit o m).1.current = some (st', b') ∧ st'.inode = i ∧ st'.bad = false
      ∧ st'.disk ++ st'.buffer = m ++ ['\n'] := by
  have hsel : s.select o = ({ s with
      closed := s.closed ++ [{ st with disk := st.disk ++ st.buffer, buffer := [] }],
      current := some ({ inode := i, disk := [], buffer := [], bad := false },
        { rotate := .stat j, flusher := s.flusherFactory.create }) }, .ok) := by
    simp [Sink.select, hs, hrot, hc, OStream.close, Sink.create, ho, hr, hrec]
  simp only [Sink.emit, hsel, Sink.write, OStream.write, hw, hn, Bool.false_eq_true, if_false, List.nil_append]
  have hall : List.take k1 m ++ (List.take k2 (List.drop k1 m ++ ['\n']) ++ List.drop k2 (List.drop k1 m ++ ['\n']))
      = m ++ ['\n'] := by
    rw [List.take_append_drop, ← List.append_assoc, List.take_append_drop]
  cases hu : s.flusherFactory.create.update (m.length + 1) with
  | mk fl due =>
    cases due with
    | false => exact ⟨rfl, _, _, rfl, rfl, rfl, by simpa using hall⟩
    | true =>
      simp only [OStream.flush, hf, Bool.false_eq_true, if_false]
      exact ⟨rfl, _, _, rfl, rfl, rfl, by simpa using hall⟩

/-- The disk is full while the second message is written; then there is space again. -/
private def fullDisk : List (Oracle × Str) :=
  [({ opened := .ok 5, newline := .ok 2 }, ch! "a"), ({ write := .fail 1 [] }, ch! "bc"), ({}, ch! "d"), ({}, ch! "e")]

example : let r := (Sink.init .null (.repeat 1)).run fullDisk;
    r.2 = [.ok, .ioFailed, .ioFailed, .ioFailed] ∧ r.1.onDisk = ch! "a\nb" := by decide

/-- The same with rotation, and the file removed after the error. -/
private def removed : List (Oracle × Str) :=
  [({ opened := .ok 5, recorded := some 5 }, ch! "a"), ({ check := some 5, write := .fail 1 [] }, ch! "bc"),
   ({ check := some 5 }, ch! "d"), ({ check := none, opened := .ok 6, recorded := some 6 }, ch! "e")]

example : let r := (Sink.init .stat (.repeat 1)).run removed;
    r.2 = [.ok, .ioFailed, .ioFailed, .ok] ∧ r.1.onDisk = ch! "a\nbe\n" := by decide

end Blackhole.File.Disk
