import Verif.Ostream.Spec
import Verif.Console.Props

namespace Blackhole.Ostream

open Console (Color)

/-! ## What operations print -/

/-- The text of operations if nothing fails. -/
def plan (f : Format) : List Op → Str
  | [] => []
  | .raw t :: ops => t ++ plan f ops
  | .fmt g :: ops => g f ++ plan { f with width := 0 } ops
  | .flush :: ops => plan f ops

def planFormat (f : Format) : List Op → Format
  | [] => f
  | .fmt _ :: ops => planFormat { f with width := 0 } ops
  | _ :: ops => planFormat f ops

theorem plan_append (f : Format) (a b : List Op) : plan f (a ++ b) = plan f a ++ plan (planFormat f a) b := by
  induction a generalizing f with
  | nil => rfl
  | cons op a ih => cases op <;> simp [plan, planFormat, ih]

theorem planFormat_append (f : Format) (a b : List Op) : planFormat f (a ++ b) = planFormat (planFormat f a) b := by
  induction a generalizing f with
  | nil => rfl
  | cons op a ih => cases op <;> simp [planFormat, ih]

/-- What the stream and its state may have become after operations with this text. -/
structure Did (s : Stream) (text : Str) (f : Format) (s' : Stream) : Prop where
  mask : s'.mask = s.mask
  out : ∃ p, s'.out = s.out ++ p ∧ p <+: text ∧ (s'.good = true → p = text) ∧ (s.good = false → p = [])
  good : s'.good = true → s.good = true ∧ s'.format = f
  clear : s.good = true → s.faults = [] → s'.good = true ∧ s'.faults = []

theorem Did.refl (s : Stream) : Did s [] s.format s :=
  ⟨rfl, ⟨[], by simp, List.prefix_refl _, fun _ => rfl, fun _ => rfl⟩, fun h => ⟨h, rfl⟩, fun h h' => ⟨h, h'⟩⟩

theorem put_cases (s : Stream) (t : Str) :
    ∃ p fs, (s.put t).1 = { s with out := s.out ++ p, faults := fs } ∧ p <+: t ∧ ((s.put t).2 = true → p = t) ∧
      (s.faults = [] → (s.put t).2 = true ∧ fs = []) := by
  cases t with
  | nil => exact ⟨[], s.faults, by simp [Stream.put], List.prefix_refl _, fun _ => rfl, fun h => ⟨rfl, h⟩⟩
  | cons c t =>
    simp only [Stream.put]
    split
    · exact ⟨c :: t, [], by simp_all, List.prefix_refl _, fun _ => rfl, fun _ => ⟨rfl, rfl⟩⟩
    · exact ⟨c :: t, _, rfl, List.prefix_refl _, (fun _ => rfl), (fun h => by simp_all)⟩
    · rename_i k fs _
      exact ⟨(c :: t).take k, _, rfl, List.take_prefix _ _, (fun h => nomatch h), (fun h => by simp_all)⟩

theorem good_iff {s : Stream} : s.good = true ↔ s.bad = false ∧ s.fail = false := by
  unfold Stream.good
  cases s.bad <;> cases s.fail <;> simp

theorem act_did (s : Stream) (op : Op) : Did s (plan s.format [op]) (planFormat s.format [op]) (op.act s).1 := by
  unfold Op.act
  cases hg : s.good with
  | false =>
    have hb : ({ s with fail := true } : Stream).good = false := by simp [Stream.good]
    simp only [Bool.false_eq_true, if_false]
    refine ⟨rfl, ⟨[], by simp, List.nil_prefix, fun h => ?_, fun _ => rfl⟩, fun h => ?_, fun h => ?_⟩
    · rw [hb] at h; cases h
    · rw [hb] at h; cases h
    · rw [hg] at h; cases h
  | true =>
    have hg' := good_iff.1 hg
    simp only [if_true]
    cases op with
    | raw t =>
      obtain ⟨p, fs, h1, h2, h3, h4⟩ := put_cases s t
      simp only [Stream.after]
      cases h5 : (s.put t).2 with
      | true =>
        simp only [if_true, h1]
        refine ⟨rfl, ⟨p, rfl, by simpa [plan] using h2, fun _ => by simpa [plan] using h3 h5, fun h => nomatch hg.symm.trans h⟩,
          fun _ => ⟨hg, rfl⟩, fun _ h => ⟨hg, (h4 h).2⟩⟩
      | false =>
        simp only [Bool.false_eq_true, if_false, h1]
        refine ⟨rfl, ⟨p, rfl, by simpa [plan] using h2, fun h => ?_, fun h => nomatch hg.symm.trans h⟩, fun h => ?_, fun _ h => ?_⟩
        · simp [Stream.good] at h
        · simp [Stream.good] at h
        · rw [(h4 h).1] at h5; cases h5
    | fmt f =>
      obtain ⟨p, fs, h1, h2, h3, h4⟩ := put_cases { s with format := { s.format with width := 0 } } (f s.format)
      simp only [Stream.after]
      cases h5 : (({ s with format := { s.format with width := 0 } } : Stream).put (f s.format)).2 with
      | true =>
        simp only [if_true, h1]
        refine ⟨rfl, ⟨p, rfl, by simpa [plan] using h2, fun _ => by simpa [plan] using h3 h5, fun h => nomatch hg.symm.trans h⟩,
          fun _ => ⟨hg, rfl⟩, fun _ h => ⟨hg, (h4 h).2⟩⟩
      | false =>
        simp only [Bool.false_eq_true, if_false, h1]
        refine ⟨rfl, ⟨p, rfl, by simpa [plan] using h2, fun h => ?_, fun h => nomatch hg.symm.trans h⟩, fun h => ?_, fun _ h => ?_⟩
        · simp [Stream.good] at h
        · simp [Stream.good] at h
        · rw [(h4 h).1] at h5; cases h5
    | flush =>
      cases hf : s.faults with
      | nil =>
        simp only [Stream.after, Stream.sync, hf, if_true]
        exact Did.refl s
      | cons x fs =>
        cases x with
        | none =>
          simp only [Stream.after, Stream.sync, hf, if_true]
          exact ⟨rfl, ⟨[], by simp, List.nil_prefix, fun _ => rfl, fun _ => rfl⟩, fun _ => ⟨hg, rfl⟩,
            fun _ h => by rw [hf] at h; cases h⟩
        | some k =>
          simp only [Stream.after, Stream.sync, hf, Bool.false_eq_true, if_false]
          refine ⟨rfl, ⟨[], by simp, List.nil_prefix, fun _ => rfl, fun _ => rfl⟩, fun h => ?_, fun _ h => ?_⟩
          · simp [Stream.good] at h
          · rw [hf] at h; cases h

theorem settle_cases (r : Stream × Bool) :
    Stream.settle r = r ∨ (r.1.good = true ∧ r.2 = false ∧ r.1.unit = true ∧
      ((r.1.faults = [] ∧ Stream.settle r = r) ∨
       (∃ fs, r.1.faults = none :: fs ∧ Stream.settle r = ({ r.1 with faults := fs }, false)) ∨
       (∃ k fs, r.1.faults = some k :: fs ∧ Stream.settle r = ({ r.1 with faults := fs, bad := true }, false)))) := by
  obtain ⟨t, b⟩ := r
  unfold Stream.settle
  by_cases h : (t.unit && !b && t.good) = true
  · right
    rw [if_pos h]
    simp only [Bool.and_eq_true, Bool.not_eq_true'] at h
    obtain ⟨⟨h1, h2⟩, h3⟩ := h
    refine ⟨h3, h2, h1, ?_⟩
    subst h2
    unfold Stream.sync
    cases hf : t.faults with
    | nil => exact .inl ⟨rfl, rfl⟩
    | cons x fs =>
      cases x with
      | none => exact .inr (.inl ⟨fs, rfl, rfl⟩)
      | some k => exact .inr (.inr ⟨k, fs, rfl, rfl⟩)
  · left
    rw [if_neg h]

theorem settle_thrown (r : Stream × Bool) : (Stream.settle r).2 = r.2 := by
  rcases settle_cases r with h | ⟨_, h2, _, ⟨_, h⟩ | ⟨fs, _, h⟩ | ⟨k, fs, _, h⟩⟩ <;> rw [h]
  · rw [h2]
  · rw [h2]

theorem settle_did {s : Stream} {t : Str} {f : Format} {r : Stream × Bool} (h : Did s t f r.1) :
    Did s t f (Stream.settle r).1 := by
  rcases settle_cases r with e | ⟨_, _, _, ⟨_, e⟩ | ⟨fs, hf, e⟩ | ⟨k, fs, hf, e⟩⟩
  · rw [e]; exact h
  · rw [e]; exact h
  · rw [e]
    refine ⟨h.mask, h.out, h.good, fun h1 h2 => ?_⟩
    rw [(h.clear h1 h2).2] at hf
    cases hf
  · rw [e]
    obtain ⟨p, h1, h2, _, h4⟩ := h.out
    refine ⟨h.mask, ⟨p, h1, h2, fun hg => ?_, h4⟩, fun hg => ?_, fun h1 h2 => ?_⟩
    · simp [Stream.good] at hg
    · simp [Stream.good] at hg
    · rw [(h.clear h1 h2).2] at hf
      cases hf

theorem run_did (s : Stream) (op : Op) : Did s (plan s.format [op]) (planFormat s.format [op]) (op.run s).1 :=
  settle_did (act_did s op)

theorem Did.trans {s s' s'' : Stream} {t t' : Str} {f f' : Format} (h : Did s t f s') (h' : Did s' t' f' s'') :
    Did s (t ++ t') f' s'' := by
  obtain ⟨p, h1, h2, h3, h4⟩ := h.out
  obtain ⟨p', h1', h2', h3', h4'⟩ := h'.out
  refine ⟨h'.mask.trans h.mask, ⟨p ++ p', by rw [h1', h1, List.append_assoc], ?_, ?_, ?_⟩, ?_, ?_⟩
  · cases hg : s'.good with
    | true => rw [h3 hg]; exact (List.prefix_append_right_inj t).2 h2'
    | false => rw [h4' hg, List.append_nil]; exact h2.trans (List.prefix_append t t')
  · intro hg
    rw [h3' hg, h3 (h'.good hg).1]
  · intro hg
    have : s'.good = false := by
      cases hg' : s'.good with
      | false => rfl
      | true => rw [(h.good hg').1] at hg; cases hg
    rw [h4 hg, h4' this]; rfl
  · intro hg
    exact ⟨(h.good (h'.good hg).1).1, (h'.good hg).2⟩
  · intro hg hf
    obtain ⟨a, b⟩ := h.clear hg hf
    exact h'.clear a b

/-- A stream without the exception mask never throws. -/
theorem run_none {s : Stream} (h : s.mask = Mask.none) (op : Op) : (op.run s).2 = false := by
  have key : ∀ t : Stream, t.mask = Mask.none → t.throws = false := by
    intro t ht
    simp [Stream.throws, ht, Mask.none]
  have hp : ∀ (t : Stream) (x : Str), t.mask = Mask.none → (t.put x).1.mask = Mask.none := by
    intro t x ht
    obtain ⟨p, fs, h1, -⟩ := put_cases t x
    rw [h1]; exact ht
  have ha : ∀ r : Stream × Bool, r.1.mask = Mask.none → (Stream.after r).2 = false := by
    intro r hr
    unfold Stream.after
    split
    · rfl
    · exact key _ hr
  unfold Op.run
  rw [settle_thrown]
  unfold Op.act
  split
  · cases op with
    | raw t => exact ha _ (hp _ _ h)
    | fmt f => exact ha _ (hp { s with format := { s.format with width := 0 } } _ h)
    | flush =>
      refine ha _ ?_
      unfold Stream.sync
      split <;> exact h
  · exact key _ h

theorem runOps_none {s : Stream} (h : s.mask = Mask.none) (ops : List Op) :
    (runOps s ops).2 = false ∧ Did s (plan s.format ops) (planFormat s.format ops) (runOps s ops).1 := by
  induction ops generalizing s with
  | nil => exact ⟨rfl, Did.refl s⟩
  | cons op ops ih =>
    have h1 := run_none h op
    have h2 := run_did s op
    rw [runOps]
    rcases hr : op.run s with ⟨s', b⟩
    rw [hr] at h1 h2
    simp only at h1 h2
    subst h1
    obtain ⟨h3, h4⟩ := ih (s := s') (by rw [h2.mask]; exact h)
    refine ⟨h3, ?_⟩
    have e := h2.trans h4
    cases hg : s'.good with
    | true =>
      rw [(h2.good hg).2] at e
      have := plan_append s.format [op] ops
      rw [show [op] ++ ops = op :: ops from rfl] at this
      have hf := planFormat_append s.format [op] ops
      rw [show [op] ++ ops = op :: ops from rfl] at hf
      rw [this, hf]
      exact e
    | false =>
      obtain ⟨p, a1, a2, a3, a4⟩ := h2.out
      obtain ⟨q, b1, b2, b3, b4⟩ := h4.out
      have hbad : (runOps s' ops).1.good = false := by
        cases hx : (runOps s' ops).1.good with
        | false => rfl
        | true => rw [(h4.good hx).1] at hg; cases hg
      refine ⟨e.mask, ⟨p, by rw [b1, b4 hg, List.append_nil, a1], ?_, ?_, a4⟩, ?_, ?_⟩
      · have := plan_append s.format [op] ops
        rw [show [op] ++ ops = op :: ops from rfl] at this
        rw [this]
        exact a2.trans (List.prefix_append _ _)
      · intro hx; rw [hbad] at hx; cases hx
      · intro hx; rw [hbad] at hx; cases hx
      · intro hx hf
        rw [(h2.clear hx hf).1] at hg; cases hg

theorem settle_clear {s : Stream} (hf : s.faults = []) : Stream.settle (s, false) = (s, false) := by
  rcases settle_cases (s, false) with h | ⟨_, _, _, ⟨_, h⟩ | ⟨fs, h', _⟩ | ⟨k, fs, h', _⟩⟩
  · exact h
  · exact h
  · rw [hf] at h'; cases h'
  · rw [hf] at h'; cases h'

/-- Nothing fails on a good stream whose device works. -/
theorem run_clear {s : Stream} (hg : s.good = true) (hf : s.faults = []) (op : Op) :
    op.run s = ({ s with out := s.out ++ plan s.format [op], format := planFormat s.format [op] }, false) := by
  have hp : ∀ (t : Stream) (x : Str), t.faults = [] → t.put x = ({ t with out := t.out ++ x }, true) := by
    intro t x ht
    cases x with
    | nil => simp [Stream.put]
    | cons c x => simp [Stream.put, ht]
  unfold Op.run Op.act
  rw [if_pos hg]
  refine Eq.trans ?_ (settle_clear (s := { s with out := s.out ++ plan s.format [op], format := planFormat s.format [op] }) hf)
  congr 1
  cases op with
  | raw t => simp [Stream.after, hp s t hf, plan, planFormat]
  | fmt f => simp [Stream.after, hp { s with format := { s.format with width := 0 } } (f s.format) hf, plan, planFormat]
  | flush =>
    cases s
    simp only at hf
    subst hf
    simp [Stream.after, Stream.sync, plan, planFormat]

theorem runOps_clear {s : Stream} (hg : s.good = true) (hf : s.faults = []) (ops : List Op) :
    runOps s ops = ({ s with out := s.out ++ plan s.format ops, format := planFormat s.format ops }, false) := by
  induction ops generalizing s with
  | nil => simp [runOps, plan, planFormat]
  | cons op ops ih =>
    rw [runOps, run_clear hg hf]
    simp only
    rw [ih (s := { s with out := s.out ++ plan s.format [op], format := planFormat s.format [op] }) hg hf]
    cases op <;> simp [plan, planFormat]

theorem runOps_append (s : Stream) (a b : List Op) :
    runOps s (a ++ b) = match runOps s a with
      | (s', true) => (s', true)
      | (s', false) => runOps s' b := by
  induction a generalizing s with
  | nil => simp [runOps]
  | cons op a ih =>
    simp only [List.cons_append, runOps]
    rcases op.run s with ⟨s', _ | _⟩
    · exact ih s'
    · simp

/-! ## `emit` -/

/-- The operations of an `emit` that meets no exception. -/
def emitOps (sink : Console.Sink) (tty : Bool) (severity : Int) (m : Str) : List Op :=
  match sink.filter severity with
  | .deny => []
  | _ =>
    if tty = true ∧ (sink.mapping severity).colored = true then
      colour (sink.mapping severity) ++ ([.raw m] ++ (colour Color.reset ++ endl))
    else [.raw m] ++ endl

theorem emit_none {s : Stream} (h : s.mask = Mask.none) (sink : Console.Sink) (tty : Bool) (severity : Int) (m : Str) :
    emit sink tty severity m s = ((runOps s (emitOps sink tty severity m)).1, .returned) := by
  have key : ∀ (t : Stream) (ops : List Op), t.mask = Mask.none → runOps t ops = ((runOps t ops).1, false) := by
    intro t ops ht
    rw [← (runOps_none ht ops).1]
  have km : ∀ (t : Stream) (ops : List Op), t.mask = Mask.none → (runOps t ops).1.mask = Mask.none := by
    intro t ops ht
    rw [(runOps_none ht ops).2.mask, ht]
  have app : ∀ (t : Stream) (a b : List Op), t.mask = Mask.none → runOps t (a ++ b) = runOps (runOps t a).1 b := by
    intro t a b ht
    rw [runOps_append, key t a ht]
  unfold emit emitOps
  cases hf : sink.filter severity with
  | deny => simp [runOps]
  | _ =>
    simp only
    cases tty with
    | false =>
      simp only [Bool.false_eq_true, false_and, if_false]
      rw [show (Op.raw m :: endl) = [.raw m] ++ endl from rfl, key _ _ h]
      rfl
    | true =>
      simp only [if_true, true_and]
      unfold write
      cases hc : (sink.mapping severity).colored with
      | true =>
        simp only [if_true]
        rw [key s _ h]
        simp only
        rw [key _ [.raw m] (km _ _ h)]
        simp only
        rw [key _ (colour Color.reset) (km _ _ (km _ _ h))]
        simp only [Bool.false_and, Bool.false_eq_true, if_false, Bool.or_false]
        rw [key _ endl (km _ _ (km _ _ (km _ _ h)))]
        rw [app _ _ _ h, app _ _ _ (km _ _ h), app _ _ _ (km _ _ (km _ _ h))]
        rfl
      | false =>
        simp only [Bool.false_eq_true, if_false]
        rw [key s _ h]
        simp only [ending, Bool.false_eq_true, if_false]
        rw [key _ endl (km _ _ h), app _ _ _ h]
        rfl

theorem text_plain {f : Format} (h : f.width = 0) (t : Str) : Format.text t f = t := by
  unfold Format.text Format.pad
  rw [h]
  cases f.adjust <;> simp

theorem int_plain {f : Format} (h : f.Plain) (bits : Nat) (z : Int) : Format.int bits z f = Console.showInt z := by
  obtain ⟨h1, h2, h3⟩ := h
  unfold Format.int Format.pad Console.showInt
  rw [h1, h2, h3]
  by_cases hz : z < 0
  · cases f.adjust <;> simp [hz]
  · cases f.adjust <;> simp [hz]

theorem nat_plain {f : Format} (h : f.Plain) (n : Nat) : Format.nat n f = Nat.toDigits 10 n := by
  obtain ⟨h1, h2, h3⟩ := h
  unfold Format.nat Format.pad Format.digits
  rw [h1, h3]
  cases f.adjust <;> simp

theorem Format.Plain.zero {f : Format} (h : f.Plain) : { f with width := 0 } = f := by
  cases f
  obtain ⟨-, -, h3⟩ := h
  simp only at h3
  rw [h3]

theorem planFormat_plain {f : Format} (h : f.Plain) (ops : List Op) : planFormat f ops = f := by
  induction ops with
  | nil => rfl
  | cons op ops ih => cases op <;> simp only [planFormat, h.zero, ih]

theorem colour_plain {f : Format} (h : f.Plain) (c : Color) : plan f (colour c) = c.seq := by
  simp [colour, plan, h.zero, text_plain h.2.2, int_plain h, Color.seq]

theorem colored_iff (c : Color) : c.colored = true ↔ c ≠ ⟨0, 39⟩ := by
  cases c with
  | mk a b =>
    simp only [Color.colored, Color.default, Bool.not_eq_true', Bool.and_eq_false_imp, beq_iff_eq, beq_eq_false_iff_ne,
      ne_eq, Color.mk.injEq]
    constructor
    · intro h h'; exact h h'.2 h'.1
    · intro h h1 h2; exact h ⟨h2, h1⟩

theorem emitOps_line {f : Format} (h : f.Plain) (j : Job) :
    plan f (emitOps j.sink j.tty j.severity j.text) = j.line := by
  unfold emitOps Job.line line
  split
  · rename_i hd
    rw [if_pos (show j.denied from hd)]
    rfl
  · rename_i hd
    rw [if_neg (show ¬ j.denied from hd)]
    simp only [colored_iff]
    by_cases hc : j.tty = true ∧ j.sink.mapping j.severity ≠ ⟨0, 39⟩
    · rw [if_pos hc, if_pos hc]
      simp only [plan_append, planFormat_plain h, colour_plain h, Color.seq, Console.showInt_eq]
      simp [plan, endl, Color.reset]
      rfl
    · rw [if_neg hc, if_neg hc]
      simp [plan, endl]

theorem emit_did {s : Stream} (hm : s.mask = Mask.none) (hf : s.format.Plain) (j : Job) :
    ∃ s', emit j.sink j.tty j.severity j.text s = (s', .returned) ∧ Did s j.line s.format s' := by
  refine ⟨_, emit_none hm .., ?_⟩
  have := (runOps_none hm (emitOps j.sink j.tty j.severity j.text)).2
  rw [emitOps_line hf, planFormat_plain hf] at this
  exact this

/-! ## When the process ends -/

/-- What the outcome of operations depends on. -/
structure Core where
  faults : List (Option Nat)
  bad : Bool
  fail : Bool
  mask : Mask
  unit : Bool

def Stream.core (s : Stream) : Core := ⟨s.faults, s.bad, s.fail, s.mask, s.unit⟩

/-- An insertion of something, or of nothing. -/
def Core.act (c : Core) (empty : Bool) : Core × Bool :=
  if !c.bad && !c.fail then
    if empty then (c, false)
    else match c.faults with
      | [] => (c, false)
      | none :: fs => ({ c with faults := fs }, false)
      | some _ :: fs => ({ c with faults := fs, bad := true }, c.mask.bad)
  else ({ c with fail := true }, (c.mask.bad && c.bad) || c.mask.fail)

def Core.settle (r : Core × Bool) : Core × Bool :=
  if r.1.unit && !r.2 && (!r.1.bad && !r.1.fail) then
    match r.1.faults with
    | [] => r
    | none :: fs => ({ r.1 with faults := fs }, false)
    | some _ :: fs => ({ r.1 with faults := fs, bad := true }, false)
  else r

def Core.step (c : Core) (empty : Bool) : Core × Bool := Core.settle (c.act empty)

theorem settle_core (r : Stream × Bool) :
    ((Stream.settle r).1.core, (Stream.settle r).2) = Core.settle (r.1.core, r.2) := by
  obtain ⟨⟨out, faults, bad, fail, mask, format, unit⟩, b⟩ := r
  cases bad <;> cases fail <;> cases unit <;> cases b <;> try rfl
  rcases faults with _ | ⟨_ | k, fs⟩ <;> rfl

def Core.run (c : Core) : List Bool → Core × Bool
  | [] => (c, false)
  | e :: es =>
    match c.step e with
    | (c, true) => (c, true)
    | (c, false) => c.run es

def opText (f : Format) : Op → Option Str
  | .raw t => some t
  | .fmt g => some (g f)
  | .flush => none

theorem put_core (s : Stream) (hg : s.good = true) (t : Str) :
    ((Stream.after (s.put t)).1.core, (Stream.after (s.put t)).2) = s.core.act t.isEmpty := by
  obtain ⟨hb, hf⟩ := good_iff.1 hg
  cases t with
  | nil => simp [Stream.put, Stream.after, Core.act, Stream.core, hb, hf]
  | cons c t =>
    unfold Core.act Stream.put
    simp only [Stream.core, hb, hf, Bool.not_false, Bool.and_self, if_true, List.isEmpty_cons, Bool.false_eq_true, if_false]
    cases hfl : s.faults with
    | nil => simp [Stream.after, hb, hf, hfl]
    | cons x fs =>
      cases x with
      | none => simp [Stream.after, hb, hf]
      | some k => simp [Stream.after, Stream.throws, hf]

theorem act_core (s : Stream) {op : Op} {t : Str} (ht : opText s.format op = some t) :
    ((op.act s).1.core, (op.act s).2) = s.core.act t.isEmpty := by
  unfold Op.act
  cases hg : s.good with
  | true =>
    simp only [if_true]
    cases op with
    | raw t' =>
      cases ht
      exact put_core s hg t
    | fmt f =>
      cases ht
      exact put_core { s with format := { s.format with width := 0 } } hg (f s.format)
    | flush => cases ht
  | false =>
    simp only [Bool.false_eq_true, if_false]
    have : (!s.bad && !s.fail) = false := hg
    unfold Core.act
    simp only [Stream.core, this, Bool.false_eq_true, if_false, Stream.throws, Bool.and_true]

theorem run_core (s : Stream) {op : Op} {t : Str} (ht : opText s.format op = some t) :
    ((op.run s).1.core, (op.run s).2) = s.core.step t.isEmpty := by
  unfold Op.run Core.step
  rw [settle_core, act_core s ht]

theorem pad_ne (f : Format) {a b : Str} (h : b ≠ []) : f.pad a b ≠ [] := by
  unfold Format.pad
  cases f.adjust <;> simp [h]

theorem toDigits_ne (b n : Nat) : Nat.toDigits b n ≠ [] := by
  intro h
  have := congrArg List.length h
  have h1 := Nat.length_toDigits_pos (b := b) (n := n)
  rw [this] at h1
  exact absurd h1 (by simp)

theorem int_ne (f : Format) (bits : Nat) (z : Int) : Format.int bits z f ≠ [] := by
  have hn : ∀ n, Format.nat n f ≠ [] := by
    intro n
    unfold Format.nat
    refine pad_ne f ?_
    unfold Format.digits
    cases f.base <;> simp [toDigits_ne]
  unfold Format.int
  split
  · exact pad_ne f (toDigits_ne _ _)
  · exact hn _

theorem colour_core (s : Stream) (c : Color) :
    ((runOps s (colour c)).1.core, (runOps s (colour c)).2) = s.core.run [false, false, false] := by
  have e : ∀ {t : Str}, t ≠ [] → t.isEmpty = false := by
    intro t h; cases t with
    | nil => exact absurd rfl h
    | cons _ _ => rfl
  unfold colour
  simp only [runOps, Core.run]
  have h1 := run_core s (op := .fmt (Format.text (ch! "\x1b["))) rfl
  rw [e (show Format.text (ch! "\x1b[") s.format ≠ [] from pad_ne _ (by simp))] at h1
  rw [← h1]
  rcases (Op.fmt (Format.text (ch! "\x1b["))).run s with ⟨s1, _ | _⟩
  · simp only
    have h2 := run_core s1 (op := .fmt (Format.int 32 c.code)) rfl
    rw [e (int_ne _ _ _)] at h2
    rw [← h2]
    rcases (Op.fmt (Format.int 32 c.code)).run s1 with ⟨s2, _ | _⟩
    · simp only
      have h3 := run_core s2 (op := .fmt (Format.text (ch! "m"))) rfl
      rw [e (show Format.text (ch! "m") s2.format ≠ [] from pad_ne _ (by simp))] at h3
      rw [← h3]
      rcases (Op.fmt (Format.text (ch! "m"))).run s2 with ⟨s3, _ | _⟩ <;> rfl
    · rfl
  · rfl

/-- How a coloured write ends. -/
def Core.write (c : Core) (empty : Bool) : End :=
  match c.run [false, false, false] with
  | (_, true) => .threw
  | (c, false) =>
    match c.run [empty] with
    | (c, body) =>
      match c.run [false, false, false] with
      | (_, reset) => if body && reset then .terminated else if body || reset then .threw else .returned

theorem write_core (s : Stream) (c : Color) (m : Str) (hc : c.colored = true) :
    (write s c m).2 = s.core.write m.isEmpty := by
  unfold write Core.write
  rw [if_pos hc, ← colour_core s c]
  rcases runOps s (colour c) with ⟨s1, _ | _⟩
  · simp only
    have hb : ((runOps s1 [.raw m]).1.core, (runOps s1 [.raw m]).2) = s1.core.run [m.isEmpty] := by
      simp only [runOps, Core.run]
      rw [← run_core s1 (op := .raw m) rfl]
      rcases (Op.raw m).run s1 with ⟨s2, _ | _⟩ <;> rfl
    rw [← hb]
    rcases runOps s1 [.raw m] with ⟨s2, b⟩
    simp only
    rw [← colour_core s2 Color.reset]
  · rfl

theorem act_again {c c' : Core} {e e' : Bool} (h : c.act e = (c', true)) : (c'.act e').2 = true := by
  unfold Core.act at h
  split at h
  · split at h
    · cases h
    · split at h
      · cases h
      · cases h
      · simp only [Prod.mk.injEq] at h
        obtain ⟨h1, h2⟩ := h
        subst h1
        simp [Core.act, h2]
  · simp only [Prod.mk.injEq] at h
    obtain ⟨h1, h2⟩ := h
    subst h1
    simp only [Bool.or_eq_true, Bool.and_eq_true] at h2
    rcases h2 with h2 | h2
    · simp [Core.act, h2]
    · simp [Core.act, h2]

theorem settle_true (r : Core × Bool) (h : (Core.settle r).2 = true) : Core.settle r = r := by
  unfold Core.settle at h ⊢
  split
  · rename_i hc
    rw [if_pos hc] at h
    split at h
    · rfl
    · cases h
    · cases h
  · rfl

theorem settle_of_true (r : Core × Bool) (h : r.2 = true) : Core.settle r = r := by
  unfold Core.settle
  rw [if_neg (by simp [h])]

theorem step_again {c c' : Core} {e e' : Bool} (h : c.step e = (c', true)) : (c'.step e').2 = true := by
  unfold Core.step at h ⊢
  have h2 := settle_true _ (by rw [h])
  rw [h] at h2
  have := act_again (e' := e') h2.symm
  rw [settle_of_true _ this]
  exact this

/-- The reset sequence fails as well if the text did, so the process ends exactly if the text throws. -/
theorem core_write_iff (c : Core) (empty : Bool) :
    c.write empty = .terminated ↔ ∃ c', c.run [false, false, false] = (c', false) ∧ (c'.step empty).2 = true := by
  unfold Core.write
  rcases c.run [false, false, false] with ⟨c1, _ | _⟩
  · simp only [Prod.mk.injEq, and_true, exists_eq_left']
    cases hb : (c1.step empty).2 with
    | true =>
      have hs : c1.step empty = ((c1.step empty).1, true) := by rw [← hb]
      have hr : ((c1.step empty).1.run [false, false, false]).2 = true := by
        have := step_again (e' := false) hs
        rw [Core.run]
        rcases hx : (c1.step empty).1.step false with ⟨c2, _ | _⟩
        · rw [hx] at this; cases this
        · rfl
      have hrun : c1.run [empty] = ((c1.step empty).1, true) := by rw [Core.run, hs]
      rw [hrun]
      simp [hr]
    | false =>
      have hs : c1.step empty = ((c1.step empty).1, false) := by rw [← hb]
      have hrun : c1.run [empty] = ((c1.step empty).1, false) := by rw [Core.run, hs]; rfl
      rw [hrun]
      simp only [Bool.false_and, Bool.false_eq_true, if_false, Bool.false_or, iff_false]
      cases ((c1.step empty).1.run [false, false, false]).2 <;> simp
  · simp

theorem settle_core_thrown (r : Core × Bool) : (Core.settle r).2 = r.2 := by
  unfold Core.settle
  split
  · rename_i hc
    simp only [Bool.and_eq_true, Bool.not_eq_true'] at hc
    split
    · rfl
    · exact hc.1.2.symm
    · exact hc.1.2.symm
  · rfl

/-- Whether the text throws. -/
def Core.throwsText (c : Core) (empty : Bool) : Bool :=
  match c.run [false, false, false] with
  | (c', false) => (c'.act empty).2
  | (_, true) => false

theorem core_write_iff' (c : Core) (empty : Bool) : c.write empty = .terminated ↔ c.throwsText empty = true := by
  rw [core_write_iff]
  unfold Core.throwsText
  rcases c.run [false, false, false] with ⟨c1, _ | _⟩
  · simp only [Prod.mk.injEq, and_true, exists_eq_left']
    unfold Core.step
    rw [settle_core_thrown]
  · simp

theorem core_write_terminated (c : Core) (empty : Bool) (hu : c.unit = false) :
    c.write empty = .terminated ↔ c.bad = false ∧ c.fail = false ∧
      ((c.mask.bad = true ∧ empty = false ∧ ∃ k rest, c.faults = none :: none :: none :: some k :: rest) ∨
       (c.mask.bad = false ∧ c.mask.fail = true ∧ ∃ k rest, c.faults = none :: none :: some k :: rest)) := by
  obtain ⟨faults, bad, fail, ⟨mb, mf⟩, unit⟩ := c
  simp only at hu
  subst hu
  rw [core_write_iff']
  cases bad
  · cases fail
    · rcases faults with _ | ⟨_ | _, _ | ⟨_ | _, _ | ⟨_ | _, _ | ⟨_ | _, _⟩⟩⟩⟩ <;>
        cases mb <;> cases mf <;> cases empty <;> first
        | exact iff_of_false (ne_of_beq_false rfl) (by simp)
        | exact iff_of_true rfl (by simp)
    · refine iff_of_false ?_ (by simp)
      cases mb <;> cases mf <;> simp [Core.throwsText, Core.run, Core.step, Core.act, Core.settle]
  · refine iff_of_false ?_ (by simp)
    cases mb <;> cases mf <;> simp [Core.throwsText, Core.run, Core.step, Core.act, Core.settle]

set_option maxHeartbeats 2000000 in
theorem core_write_terminated_unit (c : Core) (empty : Bool) (hu : c.unit = true) :
    c.write empty = .terminated ↔ c.bad = false ∧ c.fail = false ∧
      ((c.mask.bad = true ∧ empty = false
          ∧ ∃ k rest, c.faults = none :: none :: none :: none :: none :: none :: some k :: rest) ∨
       ((c.mask.bad = true ∨ c.mask.fail = true)
          ∧ ∃ k rest, c.faults = none :: none :: none :: none :: none :: some k :: rest) ∨
       (c.mask.bad = false ∧ c.mask.fail = true ∧ ∃ k rest, c.faults = none :: none :: none :: none :: some k :: rest)) := by
  obtain ⟨faults, bad, fail, ⟨mb, mf⟩, unit⟩ := c
  simp only at hu
  subst hu
  rw [core_write_iff']
  cases bad
  · cases fail
    · rcases faults with _ | ⟨_ | _, _ | ⟨_ | _, _ | ⟨_ | _, _ | ⟨_ | _, _ | ⟨_ | _, _ | ⟨_ | _, _ | ⟨_ | _, _⟩⟩⟩⟩⟩⟩⟩ <;>
        cases mb <;> cases mf <;> cases empty <;> first
        | exact iff_of_false (ne_of_beq_false rfl) (by simp)
        | exact iff_of_true rfl (by simp)
    · refine iff_of_false ?_ (by simp)
      cases mb <;> cases mf <;> simp [Core.throwsText, Core.run, Core.step, Core.act, Core.settle]
  · refine iff_of_false ?_ (by simp)
    cases mb <;> cases mf <;> simp [Core.throwsText, Core.run, Core.step, Core.act, Core.settle]

theorem emit_terminated (s : Stream) (sink : Console.Sink) (tty : Bool) (severity : Int) (m : Str) :
    (emit sink tty severity m s).2 = .terminated ↔
      sink.filter severity ≠ .deny ∧ tty = true ∧ sink.mapping severity ≠ ⟨0, 39⟩ ∧
        s.core.write m.isEmpty = .terminated := by
  have he : ∀ r : Stream × Bool, (ending r).2 ≠ .terminated := by
    intro r
    unfold ending
    cases r.2 <;> simp
  have h1 : tty = true → (sink.mapping severity).colored = true → (emit sink tty severity m s).2 = .terminated →
      s.core.write m.isEmpty = .terminated := by
    intro ht hc
    rw [← write_core s _ m hc]
    unfold emit
    split
    · intro h; cases h
    · rw [if_pos ht]
      rcases write s (sink.mapping severity) m with ⟨s1, e⟩
      cases e
      · intro h; exact absurd h (he _)
      · exact id
      · exact id
  constructor
  · intro h
    have hd : sink.filter severity ≠ .deny := by
      intro hd
      simp only [emit, hd] at h
      cases h
    have ht : tty = true := by
      cases tty with
      | true => rfl
      | false =>
        unfold emit at h
        split at h
        · cases h
        · exact absurd h (he _)
    have hc : (sink.mapping severity).colored = true := by
      cases hc : (sink.mapping severity).colored with
      | true => rfl
      | false =>
        unfold emit at h
        split at h
        · cases h
        · rw [if_pos ht] at h
          unfold write at h
          rw [hc] at h
          simp only [Bool.false_eq_true, if_false] at h
          unfold ending at h
          cases hx : (runOps s [.raw m]).2 <;> rw [hx] at h <;> simp at h
          exact absurd h (he _)
    exact ⟨hd, ht, (colored_iff _).1 hc, h1 ht hc h⟩
  · rintro ⟨hd, ht, hc, h⟩
    have hc := (colored_iff _).2 hc
    rw [← write_core s _ m hc] at h
    unfold emit
    split
    · rename_i hx; exact absurd hx hd
    · rw [if_pos ht]
      rcases hw : write s (sink.mapping severity) m with ⟨s1, e⟩
      rw [hw] at h
      simp only at h
      rw [h]

end Blackhole.Ostream
