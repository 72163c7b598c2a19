import Verif.ProcName.Model
import Verif.StringFmt.Props

/-! # C106: the name of the process -/

namespace Blackhole.ProcName

/-! ## Specification -/

/-- There is a C string `t` at `p`. -/
def TextAt (m : Mem) (p : Ptr) (t : Str) : Prop :=
  ∃ before behind, m p.block = some (before ++ t ++ '\x00' :: behind) ∧ before.length = p.off ∧ '\x00' ∉ t

/-- There are characters `t` at `p`. -/
def CharsAt (m : Mem) (p : Ptr) (t : Str) : Prop :=
  ∃ before behind, m p.block = some (before ++ t ++ behind) ∧ before.length = p.off

/-- `t` is what follows the last slash of a path, or all of it. -/
def LastPart (path t : Str) : Prop := '/' ∉ t ∧ (path = t ∨ ∃ dir, path = dir ++ '/' :: t)

/-- What an operation shows if the name is `t`. -/
def Op.shows (t : Str) : Op → List Out
  | .print => [.printed t]
  | .construct => [.identity t]
  | _ => []

/-- The operation does not touch a block that has the characters `b`. -/
def Op.Leaves (block : Nat) (b : Str) : Op → Prop
  | .memory m => m block = some b
  | _ => True

/-- The operation uses the name. -/
def Op.Uses : Op → Prop
  | .print => True
  | .construct => True
  | _ => False

/-! ## Lemmas -/

theorem takeWhile_text {t behind : Str} (h : '\x00' ∉ t) : (t ++ '\x00' :: behind).takeWhile (· ≠ '\x00') = t := by
  induction t with
  | nil => simp
  | cons c t ih =>
    simp only [List.mem_cons, not_or] at h
    rw [List.cons_append, List.takeWhile_cons]
    simp only [Ne.symm h.1, ne_eq, not_false_iff, decide_true, if_true]
    exact congrArg _ (ih h.2)

theorem cstring_iff {m : Mem} {p : Ptr} {t : Str} : m.cstring p = .ok t ↔ TextAt m p t := by
  unfold Mem.cstring TextAt
  constructor
  · intro h
    split at h
    · cases h
    · next b hb =>
      split at h
      · next hin =>
        cases h
        have hlen : p.off ≤ b.length := by
          rcases Nat.lt_or_ge b.length p.off with hlt | hge
          · rw [List.drop_eq_nil_of_le (by omega)] at hin; cases hin
          · exact hge
        obtain ⟨x, y, hxy, hx⟩ : ∃ x y, b.drop p.off = x ++ '\x00' :: y ∧ '\x00' ∉ x := List.eq_append_cons_of_mem hin
        refine ⟨b.take p.off, y, ?_, by rw [List.length_take]; omega, ?_⟩
        · rw [hb, hxy, takeWhile_text hx, List.append_assoc, ← hxy, List.take_append_drop]
        · rw [hxy, takeWhile_text hx]; exact hx
      · cases h
  · rintro ⟨before, behind, hb, hoff, ht⟩
    have hd : (before ++ t ++ '\x00' :: behind).drop p.off = t ++ '\x00' :: behind := by
      rw [← hoff, List.append_assoc, List.drop_left]
    rw [hb]
    simp only [hd]
    rw [if_pos (by simp), takeWhile_text ht]

theorem chars_iff {m : Mem} {p : Ptr} {n : Nat} {t : Str} : m.chars p n = .ok t ↔ CharsAt m p t ∧ t.length = n := by
  unfold Mem.chars CharsAt
  constructor
  · intro h
    split at h
    · cases h
    · next b hb =>
      split at h
      · next hle =>
        cases h
        refine ⟨⟨b.take p.off, (b.drop p.off).drop n, ?_, by rw [List.length_take]; omega⟩, ?_⟩
        · rw [hb, List.append_assoc, List.take_append_drop, List.take_append_drop]
        · rw [List.length_take, List.length_drop]; omega
      · cases h
  · rintro ⟨⟨before, behind, hb, hoff⟩, rfl⟩
    rw [hb]
    simp only [List.length_append]
    rw [if_pos (by omega), ← hoff, List.append_assoc, List.drop_left, List.take_left]

theorem TextAt.chars {m : Mem} {p : Ptr} {t : Str} (h : TextAt m p t) : CharsAt m p t := by
  obtain ⟨x, y, h1, h2, -⟩ := h
  exact ⟨x, _, h1, h2⟩

theorem run_append (s : St) (a b : List Op) :
    s.run (a ++ b) = match s.run a with | .error u => .error u | .ok s => s.run b := by
  induction a generalizing s with
  | nil => rfl
  | cons op ops ih =>
    simp only [List.cons_append, St.run]
    cases s.step op with
    | error u => rfl
    | ok s => exact ih s

/-- The name is known, or will be at the next use. -/
def Named (s : St) (p : Ptr) (n : Nat) (t : Str) : Prop :=
  TextAt s.mem p t ∧ n = t.length ∧ (s.name = some (p, n) ∨ s.name = none ∧ s.short = p)

theorem Named.procname {s : St} {p : Ptr} {n : Nat} {t : Str} (h : Named s p n t) :
    s.procname = .ok ((p, n), { s with name := some (p, n) }) := by
  obtain ⟨h1, rfl, h2 | ⟨h2, rfl⟩⟩ := h
  · simp only [St.procname, h2]
    cases s
    simp_all
  · simp only [St.procname, h2, cstring_iff.2 h1]

theorem Named.print {s : St} {p : Ptr} {n : Nat} {t : Str} (h : Named s p n t) :
    s.step .print = .ok { s with name := some (p, n), shown := s.shown ++ [.printed t] } := by
  simp only [St.step, h.procname, cstring_iff.2 h.1]

theorem Named.construct {s : St} {p : Ptr} {n : Nat} {t : Str} (h : Named s p n t) :
    s.step .construct = .ok { s with name := some (p, n), shown := s.shown ++ [.identity t] } := by
  simp only [St.step, h.procname, chars_iff.2 ⟨h.1.chars, h.2.1.symm⟩]

theorem Named.run {s : St} {p : Ptr} {n : Nat} {t b : Str} (h : Named s p n t) (hb : s.mem p.block = some b) (ops : List Op)
    (hm : ∀ op ∈ ops, op.Leaves p.block b) (hp : s.name = none → ∀ q, Op.point q ∈ ops → q = p) :
    ∃ s', s.run ops = .ok s' ∧ s'.shown = s.shown ++ ops.flatMap (Op.shows t) := by
  have text : ∀ m : Mem, m p.block = some b → TextAt m p t := by
    obtain ⟨x, y, e, h1, h2⟩ := h.1
    intro m hm
    exact ⟨x, y, by rw [hm, ← hb, e], h1, h2⟩
  induction ops generalizing s with
  | nil => exact ⟨s, rfl, by simp⟩
  | cons op ops ih =>
    have hm' : ∀ op ∈ ops, op.Leaves p.block b := fun o ho => hm o (List.mem_cons_of_mem _ ho)
    cases op with
    | print =>
      obtain ⟨s', e1, e2⟩ := ih (s := { s with name := some (p, n), shown := s.shown ++ [.printed t] })
        ⟨h.1, h.2.1, .inl rfl⟩ hb hm' (fun he => by cases he)
      exact ⟨s', by simp only [St.run, h.print]; exact e1, by rw [e2]; simp [Op.shows]⟩
    | construct =>
      obtain ⟨s', e1, e2⟩ := ih (s := { s with name := some (p, n), shown := s.shown ++ [.identity t] })
        ⟨h.1, h.2.1, .inl rfl⟩ hb hm' (fun he => by cases he)
      exact ⟨s', by simp only [St.run, h.construct]; exact e1, by rw [e2]; simp [Op.shows]⟩
    | memory m =>
      have hmb : m p.block = some b := hm (.memory m) List.mem_cons_self
      obtain ⟨s', e1, e2⟩ := ih (s := { s with mem := m }) ⟨text m hmb, h.2.1, h.2.2⟩ hmb hm'
        (fun he q hq => hp he q (List.mem_cons_of_mem _ hq))
      exact ⟨s', by simp only [St.run, St.step]; exact e1, by rw [e2]; simp [Op.shows]⟩
    | point q =>
      have hn : Named { s with short := q } p n t := by
        refine ⟨h.1, h.2.1, ?_⟩
        rcases h.2.2 with h2 | ⟨h2, _⟩
        · exact .inl h2
        · exact .inr ⟨h2, hp h2 q List.mem_cons_self⟩
      obtain ⟨s', e1, e2⟩ := ih (s := { s with short := q }) hn hb hm'
        (fun he q hq => hp he q (List.mem_cons_of_mem _ hq))
      exact ⟨s', by simp only [St.run, St.step]; exact e1, by rw [e2]; simp [Op.shows]⟩

theorem lastPart_spec (path : Str) : LastPart path (lastPart path) := by
  have h := List.takeWhile_append_dropWhile (p := fun c : Char => decide (c ≠ '/')) (l := path.reverse)
  have hpath : path = (path.reverse.dropWhile fun c => decide (c ≠ '/')).reverse ++ lastPart path := by
    rw [lastPart, ← List.reverse_append, h, List.reverse_reverse]
  refine ⟨?_, ?_⟩
  · intro hin
    rw [lastPart, List.mem_reverse] at hin
    have := List.all_eq_true.1 (List.all_takeWhile (p := fun c : Char => decide (c ≠ '/')) (l := path.reverse)) _ hin
    simp at this
  · cases hd : path.reverse.dropWhile fun c => decide (c ≠ '/') with
    | nil => rw [hd] at hpath; exact .inl hpath
    | cons c d =>
      have hc : c = '/' := by
        have := List.head_dropWhile_not (p := fun c : Char => decide (c ≠ '/')) (l := path.reverse)
        have h2 := this (by rw [hd]; simp)
        simp only [hd, List.head_cons, decide_eq_false_iff_not, ne_eq, Classical.not_not] at h2
        exact h2
      subst hc
      rw [hd, List.reverse_cons, List.append_assoc] at hpath
      exact .inr ⟨_, hpath⟩

theorem lastPart_unique {path t u : Str} (ht : LastPart path t) (hu : LastPart path u) : t = u := by
  obtain ⟨ht1, ht2⟩ := ht
  obtain ⟨hu1, hu2⟩ := hu
  rcases ht2 with rfl | ⟨d, rfl⟩
  · rcases hu2 with h | ⟨e, h⟩
    · exact h
    · rw [h] at ht1; simp at ht1
  · rcases hu2 with h | ⟨e, h⟩
    · rw [← h] at hu1; simp at hu1
    · rcases List.append_eq_append_iff.1 h with ⟨a, h1, h2⟩ | ⟨a, h1, h2⟩
      · cases a with
        | nil => simpa using h2
        | cons c a =>
          rw [List.cons_append] at h2
          injection h2 with _ h2
          rw [h2] at ht1
          simp at ht1
      · cases a with
        | nil => simpa using h2.symm
        | cons c a =>
          rw [List.cons_append] at h2
          injection h2 with _ h2
          rw [h2] at hu1
          simp at hu1

theorem start_text {path behind t : Str} {others : Mem} (hz : '\x00' ∉ path) (ht : LastPart path t) :
    TextAt (St.start path behind others).mem (St.start path behind others).short t := by
  obtain rfl := lastPart_unique ht (lastPart_spec path)
  rcases ht.2 with h | ⟨d, h⟩
  · refine ⟨[], behind, ?_, ?_, ?_⟩
    · simp only [St.start, if_true, List.nil_append, ← h]
    · simp only [St.start, ← h]; simp
    · rw [← h]; exact hz
  · refine ⟨d ++ ['/'], behind, ?_, ?_, ?_⟩
    · simp only [St.start, if_true, List.append_assoc, List.singleton_append, Option.some.injEq]
      conv => lhs; rw [h]
      simp
    · have := congrArg List.length h
      simp only [List.length_append, List.length_cons] at this
      simp only [St.start, List.length_append, List.length_cons, List.length_nil]
      omega
    · intro hin
      rw [h] at hz
      simp [hin] at hz

/-! ## C106 -/

/-- **C106, the name.** As long as the program leaves its arguments alone and does not set
`program_invocation_short_name`, `{process:s}` and the identities of system log sinks are the last part of the path that the
process was started with, whatever else is in memory. -/
theorem C106_name (path behind t : Str) (others : Mem) (hz : '\x00' ∉ path) (ht : LastPart path t) (ops : List Op)
    (hm : ∀ op ∈ ops, op.Leaves 0 (path ++ '\x00' :: behind)) (hp : ∀ q, Op.point q ∉ ops) :
    ∃ s, (St.start path behind others).run ops = .ok s ∧ s.shown = ops.flatMap (Op.shows t) := by
  have h : Named (St.start path behind others) (St.start path behind others).short t.length t :=
    ⟨start_text hz ht, rfl, .inr ⟨rfl, rfl⟩⟩
  obtain ⟨s, e1, e2⟩ := h.run (b := path ++ '\x00' :: behind) rfl ops hm (fun _ q hq => absurd hq (hp q))
  exact ⟨s, e1, by rw [e2]; rfl⟩

/-- **C106, the first use decides.** The name is the one that `program_invocation_short_name` has when it is used for the first
time: setting it later changes nothing, as long as the memory of the first name is left alone. -/
theorem C106_first_use (path behind t b : Str) (others : Mem) (before after : List Op) (first : Op) (s : St)
    (hbefore : ∀ op ∈ before, ¬ op.Uses) (hrun : (St.start path behind others).run before = .ok s)
    (hfirst : first.Uses) (ht : TextAt s.mem s.short t) (hb : s.mem s.short.block = some b)
    (hafter : ∀ op ∈ after, op.Leaves s.short.block b) :
    ∃ s', (St.start path behind others).run (before ++ first :: after) = .ok s'
      ∧ s'.shown = first.shows t ++ after.flatMap (Op.shows t) := by
  have hnone : ∀ (ops : List Op) (a b : St), (∀ op ∈ ops, ¬ op.Uses) → a.name = none → a.shown = [] → a.run ops = .ok b →
      b.name = none ∧ b.shown = [] := by
    intro ops
    induction ops with
    | nil => intro a b _ h1 h2 e; cases e; exact ⟨h1, h2⟩
    | cons op ops ih =>
      intro a b hu h1 h2 e
      have hu' : ∀ op ∈ ops, ¬ op.Uses := fun o ho => hu o (List.mem_cons_of_mem _ ho)
      have hop := hu op List.mem_cons_self
      cases op with
      | print => exact absurd trivial hop
      | construct => exact absurd trivial hop
      | memory m => exact ih { a with mem := m } b hu' h1 h2 e
      | point q => exact ih { a with short := q } b hu' h1 h2 e
  obtain ⟨h1, h2⟩ := hnone before _ s hbefore rfl rfl hrun
  have hn : Named s s.short t.length t := ⟨ht, rfl, .inr ⟨h1, rfl⟩⟩
  rw [run_append, hrun]
  cases first with
  | print =>
    have hn' : Named { s with name := some (s.short, t.length), shown := s.shown ++ [.printed t] } s.short t.length t :=
      ⟨ht, rfl, .inl rfl⟩
    obtain ⟨s', e1, e2⟩ := hn'.run hb after hafter (fun he => by cases he)
    refine ⟨s', ?_, ?_⟩
    · simp only [St.run, hn.print]; exact e1
    · rw [e2, h2]; rfl
  | construct =>
    have hn' : Named { s with name := some (s.short, t.length), shown := s.shown ++ [.identity t] } s.short t.length t :=
      ⟨ht, rfl, .inl rfl⟩
    obtain ⟨s', e1, e2⟩ := hn'.run hb after hafter (fun he => by cases he)
    refine ⟨s', ?_, ?_⟩
    · simp only [St.run, hn.construct]; exact e1
    · rw [e2, h2]; rfl
  | memory m => cases hfirst
  | point q => cases hfirst

/-- **C106, the place is kept.** Whatever the program does after the first use, the name stays at its place and has its
length. -/
theorem C106_place (s s' : St) (p : Ptr) (n : Nat) (hs : s.name = some (p, n)) (ops : List Op) (h : s.run ops = .ok s') :
    s'.name = some (p, n) := by
  induction ops generalizing s with
  | nil => cases h; exact hs
  | cons op ops ih =>
    simp only [St.run] at h
    split at h
    · cases h
    · next s1 e =>
      refine ih s1 ?_ h
      cases op with
      | print =>
        simp only [St.step, St.procname, hs] at e
        split at e
        · cases e
        · cases e; rfl
      | construct =>
        simp only [St.step, St.procname, hs] at e
        split at e
        · cases e
        · cases e; rfl
      | memory m => cases e; exact hs
      | point q => cases e; exact hs

/-- **C106, a new title.** If the program overwrites the memory of its name with a title, `{process:s}` prints the whole title;
the system log shows as much of it as the name that was used first has characters. -/
theorem C106_title (s : St) (p : Ptr) (n : Nat) (hs : s.name = some (p, n)) (title : Str) (ht : TextAt s.mem p title) :
    s.step .print = .ok { s with shown := s.shown ++ [.printed title] }
    ∧ ∀ b, s.mem p.block = some b → p.off + n ≤ b.length →
      ∃ identity, s.step .construct = .ok { s with shown := s.shown ++ [.identity identity] }
        ∧ identity.length = n ∧ identity.takeWhile (· ≠ '\x00') = title.take n := by
  have hp : s.procname = .ok ((p, n), s) := by simp only [St.procname, hs]
  refine ⟨by simp only [St.step, hp, cstring_iff.2 ht], fun b hb hn => ?_⟩
  obtain ⟨x, y, e, hx, hz⟩ := ht
  rw [hb] at e
  cases e
  refine ⟨(title ++ '\x00' :: y).take n, ?_, ?_, ?_⟩
  · have : s.mem.chars p n = .ok ((title ++ '\x00' :: y).take n) := by
      simp only [Mem.chars, hb]
      rw [if_pos hn, ← hx, List.append_assoc, List.drop_left]
    simp only [St.step, hp, this]
  · rw [List.length_take]
    simp only [List.length_append] at hn ⊢
    omega
  · rcases Nat.lt_or_ge title.length n with hlt | hge
    · obtain ⟨k, rfl⟩ : ∃ k, n = title.length + (k + 1) := ⟨n - title.length - 1, by omega⟩
      rw [List.take_length_add_append, List.take_succ_cons, takeWhile_text hz, List.take_of_length_le (by omega)]
    · rw [List.take_append_of_le_length hge]
      have hz' : '\x00' ∉ title.take n := fun h => hz (List.mem_of_mem_take h)
      generalize title.take n = u at hz'
      induction u with
      | nil => rfl
      | cons c u ih =>
        simp only [List.mem_cons, not_or] at hz'
        rw [List.takeWhile_cons]
        simp only [Ne.symm hz'.1, ne_eq, not_false_iff, decide_true, if_true]
        exact congrArg _ (ih hz'.2)

/-- **C106, freed memory.** If the memory of the name is given back, the next use reads memory that is gone, although
`program_invocation_short_name` may point to a new name. -/
theorem C106_freed (s : St) (p : Ptr) (n : Nat) (hs : s.name = some (p, n)) (hf : s.mem p.block = none) :
    s.step .print = .error .dangling ∧ s.step .construct = .error .dangling := by
  constructor
  · simp only [St.step, St.procname, hs, Mem.cstring, hf]
  · simp only [St.step, St.procname, hs, Mem.chars, hf]

open Rec StringFmt in
/-- **C106, the text.** What is shown as printed is what a formatter with the pattern `{process:s}` gives. -/
theorem C106_prints (s s' : St) (t : Str) (h : s.step .print = .ok s') (hs : s'.shown = s.shown ++ [.printed t])
    (cd : Str → Option Nat) (sm : SevMap) (env : Env) (clock : Clock) (r : Record)
    (hpid : env.pid < 2 ^ 64) (hlwp : env.lwp < 2 ^ 64) (htid : r.tid < 2 ^ 64)
    (hname : ∀ s, env.threadName r.tid = some s → '\x00' ∉ s)
    (ht1 : -2 ^ 63 ≤ r.timestamp) (ht2 : r.timestamp < 2 ^ 63) :
    Prints cd sm { env with procname := t } clock (ch! "{process:s}") r (.ok t) := by
  have hz : '\x00' ∉ t := by
    simp only [St.step] at h
    split at h
    · cases h
    · next v s1 e =>
      have hshown : s1.shown = s.shown := by
        unfold St.procname at e
        split at e
        · cases e; rfl
        · split at e
          · cases e
          · cases e; rfl
      split at h
      · cases h
      · next u hu =>
        cases h
        rw [hshown] at hs
        have := List.append_cancel_left hs
        cases this
        obtain ⟨_, _, _, _, h⟩ := cstring_iff.1 hu
        exact h
  exact (C20_fields cd sm { env with procname := t } clock r hpid hlwp htid hz hname ht1 ht2).2.2.2.1

/-! ## Cases -/

namespace Example

def path : Str := ch! "/usr/bin/app"
def behind : Str := ch! "-v"
def others : Mem := fun b => if b = 1 then some (ch! "other\x00") else none
def start : St := St.start path behind others

example : LastPart path (ch! "app") := ⟨by decide, .inr ⟨ch! "/usr/bin", rfl⟩⟩

/-- The hypotheses of `C106_name`: two uses, memory changes meanwhile. -/
example : ∃ s, start.run [.print, .memory (fun b => if b = 0 then some (path ++ '\x00' :: behind) else none), .construct] = .ok s
    ∧ s.shown = [.printed (ch! "app"), .identity (ch! "app")] := by
  refine C106_name path behind (ch! "app") others (by decide) ⟨by decide, .inr ⟨ch! "/usr/bin", rfl⟩⟩ _ ?_ (by simp)
  intro op hop
  simp only [List.mem_cons, List.not_mem_nil, or_false] at hop
  rcases hop with rfl | rfl | rfl
  · trivial
  · rfl
  · trivial

/-- The hypotheses of `C106_first_use`: the name is set before the first use, and again later. -/
example : ∃ s, start.run ([.point ⟨1, 0⟩] ++ .print :: [.point ⟨0, 0⟩, .construct]) = .ok s
    ∧ s.shown = [.printed (ch! "other"), .identity (ch! "other")] := by
  refine C106_first_use path behind (ch! "other") (ch! "other\x00") others [.point ⟨1, 0⟩] [.point ⟨0, 0⟩, .construct] .print
    { start with short := ⟨1, 0⟩ } (by simp [Op.Uses]) rfl trivial ⟨[], [], rfl, rfl, by decide⟩ rfl ?_
  intro op hop
  simp only [List.mem_cons, List.not_mem_nil, or_false] at hop
  rcases hop with rfl | rfl <;> trivial

/-- The memory with the title `app: worker`, and with the title `w`. -/
def titled (t : Str) : Mem := fun b => if b = 0 then some (ch! "/usr/bin/" ++ t) else none

/-- The hypotheses of `C106_title`: the longer title is cut in the system log, the shorter one is followed by the rest of
the old name, behind a NUL. -/
example : ∃ s, start.run [.print, .memory (titled (ch! "app: w\x00")), .print, .construct,
      .memory (titled (ch! "w\x00p\x00")), .print, .construct] = .ok s
    ∧ s.shown = [.printed (ch! "app"), .printed (ch! "app: w"), .identity (ch! "app"), .printed (ch! "w"),
        .identity (ch! "w\x00p")] := ⟨_, rfl, rfl⟩

example : ∃ s, start.run [.print, .memory (titled (ch! "app: w\x00"))] = .ok s ∧ s.name = some (⟨0, 9⟩, 3)
    ∧ TextAt s.mem ⟨0, 9⟩ (ch! "app: w") := ⟨_, rfl, rfl, ch! "/usr/bin/", [], rfl, rfl, by decide⟩

/-- The hypotheses of `C106_freed`. -/
example : start.run [.point ⟨1, 0⟩, .print, .point ⟨0, 9⟩, .memory (titled (ch! "app\x00")), .print] = .error .dangling := rfl

end Example

end Blackhole.ProcName
