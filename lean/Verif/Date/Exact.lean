import Verif.Date.Props

/-! # The text of a timestamp for every pattern (C31) -/

namespace Blackhole.Date

open Rec Time

/-! ## Specification -/

/-- What the generator itself replaces. -/
inductive Mark where
  | micro
  | epoch
  deriving DecidableEq

/-- As written in the pattern. -/
def Mark.print : Mark → Str
  | .micro => ch! "%f"
  | .epoch => ch! "%s"

/-- A pattern cut at its marks: a text before each mark, and the text after the last. -/
structure Parts where
  marked : List (Str × Mark)
  last : Str
  deriving DecidableEq

/-- The pattern. -/
def Parts.print (p : Parts) : Str := (p.marked.map fun x => x.1 ++ x.2.print).flatten ++ p.last

/-- Neither mark occurs in the text. -/
def Free (s : Str) : Prop := ∀ (m : Mark) (a b : Str), s ≠ a ++ m.print ++ b

/-- There are no marks between the marks. -/
def Parts.Cut (p : Parts) : Prop := (∀ x ∈ p.marked, Free x.1) ∧ Free p.last

/-- What `strftime` leaves in a buffer of 1024 characters, for a text up to its first NUL. -/
def buffered (libc : Libc) (tm : Tm) (s : Str) : Except Exc Str :=
  match libc.strftime (s.takeWhile (· ≠ '\x00')) tm with
  | .error u => .error (.ub u)
  | .ok t => .ok (if t.length < 1024 then t else [])

/-- Texts through `strftime`, `%f` six digits or more, `%s` the result of `mktime`, which may change the time for all that
follows. -/
def expand (libc : Libc) (usec : Nat) : Tm → List (Str × Mark) → Str → Except Exc Str
  | tm, [], last => if last = [] then .ok [] else buffered libc tm last
  | tm, (s, .micro) :: rest, last => do
    let t ← buffered libc tm s
    let r ← expand libc usec tm rest last
    pure (t ++ zeroPad 6 usec ++ r)
  | tm, (s, .epoch) :: rest, last => do
    let t ← buffered libc tm s
    let r ← expand libc usec (libc.mktime tm).2 rest last
    pure (t ++ StringFmt.decimalText (libc.mktime tm).1 ++ r)

/-! ## Proofs -/

theorem Free.tail {c : Char} {s : Str} (h : Free (c :: s)) : Free s := fun m a b e => h m (c :: a) b (by simp [e])

theorem Free.head {c d : Char} {s : Str} (h : Free (c :: d :: s)) : c = '%' → d ≠ 'f' ∧ d ≠ 's' := by
  rintro rfl
  constructor
  · rintro rfl; exact h .micro [] s rfl
  · rintro rfl; exact h .epoch [] s rfl

theorem free_nil : Free [] := by
  intro m a b e
  cases m <;> simp [Mark.print] at e

/-- A text is free if it does not begin with a mark and its rest is free. -/
theorem free_cons {c : Char} {s : Str} (h1 : ∀ (m : Mark) (b : Str), c :: s ≠ m.print ++ b) (h2 : Free s) : Free (c :: s) := by
  intro m a b e
  cases a with
  | nil => exact h1 m b (by simpa using e)
  | cons d a =>
    simp only [List.cons_append, List.cons.injEq] at e
    exact h2 m a b e.2

/-- `generator_t::token_t` for a mark. -/
private def Mark.tok : Mark → Tok
  | .micro => .usecond
  | .epoch => .epoch

theorem scan_step {c : Char} {s : Str} (l : Str) (h : ∀ (m : Mark) (b : Str), c :: s ≠ m.print ++ b) :
    scan l (c :: s) = scan (l ++ [c]) s := by
  rw [scan.eq_4]
  · intro t e1 e2; exact h .micro t (by simp [Mark.print, e1, e2])
  · intro t e1 e2; exact h .epoch t (by simp [Mark.print, e1, e2])

theorem scan_free_mark (m : Mark) (rest : Str) (s : Str) : ∀ l : Str, Free s →
    scan l (s ++ m.print ++ rest) = .literal (l ++ s) :: m.tok :: scan [] rest := by
  induction s with
  | nil => intro l _; cases m <;> simp [Mark.print, Mark.tok, scan]
  | cons c s ih =>
    intro l hf
    simp only [List.cons_append]
    rw [scan_step, ih _ hf.tail]
    · simp
    · intro m' b e
      cases s with
      | nil => cases m <;> cases m' <;> simp [Mark.print] at e
      | cons d s =>
        have := hf.head
        cases m' <;> simp [Mark.print] at e <;> simp [e.1, e.2.1] at this

theorem scan_free (s : Str) : ∀ l : Str, Free s → scan l s = if l ++ s = [] then [] else [.literal (l ++ s)] := by
  induction s with
  | nil => intro l _; simp [scan]
  | cons c s ih =>
    intro l hf
    rw [scan_step, ih _ hf.tail]
    · simp
    · intro m b e
      exact hf m [] b (by simpa using e)

/-- The tokens of a pattern that is cut at its marks. -/
theorem scan_cut (last : Str) (hl : Free last) (marked : List (Str × Mark)) : (∀ x ∈ marked, Free x.1) →
    scan [] (Parts.print ⟨marked, last⟩)
      = (marked.map fun x => [Tok.literal x.1, x.2.tok]).flatten ++ if last = [] then [] else [.literal last] := by
  induction marked with
  | nil => intro _; simp [Parts.print, scan_free last [] hl]
  | cons x xs ih =>
    intro h
    have ih := ih fun y hy => h y (by simp [hy])
    have e : Parts.print ⟨x :: xs, last⟩ = x.1 ++ x.2.print ++ Parts.print ⟨xs, last⟩ := by simp [Parts.print]
    rw [e, scan_free_mark _ _ _ _ (h x (by simp)), ih]
    simp

/-- A text has no mark, or a leftmost one. -/
theorem leftmost (s : Str) : Free s ∨ ∃ (a : Str) (m : Mark) (b : Str), s = a ++ m.print ++ b ∧ Free a := by
  induction s with
  | nil => exact .inl free_nil
  | cons c s ih =>
    by_cases h : ∃ (m : Mark) (b : Str), c :: s = m.print ++ b
    · obtain ⟨m, b, e⟩ := h
      exact .inr ⟨[], m, b, by simpa using e, free_nil⟩
    · have h : ∀ (m : Mark) (b : Str), c :: s ≠ m.print ++ b := fun m b e => h ⟨m, b, e⟩
      rcases ih with hf | ⟨a, m, b, rfl, hf⟩
      · exact .inl (free_cons h hf)
      · refine .inr ⟨c :: a, m, b, by simp, free_cons ?_ hf⟩
        intro m' b' e
        exact h m' (b' ++ m.print ++ b) (by
          have := congrArg (· ++ (m.print ++ b)) e
          simpa using this)

theorem cut_exists (n : Nat) : ∀ s : Str, s.length < n → ∃ p : Parts, p.print = s ∧ p.Cut := by
  induction n with
  | zero => intro s h; omega
  | succ n ih =>
    intro s h
    rcases leftmost s with hf | ⟨a, m, b, rfl, hf⟩
    · exact ⟨⟨[], s⟩, by simp [Parts.print], by simp, hf⟩
    · have hm : m.print.length = 2 := by cases m <;> rfl
      obtain ⟨p, rfl, hp⟩ := ih b (by simp [hm] at h; omega)
      refine ⟨⟨(a, m) :: p.marked, p.last⟩, by simp [Parts.print], ?_, hp.2⟩
      intro x hx
      rcases List.mem_cons.1 hx with rfl | hx
      · exact hf
      · exact hp.1 x hx

theorem tokens_injective (l1 l2 : Str) (m1 : List (Str × Mark)) : ∀ m2 : List (Str × Mark),
    (m1.map fun x => [Tok.literal x.1, x.2.tok]).flatten ++ (if l1 = [] then [] else [Tok.literal l1])
      = (m2.map fun x => [Tok.literal x.1, x.2.tok]).flatten ++ (if l2 = [] then [] else [Tok.literal l2]) →
    m1 = m2 ∧ l1 = l2 := by
  induction m1 with
  | nil =>
    intro m2 h
    cases m2 with
    | nil =>
      refine ⟨rfl, ?_⟩
      by_cases h1 : l1 = [] <;> by_cases h2 : l2 = [] <;> simp_all
    | cons x xs => by_cases h1 : l1 = [] <;> simp [h1] at h
  | cons x xs ih =>
    intro m2 h
    cases m2 with
    | nil => by_cases h2 : l2 = [] <;> simp [h2] at h
    | cons y ys =>
      simp only [List.map_cons, List.flatten_cons, List.cons_append, List.nil_append, List.cons.injEq, Tok.literal.injEq] at h
      obtain ⟨e1, e2, h⟩ := h
      obtain ⟨rfl, rfl⟩ := ih ys h
      obtain ⟨a, m⟩ := x
      obtain ⟨b, k⟩ := y
      have : m = k := by cases m <;> cases k <;> first | rfl | cases e2
      simp only at e1
      simp [e1, this]

/-- There is only one way to cut. -/
theorem cut_unique {p q : Parts} (hp : p.Cut) (hq : q.Cut) (h : p.print = q.print) : p = q := by
  have h1 := scan_cut p.last hp.2 p.marked hp.1
  have h2 := scan_cut q.last hq.2 q.marked hq.1
  have : Parts.print ⟨p.marked, p.last⟩ = Parts.print ⟨q.marked, q.last⟩ := h
  rw [this, h2] at h1
  obtain ⟨e1, e2⟩ := tokens_injective _ _ _ _ h1
  cases p; cases q
  simp_all

theorem visit_buffered (fd : Fmt.Spec → Nat → Except Fmt.Err Str) (libc : Libc) (usec : Nat) (tm : Tm) (s : Str) :
    visit fd libc usec tm (.literal s) = (buffered libc tm s).map fun t => (t, tm) := by
  have : Config.cstr s = s.takeWhile (· ≠ '\x00') := rfl
  simp only [visit, buffered, this]
  cases libc.strftime (s.takeWhile (· ≠ '\x00')) tm <;> rfl

theorem run_cut (fd : Fmt.Spec → Nat → Except Fmt.Err Str) (libc : Libc) (usec : Nat) (hu : usec < 2 ^ 64)
    (hmk : ∀ tm, -2 ^ 63 ≤ (libc.mktime tm).1 ∧ (libc.mktime tm).1 < 2 ^ 63) (last : Str) (marked : List (Str × Mark)) :
    ∀ tm, run fd libc usec tm
      ((marked.map fun x => [Tok.literal x.1, x.2.tok]).flatten ++ if last = [] then [] else [.literal last])
      = expand libc usec tm marked last := by
  induction marked with
  | nil =>
    intro tm
    by_cases h : last = []
    · simp [h, run, expand]
    · simp only [List.map_nil, List.flatten_nil, List.nil_append, if_neg h, expand, run]
      rw [visit_buffered]
      cases buffered libc tm last <;> simp [Except.map]
  | cons x xs ih =>
    intro tm
    obtain ⟨s, m⟩ := x
    simp only [List.map_cons, List.flatten_cons, List.cons_append, List.nil_append, run]
    rw [visit_buffered]
    cases hb : buffered libc tm s with
    | error e => cases m <;> simp [Except.map, expand, hb, bind, Except.bind]
    | ok t =>
      cases m with
      | micro =>
        simp only [Except.map, show Mark.micro.tok = .usecond from rfl, visit, put_usec fd usec hu, ih, expand, hb, bind, Except.bind]
        cases expand libc usec tm xs last <;> simp [pure, Except.pure]
      | epoch =>
        simp only [Except.map, show Mark.epoch.tok = .epoch from rfl, visit, put_epoch fd _ (hmk tm).1 (hmk tm).2, ih, expand, hb, bind, Except.bind]
        cases expand libc usec (libc.mktime tm).2 xs last <;> simp [pure, Except.pure]

/-! ## The property -/

/-- **C31.** For every pattern, every C library and every time: the pattern can be cut at `%f` and `%s` in exactly one way,
and the text of a timestamp is what is between them through `strftime` and a buffer of 1024 characters, with the
microseconds and the seconds since the epoch in their places. (The hypotheses are the ranges of the types.) -/
theorem C31_exact (fd : Fmt.Spec → Nat → Except Fmt.Err Str) (libc : Libc) (usec : Nat) (hu : usec < 2 ^ 64)
    (hmk : ∀ tm, -2 ^ 63 ≤ (libc.mktime tm).1 ∧ (libc.mktime tm).1 < 2 ^ 63) (pattern : Str) :
    ∃ p : Parts, p.print = pattern ∧ p.Cut ∧ (∀ q : Parts, q.print = pattern → q.Cut → q = p) ∧
      ∀ tm, generate fd libc pattern tm usec = expand libc usec tm p.marked p.last := by
  obtain ⟨p, rfl, hp⟩ := cut_exists (pattern.length + 1) pattern (by omega)
  refine ⟨p, rfl, hp, fun q hq hc => cut_unique hc hp hq, fun tm => ?_⟩
  simp only [generate, tokenize]
  rw [show p.print = Parts.print ⟨p.marked, p.last⟩ from rfl, scan_cut p.last hp.2 p.marked hp.1]
  exact run_cut fd libc usec hu hmk p.last p.marked tm

/-! An escaped percent sign before an `f`: it is cut there, and `strftime` gets half of a conversion. -/

private def halves : Libc where
  gmtime_r := Time.gmtime
  localtime_r := Time.gmtime
  timezone := 0
  tzname := []
  strftime := fun s _ => .ok s
  mktime := fun tm => (-5, { tm with sec := 7 })

example (fd : Fmt.Spec → Nat → Except Fmt.Err Str) (tm : Tm) :
    (⟨[(ch! "a%", .micro), (ch! " ", .epoch)], ch! "!"⟩ : Parts).print = ch! "a%%f %s!"
    ∧ generate fd halves (ch! "a%%f %s!") tm 42 = .ok (ch! "a%000042 -5!") := by
  refine ⟨by decide, ?_⟩
  obtain ⟨p, h1, h2, h3, h4⟩ := C31_exact fd halves 42 (by omega) (by intro tm; simp [halves]) (ch! "a%%f %s!")
  have hf : ∀ s : Str, 's' ∉ s → 'f' ∉ s → Free s := by
    intro s hs hf m a b e
    cases m <;> simp [Mark.print] at e <;> subst e <;> simp at hs hf
  have := h3 ⟨[(ch! "a%", .micro), (ch! " ", .epoch)], ch! "!"⟩ (by decide)
    ⟨by intro x hx; simp at hx; rcases hx with rfl | rfl <;> exact hf _ (by decide) (by decide), hf _ (by decide) (by decide)⟩
  rw [h4, ← this]
  have h6 : zeroPad 6 42 = ch! "000042" := by decide
  simp [expand, buffered, halves, h6, StringFmt.decimalText, bind, Except.bind, pure, Except.pure]
  decide

end Blackhole.Date
