import Verif.DateOther.Lemmas

/-! # Properties of the portable generator (C32) -/

namespace Blackhole.DateOther

open Time Date

/-- What the tokens so far write, whatever follows. -/
def Writes (lib : Lib) (usec : Nat) (tm : Tm) (h : Handler) (out : Str) : Prop :=
  ∀ (more : List Str) (ts : List Tok), exec lib usec tm (h.literals ++ more) (h.tokens ++ ts) =
    prepend out (exec lib usec tm more ts)

variable {lib : Lib} {usec : Nat} {tm : Tm}

theorem prepend_prepend (a b : Str) (x : Except UB (Str × Tm × List Str)) :
    prepend a (prepend b x) = prepend (a ++ b) x := by
  cases x <;> simp [prepend]

theorem writes_nil : Writes lib usec tm {} [] := by
  intro more ts
  simp only [List.nil_append]
  cases exec lib usec tm more ts <;> simp [prepend]

theorem writes_literal {h : Handler} {out : Str} (hw : Writes lib usec tm h out) (s : Str) :
    Writes lib usec tm (h.literal s) (out ++ s) := by
  intro more ts
  have := hw (s :: more) (.literal :: ts)
  rw [exec, prepend_prepend] at this
  simpa [Handler.literal] using this

theorem exec_show {t : Tok} {s : Str} (h1 : t ≠ .literal) (h2 : t ≠ .epoch) (hs : show_ lib usec tm t = .ok s)
    (more : List Str) (ts : List Tok) : exec lib usec tm more (t :: ts) = prepend s (exec lib usec tm more ts) := by
  rw [exec]
  · rw [hs]
  · exact h2
  · exact fun _ => h1
  · exact fun _ _ _ => h1

theorem writes_show {h : Handler} {out s : Str} (hw : Writes lib usec tm h out) {t : Tok} (h1 : t ≠ .literal)
    (h2 : t ≠ .epoch) (hs : show_ lib usec tm t = .ok s) :
    Writes lib usec tm { h with tokens := h.tokens ++ [t] } (out ++ s) := by
  intro more ts
  have := hw more (t :: ts)
  rw [exec_show h1 h2 hs, prepend_prepend] at this
  simpa using this

theorem writes_epoch {h : Handler} {out : Str} (hw : Writes lib usec tm h out) {t : Int} (hm : lib.mktime tm = (t, tm)) :
    Writes lib usec tm { h with tokens := h.tokens ++ [.epoch] } (out ++ StringFmt.decimalText t) := by
  intro more ts
  have := hw more (.epoch :: ts)
  rw [exec] at this
  simp only [hm] at this
  rw [prepend_prepend] at this
  simpa [StringFmt.decimalText] using this

theorem writes_end {h : Handler} {out : Str} (hw : Writes lib usec tm h out) :
    Writes lib usec tm h.endPartial (out ++ h.litbuffer) ∧ h.endPartial.litbuffer = [] := by
  unfold Handler.endPartial
  split
  · rename_i e
    refine ⟨?_, e⟩
    rw [e, List.append_nil]
    exact hw
  · exact ⟨writes_literal hw h.litbuffer, rfl⟩

/-- The fields are those of the `n`th day since 1 January 1970, `s` seconds after midnight, before the year 10000. -/
structure Told (tm : Tm) (n s : Nat) : Prop where
  says : Says tm (dateOn n) s (weekdayOn n)
  year : tm.year = ((dateOn n).year : Int) - 1900
  early : (dateOn n).year < 10000

variable {names : Char → Str} {n s : Nat}

theorem year_from (n : Nat) : 1970 ≤ (dateOn n).year := by
  have := year_mono n 0 (by omega)
  simpa [dateOn] using this

theorem fullYear_ok (h : Told tm n s) : fullYear tm = .ok (zeroPad 4 (dateOn n).year) := by
  have := h.early
  rw [fullYear, h.year, show ((dateOn n).year : Int) - 1900 + 1900 = ((dateOn n).year : Nat) by omega]
  exact fill_zero (by omega) (by omega)

theorem lastTwo_ok (h : Told tm n s) : lastTwoDigits tm = .ok (zeroPad 2 ((dateOn n).year % 100)) := by
  have h1 := year_from n
  rw [lastTwoDigits, h.year, Int.tmod_eq_emod_of_nonneg (by omega),
    show (((dateOn n).year : Int) - 1900) % 100 = (((dateOn n).year % 100 : Nat) : Int) by omega]
  exact fill_zero (by omega) (by omega)

theorem firstTwo_ok (h : Told tm n s) : firstTwoDigits tm = .ok (zeroPad 2 ((dateOn n).year / 100)) := by
  have h1 := year_from n
  have h2 := h.early
  rw [firstTwoDigits, h.year, Int.tdiv_eq_ediv_of_nonneg (by omega),
    show (((dateOn n).year : Int) - 1900) / 100 + 19 = (((dateOn n).year / 100 : Nat) : Int) by omega]
  exact fill_zero (by omega) (by omega)

theorem month_ok (h : Told tm n s) : monthNumeric tm = .ok (zeroPad 2 (dateOn n).month) := by
  obtain ⟨h1, h2, h3, h4⟩ := dateOn_bounds n
  rw [monthNumeric, h.says.month, show ((dateOn n).month : Int) - 1 + 1 = ((dateOn n).month : Nat) by omega]
  exact fill_zero (by omega) (by omega)

theorem day_lt (n : Nat) : (dateOn n).day < 32 := by
  obtain ⟨h1, h2, h3, h4⟩ := dateOn_bounds n
  have := monthDays_le (dateOn n).year (dateOn n).month
  omega

theorem day_ok (h : Told tm n s) : dayNumeric '0' tm = .ok (zeroPad 2 (dateOn n).day) := by
  have := day_lt n
  rw [dayNumeric, h.says.day]
  exact fill_zero (by omega) (by omega)

theorem hour_eq (h : Told tm n s) : tm.hour = (s / 3600 : Nat) ∧ tm.min = (s % 3600 / 60 : Nat) ∧
    tm.sec = (s % 60 : Nat) ∧ s < 86400 := by
  obtain ⟨h1, ⟨h2, h2'⟩, ⟨h3, h3'⟩, ⟨h4, h4'⟩, -, -, -, -, -⟩ := h.says
  omega

theorem hour_ok (h : Told tm n s) : hour24 tm = .ok (zeroPad 2 (s / 3600)) := by
  have h1 := hour_eq h
  rw [hour24, h1.1]
  exact fill_zero (by omega) (by omega)

theorem hour12_ok (h : Told tm n s) : hour12 tm = .ok (zeroPad 2 (clock12 (s / 3600))) := by
  have h1 := hour_eq h
  have e : (if tm.hour.tmod 12 = 0 then 12 else tm.hour.tmod 12) = ((clock12 (s / 3600) : Nat) : Int) := by
    rw [h1.1, Int.tmod_eq_emod_of_nonneg (by omega)]
    unfold clock12
    split <;> split <;> omega
  have hc : clock12 (s / 3600) < 100 := by unfold clock12; split <;> omega
  simp only [hour12]
  rw [e]
  exact fill_zero (by omega) (by omega)

theorem minute_ok (h : Told tm n s) : minute tm = .ok (zeroPad 2 (s % 3600 / 60)) := by
  have h1 := hour_eq h
  rw [minute, h1.2.1]
  exact fill_zero (by omega) (by omega)

theorem second_ok (h : Told tm n s) : second tm = .ok (zeroPad 2 (s % 60)) := by
  have h1 := hour_eq h
  rw [second, h1.2.2.1]
  exact fill_zero (by omega) (by omega)

theorem sunday_ok (h : Told tm n s) : show_ lib usec tm .weekSunday = .ok (zeroPad 2 (weekdays 0 n)) := by
  have h1 := weekday_lt n
  have h2 := yearDay_lt n
  rw [sundays_eq]
  simp only [show_]
  rw [h.says.yearDay, h.says.weekday, Int.tdiv_eq_ediv_of_nonneg (by omega),
    show (((dateOn n).yearDay : Int) - weekdayOn n + 7) / 7 = (((dateOn n).yearDay + 7 - weekdayOn n) / 7 : Nat) by omega]
  exact fill_zero (by omega) (by omega)

theorem monday_ok (h : Told tm n s) : show_ lib usec tm .weekMonday = .ok (zeroPad 2 (weekdays 1 n)) := by
  have h1 := weekday_lt n
  have h2 := yearDay_lt n
  rw [mondays_eq]
  simp only [show_]
  rw [h.says.yearDay, h.says.weekday]
  by_cases h0 : weekdayOn n = 0
  · rw [if_pos (by omega), if_pos h0, Int.tdiv_eq_ediv_of_nonneg (by omega),
      show (((dateOn n).yearDay : Int) - weekdayOn n + 1) / 7 = (((dateOn n).yearDay + 1 - weekdayOn n) / 7 : Nat) by omega]
    exact fill_zero (by omega) (by omega)
  · rw [if_neg (by omega), if_neg h0, Int.tdiv_eq_ediv_of_nonneg (by omega),
      show (((dateOn n).yearDay : Int) - weekdayOn n + 8) / 7 = (((dateOn n).yearDay + 8 - weekdayOn n) / 7 : Nat) by omega]
    exact fill_zero (by omega) (by omega)

/-- A known conversion. -/
theorem writes_known {epoch : Int} (ht : Told tm n s) (hu : usec < 1000000) {h : Handler} {out : Str}
    (hw : Writes lib usec tm h out) (c : Char) (hc : c ∈ known) (hm : c = 's' → lib.mktime tm = (epoch, tm))
    (put : ∀ x ∈ needs c, lib.put x tm = .ok (names x)) :
    Writes lib usec tm (date c h) (out ++ h.litbuffer ++ meaning names epoch n s usec c) ∧ (date c h).litbuffer = [] := by
  obtain ⟨he, hb⟩ := writes_end hw
  have hd := day_lt n
  have hy := yearDay_lt n
  have hx : ∀ (t : Tok) (x : Str), t ≠ .literal → t ≠ .epoch → show_ lib usec tm t = .ok x →
      Writes lib usec tm (h.push t) (out ++ h.litbuffer ++ x) ∧ (h.push t).litbuffer = [] :=
    fun t x h1 h2 h3 => ⟨writes_show he h1 h2 h3, hb⟩
  have hjd : fill 3 '0' (tm.yday + 1) = .ok (zeroPad 3 ((dateOn n).yearDay + 1)) := by
    rw [ht.says.yearDay, show ((dateOn n).yearDay : Int) + 1 = ((dateOn n).yearDay + 1 : Nat) by omega]
    exact fill_zero (by omega) (by omega)
  have hed : dayNumeric ' ' tm = .ok (spacePad (dateOn n).day) := by
    rw [dayNumeric, ht.says.day]
    exact fill_ok ' ' (by omega) (by omega)
  have hus : fill 6 '0' (i32 usec) = .ok (zeroPad 6 usec) := by
    rw [show i32 usec = usec by unfold i32; omega]
    exact fill_zero (by omega) (by omega)
  simp only [known, List.mem_cons, List.not_mem_nil, or_false] at hc
  rcases hc with rfl | rfl | rfl | rfl | rfl | rfl | rfl | rfl | rfl | rfl | rfl | rfl | rfl | rfl | rfl | rfl | rfl | rfl |
    rfl | rfl | rfl | rfl | rfl | rfl | rfl | rfl | rfl
  · exact hx _ _ (by simp) (by simp) (fullYear_ok ht)
  · exact hx _ _ (by simp) (by simp) (lastTwo_ok ht)
  · exact hx _ _ (by simp) (by simp) (firstTwo_ok ht)
  · exact hx _ _ (by simp) (by simp) (month_ok ht)
  · exact hx _ _ (by simp) (by simp) (put _ (by decide))
  · exact hx _ _ (by simp) (by simp) (put _ (by decide))
  · exact hx _ _ (by simp) (by simp) (put _ (by decide))
  · exact hx _ _ (by simp) (by simp) (sunday_ok ht)
  · exact hx _ _ (by simp) (by simp) (monday_ok ht)
  · exact hx _ _ (by simp) (by simp) hjd
  · exact hx _ _ (by simp) (by simp) (day_ok ht)
  · exact hx _ _ (by simp) (by simp) hed
  · exact hx _ _ (by simp) (by simp) (put _ (by decide))
  · exact hx _ _ (by simp) (by simp) (put _ (by decide))
  · refine hx _ _ (by simp) (by simp) ?_
    simp [show_, seq, put 'a' (by decide), put 'b' (by decide), day_ok ht, hour_ok ht, minute_ok ht, second_ok ht,
      fullYear_ok ht, meaning]
  · refine hx _ _ (by simp) (by simp) ?_
    simp [show_, seq, day_ok ht, month_ok ht, lastTwo_ok ht, meaning]
  · refine hx _ _ (by simp) (by simp) ?_
    simp [show_, seq, day_ok ht, month_ok ht, fullYear_ok ht, meaning]
  · refine hx _ _ (by simp) (by simp) ?_
    simp [show_, seq, hour_ok ht, minute_ok ht, second_ok ht, meaning]
  · exact hx _ _ (by simp) (by simp) (put _ (by decide))
  · exact hx _ _ (by simp) (by simp) (put _ (by decide))
  · exact hx _ _ (by simp) (by simp) (hour_ok ht)
  · exact hx _ _ (by simp) (by simp) (hour12_ok ht)
  · exact hx _ _ (by simp) (by simp) (minute_ok ht)
  · exact hx _ _ (by simp) (by simp) (second_ok ht)
  · exact ⟨writes_epoch he (hm rfl), hb⟩
  · exact hx _ _ (by simp) (by simp) hus
  · exact hx _ _ (by simp) (by simp) (put _ (by decide))

/-- `%%` and the unknown conversions. -/
theorem date_unknown (epoch : Int) (h : Handler) (c : Char) (hc : c ∉ known) :
    date c h = h.literal (meaning names epoch n s usec c) := by
  by_cases h0 : c = '%'
  · subst h0; rfl
  simp only [known, List.mem_cons, List.not_mem_nil, or_false, not_or] at hc
  have e1 : date c h = h.literal ['%', c] := by
    simp only [date, time, common, through]
    repeat' split
    all_goals first | rfl | simp_all
  have e2 : meaning names epoch n s usec c = ['%', c] := by
    simp only [meaning]
    repeat' split
    all_goals first | rfl | simp_all
  rw [e1, e2]

theorem date_litbuffer (c : Char) (hc : c ∉ known) (h : Handler) : (date c h).litbuffer = h.litbuffer := by
  rw [date_unknown (names := fun _ => []) (n := 0) (s := 0) (usec := 0) 0 h c hc]
  rfl

theorem parse_char (h : Handler) (c : Char) (hc : c ≠ '%') (s : Str) : parse h (c :: s) = parse (h.partialLiteral [c]) s := by
  rw [parse]
  exact fun c' s' e => absurd e hc

theorem writes_parse {epoch : Int} (ht : Told tm n s) (hu : usec < 1000000) (tail : Str)
    (htail : tail = [] ∨ tail = ['%']) (items : List Item) : ∀ (h : Handler) (out : Str),
    Writes lib usec tm h out → (∀ i ∈ items, i.Valid) → InOrder items →
    (h.litbuffer ≠ [] → ∀ between x b, items = between ++ .conv x :: b → (∀ i ∈ between, ∀ y ∈ known, i ≠ .conv y) →
      x ∈ known) →
    (.conv 's' ∈ items → lib.mktime tm = (epoch, tm)) →
    (∀ c, .conv c ∈ items → ∀ x ∈ needs c, lib.put x tm = .ok (names x)) →
    Writes lib usec tm (parse h (print items ++ tail)) (out ++ h.litbuffer ++ text names epoch n s usec items ++ tail) := by
  induction items with
  | nil =>
    intro h out hw _ _ _ _ _
    simp only [print, text, List.nil_append, List.append_nil]
    rcases htail with rfl | rfl
    · rw [parse, List.append_nil]
      exact (writes_end hw).1
    · have : parse h ['%'] = (h.partialLiteral ['%']).endPartial := by simp [parse]
      rw [this]
      have := (writes_end (h := h.partialLiteral ['%']) (out := out) hw).1
      simpa [Handler.partialLiteral] using this
  | cons i is ih =>
    intro h out hw hv hin hpend hmk hput
    have hvs : ∀ j ∈ is, j.Valid := fun j hj => hv j (by simp [hj])
    have hins : InOrder is := fun a c between x b e => hin (i :: a) c between x b (by simp [e])
    have hmks : .conv 's' ∈ is → lib.mktime tm = (epoch, tm) := fun h => hmk (by simp [h])
    have hputs : ∀ c, .conv c ∈ is → ∀ x ∈ needs c, lib.put x tm = .ok (names x) := fun c h => hput c (by simp [h])
    cases i with
    | char c =>
      have hc : c ≠ '%' := hv (.char c) (by simp)
      simp only [print, List.cons_append]
      rw [parse_char h c hc]
      have := ih (h.partialLiteral [c]) out hw hvs hins
        (fun _ between x b e hb => hin [] c between x b (by simp [e]) hb) hmks hputs
      simpa [Handler.partialLiteral, text] using this
    | conv c =>
      simp only [print, List.cons_append, parse]
      by_cases hc : c ∈ known
      · obtain ⟨h1, h2⟩ := writes_known (epoch := epoch) ht hu hw c hc (fun e => hmk (by simp [e]))
          (hput c (by simp))
        have := ih (date c h) _ h1 hvs hins (fun h => absurd h2 h) hmks hputs
        rw [h2] at this
        simpa [text] using this
      · have hlit : h.litbuffer = [] := by
          by_cases hl : h.litbuffer = []
          · exact hl
          · exact absurd (hpend hl [] c is rfl (by simp)) hc
        have h1 := writes_literal hw (meaning names epoch n s usec c)
        rw [← date_unknown epoch h c hc] at h1
        have h2 := (date_litbuffer c hc h).trans hlit
        have := ih (date c h) _ h1 hvs hins (fun h => absurd h2 h) hmks hputs
        rw [h2] at this
        simpa [text, hlit] using this

theorem generate_of_writes {pattern out : Str} (hw : Writes lib usec tm (parse {} pattern) out) :
    generate lib pattern tm usec = .ok out := by
  have := hw [] []
  simp only [List.append_nil] at this
  simp [generate, this, exec, prepend]

/-- C32, partial. For every pattern and every moment from 1970 to 9999 the portable generator writes the pattern with each
conversion replaced by what it stands for; a lone percent sign at the end stands for itself. Missing: patterns with `%%` or
an unknown conversion after text, for which it is false, years after 9999, and a `mktime` that changes its argument. -/
theorem C32_expand_partial (lib : Lib) (tm : Tm) (names : Char → Str) (epoch : Int) (n s usec : Nat)
    (ht : Told tm n s) (hu : usec < 1000000) (items : List Item) (hv : ∀ i ∈ items, i.Valid)
    (hin : InOrder items) (hm : .conv 's' ∈ items → lib.mktime tm = (epoch, tm))
    (hput : ∀ c, .conv c ∈ items → ∀ x ∈ needs c, lib.put x tm = .ok (names x)) (tail : Str) (htail : tail = [] ∨ tail = ['%']) :
    generate lib (print items ++ tail) tm usec = .ok (text names epoch n s usec items ++ tail) := by
  have := writes_parse (epoch := epoch) ht hu tail htail items {} [] writes_nil hv hin (fun h => absurd rfl h) hm hput
  exact generate_of_writes (by simpa using this)

/-- C32 fails for an escaped percent sign after text: it is written in front of the text. -/
theorem C32_fails_percent (lib : Lib) (tm : Tm) (usec : Nat) (a b : Str) (ha : '%' ∉ a) (hb : '%' ∉ b) :
    generate lib (a ++ ch! "%%" ++ b) tm usec = .ok (ch! "%" ++ a ++ b) ∧
    (a ≠ [] → ch! "%" ++ a ++ b ≠ a ++ ch! "%" ++ b) := by
  have chars : ∀ (a s : Str) (h : Handler), '%' ∉ a → parse h (a ++ s) = parse (h.partialLiteral a) s := by
    intro a
    induction a with
    | nil => intro s h _; simp [Handler.partialLiteral]
    | cons c a ih =>
      intro s h hc
      simp at hc
      rw [List.cons_append, parse_char h c (fun e => hc.1 e.symm), ih _ _ hc.2]
      simp [Handler.partialLiteral]
  constructor
  · have e : parse {} (a ++ ch! "%%" ++ b) = (((({} : Handler).partialLiteral a).literal ['%']).partialLiteral b).endPartial := by
      rw [List.append_assoc, chars a _ _ ha]
      simp only [List.cons_append, List.nil_append, parse]
      have := chars b [] (date '%' (({} : Handler).partialLiteral a)) hb
      rw [List.append_nil] at this
      rw [this, parse]
      rfl
    refine generate_of_writes ?_
    rw [e]
    have h1 : Writes lib usec tm (({} : Handler).partialLiteral a) [] := writes_nil
    have h2 : Writes lib usec tm (((({} : Handler).partialLiteral a).literal ['%']).partialLiteral b) ['%'] :=
      writes_literal h1 ['%']
    have h3 := (writes_end h2).1
    simpa [Handler.partialLiteral, Handler.literal] using h3
  · intro hne h
    cases a with
    | nil => exact hne rfl
    | cons c a =>
      simp at h ha
      exact ha.1 h.1

/-- C32 fails for years after 9999: the generator writes in front of its buffer. -/
theorem C32_fails_late (lib : Lib) (tm : Tm) (usec : Nat) (h : 8100 ≤ tm.year) :
    generate lib (ch! "%Y") tm usec = .error .outOfBounds := by
  obtain ⟨y, hy⟩ : ∃ y : Nat, tm.year + 1900 = y := ⟨(tm.year + 1900).toNat, by omega⟩
  have : fullYear tm = .error .outOfBounds := by
    rw [fullYear, hy]
    exact fill_big '0' (by omega)
  simp [generate, parse, date, Handler.push, Handler.endPartial, exec, show_, this]

/-- C32 fails for years before 1900, which a caller may pass: 1899 is printed with a slash, and in the wrong century. -/
theorem C32_fails_early (lib : Lib) (tm : Tm) (usec : Nat) (h : tm.year = -1) :
    generate lib (ch! "%C%y") tm usec = .ok (ch! "190/") := by
  have h1 : firstTwoDigits tm = .ok (ch! "19") := by rw [firstTwoDigits, h]; rfl
  have h2 : lastTwoDigits tm = .ok (ch! "0/") := by rw [lastTwoDigits, h]; rfl
  simp [generate, parse, date, Handler.push, Handler.endPartial, exec, show_, h1, h2, prepend]

/-- C32. The default pattern of the formatters prints the same text as the other generator (C56), for every time that a
record can carry. -/
theorem C32_default (lib : Lib) (ns : Nat) (hns : ns < 2 ^ 63) :
    generate lib (ch! "%Y-%m-%d %H:%M:%S.%f") (Time.gmtime ((ns / 1000000000 : Nat) : Int)) (ns / 1000 % 1000000) =
      .ok (timeText ns) := by
  obtain ⟨h1, h2⟩ := C30_range (ns / 1000000000) (by omega)
  have hy := (year_bounds (ns / 1000000000 / 86400)).2
  have ht : Told (Time.gmtime ((ns / 1000000000 : Nat) : Int)) (ns / 1000000000 / 86400) (ns / 1000000000 % 86400) :=
    ⟨h1, h2, by omega⟩
  have := C32_expand_partial lib _ (fun _ => []) 0 _ _ (ns / 1000 % 1000000) ht (by omega)
    [.conv 'Y', .char '-', .conv 'm', .char '-', .conv 'd', .char ' ', .conv 'H', .char ':', .conv 'M', .char ':',
     .conv 'S', .char '.', .conv 'f']
    (by
      intro i hi
      simp at hi
      rcases hi with rfl | rfl | rfl | rfl | rfl | rfl | rfl | rfl | rfl | rfl | rfl | rfl | rfl <;> simp [Item.Valid])
    (by
      intro a c between x b e _
      have : Item.conv x ∈ [Item.conv 'Y', .char '-', .conv 'm', .char '-', .conv 'd', .char ' ', .conv 'H', .char ':',
          .conv 'M', .char ':', .conv 'S', .char '.', .conv 'f'] := by rw [e]; simp
      simp at this
      rcases this with rfl | rfl | rfl | rfl | rfl | rfl | rfl <;> decide)
    (by simp)
    (by
      intro c hc
      simp at hc
      rcases hc with rfl | rfl | rfl | rfl | rfl | rfl | rfl <;> simp [needs])
    [] (.inl rfl)
  have hp : print [.conv 'Y', .char '-', .conv 'm', .char '-', .conv 'd', .char ' ', .conv 'H', .char ':', .conv 'M',
      .char ':', .conv 'S', .char '.', .conv 'f'] ++ [] = ch! "%Y-%m-%d %H:%M:%S.%f" := by decide
  rw [hp] at this
  rw [this]
  have hz : zeroPad 4 (dateOn (ns / 1000000000 / 86400)).year = Nat.toDigits 10 (dateOn (ns / 1000000000 / 86400)).year := by
    have hl : ¬ (Nat.toDigits 10 (dateOn (ns / 1000000000 / 86400)).year).length ≤ 3 := by
      rw [Nat.length_toDigits_le_iff (by omega) (by omega)]
      have := year_from (ns / 1000000000 / 86400)
      omega
    unfold zeroPad
    rw [show 4 - (Nat.toDigits 10 (dateOn (ns / 1000000000 / 86400)).year).length = 0 by omega]
    rfl
  have e2 : ns / 1000000000 % 86400 % 60 = ns / 1000000000 % 60 := by omega
  simp [text, meaning, timeText, hz, e2]

/-! Thursday, 1 January 1970, a moment after noon. -/

example : generate { put := fun c _ => .ok (if c = 'a' then ch! "Thu" else ch! "Jan"), mktime := fun tm => (43201, tm) }
    (ch! "%c|%D %e week %U/%W day %j %I:%M %s %%%Q%y%") (Time.gmtime 43201) 7
    = .ok (ch! "Thu Jan 01 12:00:01 1970|01/01/70  1 week 00/00 day 001 12:00 43201%%Q 70%") := rfl

example : InOrder [.conv '%', .conv 'Q', .char 'a', .conv 'Y', .conv '%'] := by
  intro a c between x b e hb
  have hY : ∀ l : List Item, between ≠ .conv 'Y' :: l := fun l h => hb (.conv 'Y') (by rw [h]; simp) 'Y' (by decide) rfl
  rcases a with _ | ⟨_, _ | ⟨_, _ | ⟨_, _ | ⟨_, _ | ⟨_, a⟩⟩⟩⟩⟩ <;> simp at e
  rcases between with _ | ⟨i, l⟩
  · simp at e
    rw [← e.2.2.2.1]
    decide
  · simp at e
    exact absurd rfl (e.2.2.2.1 ▸ hY l)

example : weekdays 0 2 = 0 ∧ weekdays 0 3 = 1 ∧ weekdays 1 4 = 1 := by decide

end Blackhole.DateOther
