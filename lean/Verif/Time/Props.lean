import Verif.Time.Lemmas

/-!
# Properties of the calendar conversion (C30)
-/

namespace Blackhole.Time

/-- All fields but the year, for every time; the year is the right one up to the width of its field. -/
theorem gmtime_says (t : Nat) (ht : t < 2 ^ 64) :
    Says (gmtime t) (dateOn (t / 86400)) (t % 86400) (weekdayOn (t / 86400)) ∧
    (gmtime t).year = i32 (((dateOn (t / 86400)).year : Int) - 1900) ∧ 1970 ≤ (dateOn (t / 86400)).year := by
  have hu : u64 (t : Int) = t := u64_id (by omega) (by omega)
  have hn : t / 86400 ≤ lastDay := by unfold lastDay; omega
  obtain ⟨y, r, leap, hM, hg, hleap, hy⟩ := gauss_ok (t / 86400) hn
  obtain ⟨y', r', hM', hd⟩ := march_date (t / 86400)
  obtain ⟨rfl, rfl⟩ := march_unique hM hM'
  have hl : leapDay (y + 1) ≤ 1 := by unfold leapDay; split <;> omega
  have hr : r < 366 := by have := hM.2; omega
  have hyear : 1969 ≤ y := by
    have h1 := hM.1
    have h2 := hM.2
    have := before_succ y
    by_cases h : 1969 ≤ y
    · exact h
    · exfalso
      have h3 := before_mono (y := y) (z := 1969) (by omega)
      have : before 1969 = 719162 := by decide
      omega
  have hbig : y = 1969 → r ≥ 306 := by
    intro h
    subst h
    have h1 := hM.1
    have : before 1969 = 719162 := by decide
    omega
  obtain ⟨m1, m2, m3, m4, m5, m6, m7, m8, m9⟩ := mon_day ⟨r, hr⟩
  simp only at m1 m2 m3 m4 m5 m6 m7 m8 m9
  have hdays : (t : Int) / 86400 = ((t / 86400 : Nat) : Int) := by omega
  have hg' : gauss ((t : Int) / 86400) = { year := y, yday := r, leap } := by rw [hdays, hg]
  have hmon : u64 ((((r : Int) + 31) * 10).tdiv 306) = monOf r := by
    rw [Int.tdiv_eq_ediv_of_nonneg (by omega), u64_id (by omega) (by omega)]
    unfold monOf
    rw [show ((r : Int) + 31) * 10 = ((r + 31) * 10 : Nat) by omega]
    exact (Int.natCast_ediv _ _).symm
  have hmday : u64 (u64 (u64 (r : Int) - u64 (u64 (367 * (monOf r : Int)) / 12 - 30)) + 1) = dayOf r := by
    have e1 : (367 * (monOf r : Int)) / 12 = ((367 * monOf r / 12 : Nat) : Int) := by omega
    rw [u64_id (z := 367 * (monOf r : Int)) (by omega) (by omega), e1]
    unfold dayOf
    generalize 367 * monOf r / 12 = q at *
    rw [u64_id (z := (q : Int) - 30) (by omega) (by omega), u64_id (z := (r : Int)) (by omega) (by omega),
      u64_id (z := (r : Int) - ((q : Int) - 30)) (by omega) (by omega), u64_id (by omega) (by omega)]
    omega
  have hdate := hd
  unfold dateOf at hdate
  constructor
  · constructor
    case clock => simp only [gmtime, hu]; unfold i32; omega
    case hour => simp only [gmtime, hu]; unfold i32; omega
    case min => simp only [gmtime, hu]; unfold i32; omega
    case sec => simp only [gmtime, hu]; unfold i32; omega
    case day =>
      simp only [gmtime, hu, hg', hmon, hmday]
      rw [hdate]
      unfold i32
      split <;> simp only <;> omega
    case month =>
      simp only [gmtime, hu, hg', hmon]
      rw [hdate]
      unfold i32 u64
      by_cases h : r ≥ 306
      · rw [if_pos h, if_pos (by omega)]; simp only; omega
      · rw [if_neg h, if_neg (by omega)]; simp only; omega
    case yearDay =>
      simp only [gmtime, hu, hg']
      rw [hdate]
      unfold Date.yearDay
      by_cases h : r ≥ 306
      · rw [if_pos h, if_pos (by omega)]
        simp only
        have := m8 h
        rw [daysBefore_eq _ _ (by omega) (by omega), if_pos (by omega)]
        by_cases h12 : monOf r = 12
        · rw [if_pos h12] at this
          rw [if_pos (by omega)]; omega
        · rw [if_neg h12] at this
          rw [if_neg (by omega)]; omega
      · rw [if_neg h, if_neg (by omega)]
        simp only
        have := m9 (by omega)
        rw [daysBefore_eq _ _ (by omega) (by omega), if_neg (by omega)]
        rw [hleap (by omega)]
        omega
    case weekday =>
      simp only [gmtime, hu]
      rw [weekday_eq]
      unfold i32 u64
      unfold lastDay at hn
      omega
    case summer => rfl
  · constructor
    · simp only [gmtime, hu, hg']
      rw [hdate]
      by_cases h : r ≥ 306
      · rw [if_pos h, if_pos (by omega)]
        simp only
        rw [u64_id (z := (y : Int) + 1) (by omega) (by omega), u64_id (by omega) (by omega)]
        simp
      · rw [if_neg h, if_neg (by omega)]
        simp only
        rw [u64_id (by omega) (by omega)]
    · rw [hdate]
      split <;> simp only <;> omega

/-- C30. For every non-negative time whose year fits its field, `gmtime` yields the date, the time of day, the weekday and
the day of the year. -/
theorem C30_gmtime (t : Nat) (ht : t < 2 ^ 63) (hy : (dateOn (t / 86400)).year < 2 ^ 31 + 1900) :
    Says (gmtime t) (dateOn (t / 86400)) (t % 86400) (weekdayOn (t / 86400)) ∧
    (gmtime t).year = ((dateOn (t / 86400)).year : Int) - 1900 := by
  obtain ⟨h1, h2, h3⟩ := gmtime_says t (by omega)
  refine ⟨h1, ?_⟩
  rw [h2, i32_id (by omega) (by omega)]

/-- A year has at least 365 and at most 366 days. -/
theorem year_bounds (n : Nat) : 1970 + n / 366 ≤ (dateOn n).year + 1 ∧ (dateOn n).year ≤ 1971 + n / 365 := by
  obtain ⟨y, r, ⟨h1, h2⟩, h3⟩ := march_date n
  have e1 := before_bounds y
  have e2 := before_succ y
  have hl : leapDay (y + 1) ≤ 1 := by unfold leapDay; split <;> omega
  have : (dateOn n).year = y ∨ (dateOn n).year = y + 1 := by
    rw [h3]; unfold dateOf; split <;> simp
  have hlow : 1969 ≤ y := by
    by_cases h : 1969 ≤ y
    · exact h
    · exfalso
      have h3 := before_mono (y := y) (z := 1969) (by omega)
      have : before 1969 = 719162 := by decide
      omega
  have h69 : before 1969 = 719162 := by decide
  have grow : ∀ k, 719162 + 365 * k ≤ before (1969 + k) ∧ before (1969 + k) ≤ 719162 + 366 * k := by
    intro k
    induction k with
    | zero => rw [Nat.add_zero, h69]; omega
    | succ k ih =>
      have := before_succ (1969 + k)
      have hl : leapDay (1969 + k + 1) ≤ 1 := by unfold leapDay; split <;> omega
      rw [show 1969 + (k + 1) = 1969 + k + 1 from rfl]
      omega
  obtain ⟨k, rfl⟩ : ∃ k, y = 1969 + k := ⟨y - 1969, by omega⟩
  have := grow k
  omega

/-- In particular for every time within a billion years, hence for every time a record can carry. -/
theorem C30_range (t : Nat) (ht : t < 2 ^ 54) :
    Says (gmtime t) (dateOn (t / 86400)) (t % 86400) (weekdayOn (t / 86400)) ∧
    (gmtime t).year = ((dateOn (t / 86400)).year : Int) - 1900 := by
  have := year_bounds (t / 86400)
  exact C30_gmtime t (by omega) (by omega)

/-- The year does not fit its field for times further away: the field wraps. -/
theorem C30_wraps (t : Nat) (ht : t < 2 ^ 63) :
    Says (gmtime t) (dateOn (t / 86400)) (t % 86400) (weekdayOn (t / 86400)) ∧
    ((gmtime t).year - (((dateOn (t / 86400)).year : Int) - 1900)) % 2 ^ 32 = 0 := by
  obtain ⟨h1, h2, h3⟩ := gmtime_says t (by omega)
  refine ⟨h1, ?_⟩
  rw [h2]
  unfold i32
  omega

/-- Before 1970 the result is not a date at all: the second before 1970 is put 584 billion years away, which the field of
the year does not hold. -/
theorem C30_negative : (gmtime (-1)).year ≠ 69 ∧ (gmtime (-1)).mon ≠ 11 := by decide

/-- The offset from UTC and the name of the zone are not written. -/
theorem C30_zone (t : Int) : (gmtime t).gmtoff = none ∧ (gmtime t).zone = none := ⟨rfl, rfl⟩

/-! 29 February 2000, 23:59:59, a Tuesday, the 60th day of the year; the last second of 1999. -/

example : gmtime 951868799 = ⟨59, 59, 23, 29, 1, 100, 2, 59, 0, none, none⟩ := by decide

example : gmtime 946684799 = ⟨59, 59, 23, 31, 11, 99, 5, 364, 0, none, none⟩ := by decide

set_option maxRecDepth 20000 in
example : dateOn 800 = { year := 1972, month := 3, day := 11 } ∧ weekdayOn 800 = 6 ∧ (dateOn 800).yearDay = 70 := by decide

end Blackhole.Time
