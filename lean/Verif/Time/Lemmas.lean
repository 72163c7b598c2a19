import Verif.Time.Model
import Verif.Time.Spec

/-!
# Lemmas about the calendar conversion
-/

namespace Blackhole.Time

/-- Days before 1 March of year `y`, counted from 1 March of year 0. -/
def before (y : Nat) : Nat := 365 * y + y / 4 - y / 100 + y / 400

def leapDay (y : Nat) : Nat := if LeapYear y then 1 else 0

theorem before_succ (y : Nat) : before (y + 1) = before y + 365 + leapDay (y + 1) := by
  have e4 : (y + 1) / 4 = y / 4 + (if (y + 1) % 4 = 0 then 1 else 0) := by split <;> omega
  have e100 : (y + 1) / 100 = y / 100 + (if (y + 1) % 100 = 0 then 1 else 0) := by split <;> omega
  have e400 : (y + 1) / 400 = y / 400 + (if (y + 1) % 400 = 0 then 1 else 0) := by split <;> omega
  have d1 : (y + 1) % 400 = 0 → (y + 1) % 100 = 0 := by omega
  have d2 : (y + 1) % 100 = 0 → (y + 1) % 4 = 0 := by omega
  have hle : y / 100 ≤ y / 4 := by omega
  unfold before leapDay LeapYear
  rw [e4, e100, e400]
  by_cases h4 : (y + 1) % 4 = 0 <;> by_cases h100 : (y + 1) % 100 = 0 <;> by_cases h400 : (y + 1) % 400 = 0 <;>
    simp_all <;> omega

/-- The day `D` after 1 March of year 0 is the day `r` after 1 March of year `y`. -/
def March (D y r : Nat) : Prop := before y + r = D ∧ r < 365 + leapDay (y + 1)

def monOf (r : Nat) : Nat := (r + 31) * 10 / 306
def dayOf (r : Nat) : Nat := r + 31 - 367 * monOf r / 12

def dateOf (y r : Nat) : Date :=
  if r ≥ 306 then { year := y + 1, month := monOf r - 10, day := dayOf r }
  else { year := y, month := monOf r + 2, day := dayOf r }

def shortMonth (m : Nat) : Bool := m = 4 ∨ m = 6 ∨ m = 9 ∨ m = 11

set_option maxRecDepth 100000 in
/-- Days up to 30 December, days up to 30 January, days in February. -/
theorem steps : ∀ r : Fin 365,
    (r.val < 305 → monOf r + 2 ≠ 2 ∧
      ((dayOf r < (if shortMonth (monOf r + 2) then 30 else 31) ∧ monOf (r + 1) = monOf r ∧ dayOf (r + 1) = dayOf r + 1) ∨
       (¬ dayOf r < (if shortMonth (monOf r + 2) then 30 else 31) ∧ monOf r + 2 < 12 ∧ monOf (r + 1) = monOf r + 1 ∧
        dayOf (r + 1) = 1))) ∧
    (306 ≤ r.val → r.val < 336 →
      monOf r = 11 ∧ dayOf r = r - 305 ∧ monOf (r + 1) = 11 ∧ dayOf (r + 1) = dayOf r + 1) ∧
    (337 ≤ r.val → monOf r = 12 ∧ dayOf r = r - 336 ∧ monOf (r + 1) = 12 ∧ dayOf (r + 1) = dayOf r + 1) := by
  decide

theorem dateOf_next (y r : Nat) (h : r + 1 < 365 + leapDay (y + 1)) : (dateOf y r).next = dateOf y (r + 1) := by
  have hl : leapDay (y + 1) ≤ 1 := by unfold leapDay; split <;> omega
  obtain ⟨k1, k2, k3⟩ := steps ⟨r, by omega⟩
  simp only at k1 k2 k3
  by_cases c1 : r < 305
  · obtain ⟨h2, h3⟩ := k1 c1
    simp only [dateOf, if_neg (by omega : ¬ r ≥ 306), if_neg (by omega : ¬ r + 1 ≥ 306), Date.next, monthDays, if_neg h2]
    simp only [shortMonth, decide_eq_true_eq] at h3
    rcases h3 with ⟨h3, h4, h5⟩ | ⟨h3, h4, h5, h6⟩
    · rw [if_pos h3, h4, h5]
    · rw [if_neg h3, if_pos h4, h5, h6]
  by_cases c2 : r = 305
  · subst c2
    simp [dateOf, Date.next, monthDays, monOf, dayOf]
  by_cases c3 : r < 336
  · obtain ⟨h1, h2, h3, h4⟩ := k2 (by omega) c3
    simp only [dateOf, if_pos (by omega : r ≥ 306), if_pos (by omega : r + 1 ≥ 306), Date.next, monthDays, h1, h3, h4]
    rw [if_pos]
    simp
    omega
  by_cases c4 : r = 336
  · subst c4
    simp [dateOf, Date.next, monthDays, monOf, dayOf]
  · obtain ⟨h1, h2, h3, h4⟩ := k3 (by omega)
    simp only [dateOf, if_pos (by omega : r ≥ 306), if_pos (by omega : r + 1 ≥ 306), Date.next, monthDays, h1, h3, h4]
    rw [if_pos]
    by_cases hy : LeapYear (y + 1)
    · simp [hy]
      simp [leapDay, hy] at h
      omega
    · simp [hy]
      simp [leapDay, hy] at h
      omega

theorem dateOf_last (y r : Nat) (h : r + 1 = 365 + leapDay (y + 1)) : (dateOf y r).next = dateOf (y + 1) 0 := by
  unfold leapDay at h
  split at h
  · have : r = 365 := by omega
    subst this
    simp [dateOf, Date.next, monthDays, monOf, dayOf, *]
  · have : r = 364 := by omega
    subst this
    simp [dateOf, Date.next, monthDays, monOf, dayOf, *]

theorem march_date : ∀ n, ∃ y r, March (n + 719468) y r ∧ dateOn n = dateOf y r
  | 0 => ⟨1969, 306, by unfold March before leapDay; decide, by decide⟩
  | n + 1 => by
    obtain ⟨y, r, ⟨h1, h2⟩, h3⟩ := march_date n
    rw [dateOn, h3]
    by_cases h : r + 1 < 365 + leapDay (y + 1)
    · exact ⟨y, r + 1, ⟨by omega, h⟩, dateOf_next y r h⟩
    · have := before_succ y
      exact ⟨y + 1, 0, ⟨by omega, by omega⟩, dateOf_last y r (by omega)⟩

theorem before_mono {y z : Nat} (h : y + 1 ≤ z) : before (y + 1) ≤ before z := by
  induction z with
  | zero => omega
  | succ z ih =>
    by_cases hz : y = z
    · subst hz; omega
    · have := ih (by omega)
      have := before_succ z
      omega

theorem march_unique {D y r z s : Nat} (h1 : March D y r) (h2 : March D z s) : y = z ∧ r = s := by
  have e1 := before_succ y
  have e2 := before_succ z
  obtain ⟨a1, a2⟩ := h1
  obtain ⟨b1, b2⟩ := h2
  have : y = z := by
    rcases Nat.lt_trichotomy y z with h | h | h
    · have := before_mono (y := y) (z := z) (by omega); omega
    · exact h
    · have := before_mono (y := z) (z := y) (by omega); omega
  subst this
  omega

/-- The year of Gauss's formula is that of the date or the next one. -/
theorem gauss_year (D : Nat) :
    before ((D + 2) * 400 / 146097) ≤ D + 2 ∧ D < before ((D + 2) * 400 / 146097 + 1) := by
  generalize hY : (D + 2) * 400 / 146097 = Y
  have h1 : 146097 * Y ≤ 400 * (D + 2) := by omega
  have h2 : 400 * (D + 2) < 146097 * (Y + 1) := by omega
  clear hY
  unfold before
  constructor
  · omega
  · omega

theorem leap_int (y : Nat) :
    (if (y : Int) % 4 = 0 ∧ ((y : Int) % 100 ≠ 0 ∨ (y : Int) % 400 = 0) then (1 : Int) else 0) = leapDay y := by
  unfold leapDay
  by_cases h : LeapYear y
  · rw [if_pos h, if_pos (by unfold LeapYear at h; omega)]; rfl
  · rw [if_neg h, if_neg (by unfold LeapYear at h; omega)]; rfl

theorem u64_id {z : Int} (h : 0 ≤ z) (h2 : z < 2 ^ 64) : u64 z = z := Int.emod_eq_of_lt h h2

theorem i32_id {z : Int} (h : -2 ^ 31 ≤ z) (h2 : z < 2 ^ 31) : i32 z = z := by unfold i32; omega

/-- The last day of the range of `uintptr_t`. -/
def lastDay : Nat := 213503982334601

theorem before_bounds (y : Nat) : 365 * y ≤ before y ∧ before y ≤ 366 * y := by unfold before; omega

theorem before_int (y : Nat) :
    (before y : Int) = 365 * (y : Int) + (y : Int) / 4 - (y : Int) / 100 + (y : Int) / 400 := by
  have : y / 100 ≤ y / 4 := by omega
  unfold before; omega

theorem gauss_ok (n : Nat) (hn : n ≤ lastDay) : ∃ (y r : Nat) (leap : Int), March (n + 719468) y r ∧
    gauss n = { year := y, yday := r, leap } ∧ (r < 306 → leap = leapDay y) ∧ y < 2 ^ 63 := by
  unfold lastDay at hn
  obtain ⟨h1, h2⟩ := gauss_year (n + 719468)
  have hY : (((n + 719468 : Nat) : Int) + 2) * 400 / 146097 = ((n + 719468 + 2) * 400 / 146097 : Nat) := by omega
  have hb : (n + 719468 + 2) * 400 / 146097 < 600000000000 := by omega
  generalize (n + 719468 + 2) * 400 / 146097 = Y at *
  have eb := before_bounds Y
  have ei := before_int Y
  have es := before_succ Y
  have hl : leapDay Y ≤ 1 := by unfold leapDay; split <;> omega
  have hl1 : leapDay (Y + 1) ≤ 1 := by unfold leapDay; split <;> omega
  unfold gauss
  have hd : u64 (u64 ((n : Int) - (31 + 28)) + 719527) = ((n + 719468 : Nat) : Int) := by unfold u64; omega
  simp only [hd]
  rw [u64_id (z := ((n + 719468 : Nat) : Int) + 2) (by omega) (by omega),
    u64_id (z := (((n + 719468 : Nat) : Int) + 2) * 400) (by omega) (by omega)]
  rw [show (365 * 400 + 100 - 4 + 1 : Int) = 146097 from rfl, hY]
  simp only [leap_int]
  rw [u64_id (z := 365 * (Y : Int)) (by omega) (by omega),
    u64_id (z := 365 * (Y : Int) + (Y : Int) / 4) (by omega) (by omega),
    u64_id (z := 365 * (Y : Int) + (Y : Int) / 4 - (Y : Int) / 100) (by omega) (by omega),
    u64_id (z := 365 * (Y : Int) + (Y : Int) / 4 - (Y : Int) / 100 + (Y : Int) / 400) (by omega) (by omega), ← ei]
  have hy : i32 (u64 (((n + 719468 : Nat) : Int) - (before Y : Int))) = ((n + 719468 : Nat) : Int) - (before Y : Int) := by
    unfold i32 u64; omega
  rw [hy]
  split
  · rename_i hneg
    obtain ⟨Z, rfl⟩ : ∃ Z, Y = Z + 1 := ⟨Y - 1, by omega⟩
    have es := before_succ Z
    refine ⟨Z, 365 + leapDay (Z + 1) + (n + 719468) - before (Z + 1), leapDay (Z + 1), ⟨by omega, by omega⟩, ?_,
      by omega, by omega⟩
    congr 1
    · unfold u64; omega
    · unfold u64 i32; omega
  · rename_i hpos
    refine ⟨Y, n + 719468 - before Y, leapDay Y, ⟨by omega, by omega⟩, ?_, fun _ => rfl, by omega⟩
    congr 1
    omega

set_option maxRecDepth 100000 in
/-- The month and the day are in their ranges. -/
theorem mon_day : ∀ r : Fin 366, 1 ≤ monOf r ∧ monOf r ≤ 12 ∧ 1 ≤ dayOf r ∧ dayOf r ≤ 31 ∧
    367 * monOf r / 12 ≤ r + 30 ∧ 30 ≤ 367 * monOf r / 12 ∧ (r.val ≥ 306 ↔ monOf r > 10) ∧
    (r.val ≥ 306 → r = (if monOf r = 12 then 31 else 0) + dayOf r - 1 + 306) ∧
    (r.val < 306 → r.val + 59 =
      [0, 0, 0, 59, 90, 120, 151, 181, 212, 243, 273, 304, 334].getD (monOf r + 2) 0 + dayOf r - 1) := by
  decide

theorem daysBefore_eq (y m : Nat) (h1 : 1 ≤ m) (h2 : m ≤ 12) :
    daysBefore y m = if m ≤ 2 then (if m = 2 then 31 else 0)
      else [0, 0, 0, 59, 90, 120, 151, 181, 212, 243, 273, 304, 334].getD m 0 + leapDay y := by
  have : m = 1 ∨ m = 2 ∨ m = 3 ∨ m = 4 ∨ m = 5 ∨ m = 6 ∨ m = 7 ∨ m = 8 ∨ m = 9 ∨ m = 10 ∨ m = 11 ∨ m = 12 := by omega
  have hf : monthDays y 2 = 28 + leapDay y := by unfold monthDays leapDay; split <;> split <;> simp_all
  have hm : ∀ k, k ≠ 2 → monthDays y k = if k = 4 ∨ k = 6 ∨ k = 9 ∨ k = 11 then 30 else 31 := by
    intro k hk; simp [monthDays, hk]
  rcases this with rfl | rfl | rfl | rfl | rfl | rfl | rfl | rfl | rfl | rfl | rfl | rfl <;>
    simp [daysBefore, hf, hm] <;> omega

theorem weekday_eq : ∀ n, weekdayOn n = (4 + n) % 7
  | 0 => rfl
  | n + 1 => by rw [weekdayOn, weekday_eq n]; split <;> omega

end Blackhole.Time
