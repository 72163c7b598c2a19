import Verif.DateOther.Spec
import Verif.Date.Clock

/-! # Lemmas about the portable generator -/

namespace Blackhole.DateOther

open Time Date

theorem digit_char (d : Nat) (h : d < 10) : Char.ofNat (48 + d) = d.digitChar := by
  have : ∀ d : Fin 10, Char.ofNat (48 + d.val) = d.val.digitChar := by decide
  exact this ⟨d, h⟩

theorem fillLoop_ok (filler : Char) : ∀ (room n : Nat) (buffer : Str), 0 < room → n < 10 ^ room →
    fillLoop filler room n buffer = .ok (List.replicate (room - (Nat.toDigits 10 n).length) filler
      ++ Nat.toDigits 10 n ++ buffer)
  | 0, _, _, h, _ => absurd h (by omega)
  | room + 1, n, buffer, _, h => by
    rw [fillLoop]
    have e1 : (48 + (n : Int).tmod 10).toNat = 48 + n % 10 := by
      rw [Int.tmod_eq_emod_of_nonneg (by omega)]; omega
    have e2 : (n : Int).tdiv 10 = ((n / 10 : Nat) : Int) := by
      rw [Int.tdiv_eq_ediv_of_nonneg (by omega)]; omega
    simp only [e1, e2, digit_char _ (Nat.mod_lt n (by omega : 10 > 0))]
    by_cases h10 : n < 10
    · rw [if_pos (by omega), Nat.toDigits_of_lt_base h10, Nat.mod_eq_of_lt h10]
      simp
    · have hr : 0 < room := by
        rcases Nat.eq_zero_or_pos room with h0 | h0
        · subst h0; omega
        · exact h0
      have hn : n / 10 < 10 ^ room := by
        rw [Nat.pow_succ] at h
        omega
      rw [if_neg (by omega), fillLoop_ok filler room (n / 10) _ hr hn,
        Nat.toDigits_of_base_le (n := n) (by omega) (by omega)]
      simp

/-- `fill` pads a number that fits. -/
theorem fill_ok (filler : Char) {w n : Nat} (hw : 0 < w) (h : n < 10 ^ w) :
    fill w filler n = .ok (List.replicate (w - (Nat.toDigits 10 n).length) filler ++ Nat.toDigits 10 n) := by
  rw [fill, fillLoop_ok filler w n [] hw h, List.append_nil]

theorem fill_zero {w n : Nat} (hw : 0 < w) (h : n < 10 ^ w) : fill w '0' n = .ok (zeroPad w n) := fill_ok '0' hw h

theorem fillLoop_big (filler : Char) : ∀ (room n : Nat) (buffer : Str), 10 ^ room ≤ n →
    fillLoop filler room n buffer = .error .outOfBounds
  | 0, _, _, _ => rfl
  | room + 1, n, buffer, h => by
    rw [fillLoop]
    have e2 : (n : Int).tdiv 10 = ((n / 10 : Nat) : Int) := by
      rw [Int.tdiv_eq_ediv_of_nonneg (by omega)]; omega
    have hn : 10 ^ room ≤ n / 10 := by
      rw [Nat.pow_succ] at h
      omega
    have : 0 < 10 ^ room := Nat.pow_pos (by omega)
    simp only [e2]
    rw [if_neg (by omega)]
    exact fillLoop_big filler room _ _ hn

/-- A number that does not fit is written in front of the buffer. -/
theorem fill_big (filler : Char) {w n : Nat} (h : 10 ^ w ≤ n) : fill w filler n = .error .outOfBounds :=
  fillLoop_big filler w n [] h

/-! ## Weeks -/

theorem weekday_lt : ∀ n, weekdayOn n < 7
  | 0 => by decide
  | n + 1 => by
    have := weekday_lt n
    rw [weekdayOn]; split <;> omega

theorem year_next (n : Nat) : ((dateOn (n + 1)).year = (dateOn n).year ∧
      (dateOn (n + 1)).yearDay = (dateOn n).yearDay + 1) ∨
    ((dateOn (n + 1)).year = (dateOn n).year + 1 ∧ (dateOn (n + 1)).yearDay = 0) := by
  obtain ⟨h1, h2, h3, h4⟩ := dateOn_bounds n
  rw [dateOn]
  generalize dateOn n = d at *
  unfold Date.next Date.yearDay
  split
  · left; refine ⟨rfl, ?_⟩; simp only; omega
  · split
    · left
      refine ⟨rfl, ?_⟩
      simp only
      obtain ⟨m, hm⟩ : ∃ m, d.month = m + 1 := ⟨d.month - 1, by omega⟩
      rename_i hd _
      rw [hm] at h4 hd ⊢
      rw [daysBefore]
      omega
    · right; simp [daysBefore]

theorem year_mono : ∀ (n m : Nat), m ≤ n → (dateOn m).year ≤ (dateOn n).year
  | 0, m, h => by rw [show m = 0 by omega]; exact Nat.le_refl _
  | n + 1, m, h => by
    by_cases hm : m = n + 1
    · subst hm; exact Nat.le_refl _
    · have := year_mono n m (by omega)
      rcases year_next n with h | h <;> omega

theorem weekdays_next (w n : Nat) : weekdays w (n + 1) =
    (if (dateOn (n + 1)).year = (dateOn n).year then weekdays w n else 0) + (if weekdayOn (n + 1) = w then 1 else 0) := by
  unfold weekdays
  rw [List.range_succ (n := n + 1), List.filter_append, List.length_append]
  congr 1
  · split
    · rename_i h; rw [h]
    · rename_i h
      rw [List.length_eq_zero_iff, List.filter_eq_nil_iff]
      intro m hm
      have hm : m ≤ n := by simp at hm; omega
      have := year_mono n m hm
      have := year_mono (n + 1) n (by omega)
      simp
      omega
  · by_cases h : weekdayOn (n + 1) = w <;> simp [h]

theorem sundays_eq (n : Nat) : weekdays 0 n = ((dateOn n).yearDay + 7 - weekdayOn n) / 7 := by
  induction n with
  | zero => decide
  | succ n ih =>
    have := weekday_lt n
    rw [weekdays_next, ih, weekdayOn]
    rcases year_next n with ⟨h1, h2⟩ | ⟨h1, h2⟩
    · rw [if_pos h1, h2]
      by_cases h : weekdayOn n = 6
      · rw [if_pos h, if_pos rfl]; omega
      · rw [if_neg h, if_neg (by omega)]; omega
    · rw [if_neg (by omega), h2]
      by_cases h : weekdayOn n = 6
      · rw [if_pos h, if_pos rfl]
      · rw [if_neg h, if_neg (by omega)]; omega

theorem mondays_eq (n : Nat) :
    weekdays 1 n = ((dateOn n).yearDay + (if weekdayOn n = 0 then 1 else 8) - weekdayOn n) / 7 := by
  induction n with
  | zero => decide
  | succ n ih =>
    have := weekday_lt n
    rw [weekdays_next, ih, weekdayOn]
    rcases year_next n with ⟨h1, h2⟩ | ⟨h1, h2⟩
    · rw [if_pos h1, h2]
      by_cases h : weekdayOn n = 6
      · rw [if_pos h, if_neg (by omega), if_pos rfl, if_neg (by omega)]; omega
      · rw [if_neg h]
        by_cases h0 : weekdayOn n = 0
        · rw [h0]; simp; omega
        · rw [if_neg h0, if_neg (by omega), if_neg (by omega)]; omega
    · rw [if_neg (by omega), h2]
      by_cases h : weekdayOn n = 6
      · rw [if_pos h, if_neg (by omega), if_pos rfl]
      · rw [if_neg h]
        by_cases h0 : weekdayOn n = 0
        · rw [h0]; simp
        · rw [if_neg (by omega), if_neg (by omega)]; omega

theorem yearDay_lt : ∀ n, (dateOn n).yearDay < 366 := by
  intro n
  obtain ⟨h1, h2, h3, h4⟩ := dateOn_bounds n
  generalize dateOn n = d at *
  unfold Date.yearDay
  have hm : d.month = 1 ∨ d.month = 2 ∨ d.month = 3 ∨ d.month = 4 ∨ d.month = 5 ∨ d.month = 6 ∨ d.month = 7 ∨
    d.month = 8 ∨ d.month = 9 ∨ d.month = 10 ∨ d.month = 11 ∨ d.month = 12 := by omega
  by_cases hl : LeapYear d.year <;>
    rcases hm with h | h | h | h | h | h | h | h | h | h | h | h <;>
      rw [h] at h4 ⊢ <;> simp [daysBefore, monthDays, hl] at h4 ⊢ <;> omega

end Blackhole.DateOther
