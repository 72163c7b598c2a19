import Verif.Json.Spec

/-! # Lemmas on pointers in the fragment of a URI -/

namespace Blackhole.Json

theorem hexDigitValue_eq (c : Char) : hexDigitValue c = hexValue c := by
  unfold hexDigitValue hexValue
  split <;> rfl

theorem hexValue_lt {c : Char} {x : Nat} (h : hexValue c = some x) : x < 16 := by
  unfold hexValue at h
  simp only [Char.le_def, UInt32.le_iff_toNat_le] at h
  have h0 : ('0' : Char).val.toNat = 48 := rfl
  have h9 : ('9' : Char).val.toNat = 57 := rfl
  have hA : ('A' : Char).val.toNat = 65 := rfl
  have hF : ('F' : Char).val.toNat = 70 := rfl
  have ha : ('a' : Char).val.toNat = 97 := rfl
  have hf : ('f' : Char).val.toNat = 102 := rfl
  have e : c.toNat = c.val.toNat := rfl
  have e0 : ('0' : Char).toNat = 48 := rfl
  have eA : ('A' : Char).toNat = 65 := rfl
  have ea : ('a' : Char).toNat = 97 := rfl
  grind

theorem percentByte_cons {hi lo : Char} {x y : Nat} (s : Str) (h1 : hexValue hi = some x) (h2 : hexValue lo = some y) :
    percentByte ('%' :: hi :: lo :: s) = some (x * 16 + y, s) := by
  simp only [percentByte, hexDigitValue_eq, h1, h2]

/-- Every byte is in its range. -/
def InRanges : List (Nat × Nat) → List Nat → Prop
  | [], [] => True
  | (lo, hi) :: ranges, b :: bs => (lo ≤ b ∧ b ≤ hi) ∧ InRanges ranges bs
  | _, _ => False

theorem percentTail_ok {bs : List Nat} {s : Str} (h : PercentBytes bs s) (rest : Str) :
    ∀ ranges, InRanges ranges bs → percentTail ranges (s ++ rest) = some (bs, rest) := by
  induction h with
  | nil =>
    intro ranges hr
    match ranges with
    | [] => rfl
    | _ :: _ => simp [InRanges] at hr
  | cons h1 h2 hb _ ih =>
    intro ranges hr
    match ranges with
    | [] => simp [InRanges] at hr
    | (lo, hi) :: ranges =>
      simp only [InRanges] at hr
      subst hb
      simp only [List.cons_append, percentTail, percentByte_cons _ h1 h2]
      rw [if_pos hr.1, ih _ hr.2]
      rfl

theorem utf8_ranges (c : Char) : ∃ b bs ranges, utf8 c = b :: bs ∧ utf8Tail b = some ranges ∧ InRanges ranges bs := by
  have hv : c.toNat < 0xD800 ∨ (0xDFFF < c.toNat ∧ c.toNat < 0x110000) := c.valid
  unfold utf8
  generalize c.toNat = n at hv
  simp only
  split
  · exact ⟨_, _, [], rfl, by rw [utf8Tail, if_pos (by omega)], trivial⟩
  split
  · exact ⟨_, _, [(0x80, 0xBF)], rfl, by rw [utf8Tail, if_neg (by omega), if_pos (by omega)], by simp only [InRanges, and_true]; omega⟩
  split
  · by_cases h0 : n / 0x1000 = 0
    · exact ⟨_, _, [(0xA0, 0xBF), (0x80, 0xBF)], rfl, by rw [h0]; rfl, by simp only [InRanges, and_true]; omega⟩
    · by_cases hd : n / 0x1000 = 13
      · exact ⟨_, _, [(0x80, 0x9F), (0x80, 0xBF)], rfl, by rw [hd]; rfl, by simp only [InRanges, and_true]; omega⟩
      · refine ⟨_, _, [(0x80, 0xBF), (0x80, 0xBF)], rfl, ?_, by simp only [InRanges, and_true]; omega⟩
        rw [utf8Tail, if_neg (by omega), if_neg (by omega), if_neg (by omega), if_neg (by omega), if_pos (by omega)]
  · by_cases h0 : n / 0x40000 = 0
    · exact ⟨_, _, [(0x90, 0xBF), (0x80, 0xBF), (0x80, 0xBF)], rfl, by rw [h0]; rfl, by simp only [InRanges, and_true]; omega⟩
    · by_cases h4 : n / 0x40000 = 4
      · exact ⟨_, _, [(0x80, 0x8F), (0x80, 0xBF), (0x80, 0xBF)], rfl, by rw [h4]; rfl, by simp only [InRanges, and_true]; omega⟩
      · refine ⟨_, _, [(0x80, 0xBF), (0x80, 0xBF), (0x80, 0xBF)], rfl, ?_, by simp only [InRanges, and_true]; omega⟩
        rw [utf8Tail, if_neg (by omega), if_neg (by omega), if_neg (by omega), if_neg (by omega), if_neg (by omega),
          if_neg (by omega), if_pos (by omega)]

theorem percentChar_ok {c : Char} {s : Str} (h : PercentBytes (utf8 c) s) (rest : Str) :
    percentChar (s ++ rest) = some (utf8 c, rest) := by
  obtain ⟨b, bs, ranges, e, ht, hr⟩ := utf8_ranges c
  rw [e] at h ⊢
  cases h with
  | cons h1 h2 hb h =>
    simp only [percentChar, List.cons_append, percentByte_cons _ h1 h2]
    rw [← hb, ht]
    simp only [percentTail_ok h rest _ hr, Option.map_some]

/-- What `fragmentStep` reads before it looks for an escape. -/
def firstOf : Str → Option (List Nat × Str)
  | [] => none
  | c :: s => if c = '%' then percentChar (c :: s) else if unreserved c then some ([c.toNat], s) else none

theorem percent_head {bs : List Nat} {s : Str} (h : PercentBytes bs s) (hb : bs ≠ []) : ∃ s', s = '%' :: s' := by
  cases h with
  | nil => exact absurd rfl hb
  | cons => exact ⟨_, rfl⟩

theorem utf8_ne (c : Char) : utf8 c ≠ [] := by
  obtain ⟨b, bs, _, e, _⟩ := utf8_ranges c
  rw [e]; simp

theorem unreserved_small {c : Char} (h : unreserved c = true) : c.toNat < 0x80 ∧ c ≠ '%' := by
  simp only [unreserved, Bool.or_eq_true, decide_eq_true_eq, Char.isAlphanum, Char.isAlpha, Char.isUpper, Char.isLower,
    Char.isDigit, ge_iff_le, Bool.and_eq_true, UInt32.le_iff_toNat_le] at h
  refine ⟨?_, ?_⟩
  · have e : c.toNat = c.val.toNat := rfl
    have h9 : ('9' : Char).val.toNat = 57 := rfl
    have hZ : ('Z' : Char).val.toNat = 90 := rfl
    have hz : ('z' : Char).val.toNat = 122 := rfl
    rcases h with ((((h | h) | h) | h) | h) | h
    · omega
    · omega
    all_goals (subst h; decide)
  · rintro rfl
    revert h; decide

theorem first_ok {c : Char} {w : Str} (h : FragmentChar c w) (rest : Str) :
    firstOf (w ++ rest) = some (utf8 c, rest) ∧ w ≠ [] ∧ '/' ∉ w := by
  cases h with
  | plain h =>
    have hu : unreserved c = true := by
      simp only [unreserved, Bool.or_eq_true, decide_eq_true_eq]
      rcases h with h | h
      · simp [h]
      · simp at h; grind
    have hs := unreserved_small hu
    refine ⟨?_, by simp, ?_⟩
    · simp only [List.cons_append, List.nil_append, firstOf, if_neg hs.2, hu, if_true, utf8, if_pos hs.1]
    · simp only [List.mem_singleton]
      rintro rfl
      revert hu; decide
  | percent h =>
    obtain ⟨w', rfl⟩ := percent_head h (utf8_ne c)
    refine ⟨?_, by simp, ?_⟩
    · rw [List.cons_append, firstOf, if_pos rfl, ← List.cons_append]
      exact percentChar_ok h rest
    · revert h
      generalize utf8 c = bs
      generalize '%' :: w' = s
      intro h
      induction h with
      | nil => simp
      | cons h1 h2 _ _ ih =>
        simp only [List.mem_cons, not_or]
        refine ⟨by decide, ?_, ?_, ih⟩
        · rintro rfl; revert h1; simp (decide := true) [hexValue]
        · rintro rfl; revert h2; simp (decide := true) [hexValue]

theorem fragmentStep_eq (s : Str) : fragmentStep s = match firstOf s with
    | some ([126], '0' :: s) => some ([126], s)
    | some ([126], '1' :: s) => some ([47], s)
    | some ([126], _) => none
    | r => r := by
  cases s <;> rfl

theorem utf8_tilde (c : Char) (h : utf8 c = [126]) : c = '~' := by
  unfold utf8 at h
  simp only at h
  have : c.toNat = 126 := by
    split at h
    · simpa using h
    · split at h
      · simp at h
      · split at h <;> simp at h
  apply Char.ext
  apply UInt32.toNat_inj.mp
  exact this

theorem step_char {c : Char} {w : Str} (hc : c ≠ '~') (h : FragmentChar c w) (rest : Str) :
    fragmentStep (w ++ rest) = some (utf8 c, rest) := by
  rw [fragmentStep_eq, (first_ok h rest).1]
  have : utf8 c ≠ [126] := fun e => hc (utf8_tilde c e)
  split <;> simp_all

theorem step_tilde {w : Str} (h : FragmentChar '~' w) (rest : Str) :
    fragmentStep (w ++ '0' :: rest) = some ([126], rest) := by
  rw [fragmentStep_eq, (first_ok h _).1]; rfl

theorem step_slash {w : Str} (h : FragmentChar '~' w) (rest : Str) :
    fragmentStep (w ++ '1' :: rest) = some ([47], rest) := by
  rw [fragmentStep_eq, (first_ok h _).1]; rfl

theorem token_step {fuel : Nat} {s rest : Str} {bytes : List Nat} (hs : s ≠ []) (h : fragmentStep s = some (bytes, rest)) :
    fragmentToken (fuel + 1) s = (fragmentToken fuel rest).map (bytes.map Char.ofNat ++ ·) := by
  cases s with
  | nil => exact absurd rfl hs
  | cons c s => rw [fragmentToken, h]; simp

theorem fragmentToken_ok {t s : Str} (h : FragmentName t s) :
    (∀ fuel, s.length ≤ fuel → fragmentToken fuel s = some (bytesOf t)) ∧ '/' ∉ s := by
  induction h with
  | nil => exact ⟨fun fuel _ => by cases fuel <;> rfl, by simp⟩
  | tilde h _ ih =>
    have hw := first_ok h []
    refine ⟨?_, by simp [hw.2.2, ih.2]⟩
    intro fuel hf
    simp only [List.length_append, List.length_cons] at hf
    match fuel with
    | 0 => omega
    | fuel + 1 =>
      rw [token_step (by simp) (step_tilde h _), ih.1 fuel (by omega)]
      rfl
  | slash h _ ih =>
    have hw := first_ok h []
    refine ⟨?_, by simp [hw.2.2, ih.2]⟩
    intro fuel hf
    simp only [List.length_append, List.length_cons] at hf
    match fuel with
    | 0 => omega
    | fuel + 1 =>
      rw [token_step (by simp) (step_slash h _), ih.1 fuel (by omega)]
      rfl
  | char hc _ h _ ih =>
    have hw := first_ok h []
    refine ⟨?_, by simp [hw.2.2, ih.2]⟩
    intro fuel hf
    have hl := List.length_pos_iff.mpr hw.2.1
    simp only [List.length_append] at hf
    match fuel with
    | 0 => omega
    | fuel + 1 =>
      rw [token_step (by simp [hw.2.1]) (step_char hc h _), ih.1 fuel (by omega)]
      rfl

end Blackhole.Json
