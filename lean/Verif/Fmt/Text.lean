import Verif.Fmt.Props

/-! # Text in fields (C52) -/

namespace Blackhole.Fmt

/-- Text arguments: C strings, and pointers with sizes, where an empty one is followed by a NUL (otherwise see C50). -/
inductive IsText : Arg → Str → Prop
  | cstr {s : Str} (h : '\x00' ∉ s) : IsText (.cstr s) s
  | str {s behind : Str} (h : s ≠ []) : IsText (.str s behind) s
  | terminated {s rest : Str} (h : '\x00' ∉ s) : IsText (.str [] (s ++ '\x00' :: rest)) s

theorem textField_pad (spec : Spec) (s : Str) : pad spec (cutText spec s) = textField spec s := by
  unfold textField pad
  split
  · cases spec.align <;> rfl
  · have : spec.width - (cutText spec s).length = 0 := by omega
    simp only [this]
    cases spec.align <;> simp

theorem cstr_before {s : Str} (h : '\x00' ∉ s) (rest : Str) : Config.cstr (s ++ '\x00' :: rest) = s := by
  unfold Config.cstr
  rw [List.takeWhile_append_of_pos]
  · simp
  · intro c hc
    simp only [decide_not, Bool.not_eq_eq_eq_not, Bool.not_true, decide_eq_false_iff_not]
    exact fun e => h (e ▸ hc)

theorem go_data (spec : Spec) {s : Str} (h : '\x00' ∉ s) (rest : Str) :
    writeStr.go spec (some ([], s ++ '\x00' :: rest)) = .ok (textField spec s) := by
  have hc := cstr_before h rest
  unfold writeStr.go
  cases hs : s ++ '\x00' :: rest with
  | nil => simp at hs
  | cons c cs =>
    rw [hs] at hc
    have hm : '\x00' ∈ c :: cs := by rw [← hs]; simp
    simp only [if_pos hm, hc]
    rw [← textField_pad, cutText]
    cases spec.precision <;> rfl

theorem writeStr_type {spec : Spec} (ht : spec.type = none ∨ spec.type = some 's') (a : Option (Str × Str)) :
    writeStr spec a = writeStr.go spec a := by
  unfold writeStr
  rcases ht with h | h <;> simp only [h, if_true]

/-- **C52.** A text is printed in its field: as many characters as the precision allows, padded to the width. -/
theorem C52_text (fd : Spec → Nat → Except Err Str) (spec : Spec) (a : Arg) (s : Str) (h : IsText a s)
    (ht : spec.type = none ∨ spec.type = some 's') : writeArg fd spec a = .ok (textField spec s) := by
  cases h with
  | cstr h => exact (writeStr_type ht _).trans (go_data spec h [])
  | @str s behind h =>
    refine (writeStr_type ht _).trans ?_
    unfold writeStr.go
    cases s with
    | nil => exact absurd rfl h
    | cons c s =>
      simp only
      rw [← textField_pad, cutText]
      cases spec.precision <;> rfl
  | terminated h => exact (writeStr_type ht _).trans (go_data spec h _)

/-- **C52.** Booleans are the texts `true` and `false`. -/
theorem C52_bool (fd : Spec → Nat → Except Err Str) (spec : Spec) (b : Bool) (ht : spec.type = none) :
    writeArg fd spec (.bool b) = .ok (textField spec (if b then ch! "true" else ch! "false")) := by
  refine Eq.trans ?_ (C52_text fd spec (.str (if b then ch! "true" else ch! "false") ['\x00']) _
    (.str (by cases b <;> simp)) (.inl ht))
  simp only [writeArg, ht]

/-- **C52.** A character is a text of one character; what is for numbers is refused. -/
theorem C52_char (fd : Spec → Nat → Except Err Str) (spec : Spec) (c : Char) (ht : spec.type = none ∨ spec.type = some 'c')
    (hp : spec.precision = none) :
    writeArg fd spec (.char c) =
      if spec.align = .numeric ∨ spec.sign ∨ spec.plus ∨ spec.minus ∨ spec.hash then
        .error (.format (ch! "invalid format specifier for char"))
      else .ok (textField spec [c]) := by
  have hpad : pad spec [c] = textField spec [c] := by rw [← textField_pad, cutText, hp]
  simp only [writeArg]
  rcases ht with h | h <;> simp only [h, ne_eq, not_true_eq_false, if_false, writeArg.char, hpad]

/-- **C52.** Any other type letter is refused. -/
theorem C52_other_type (fd : Spec → Nat → Except Err Str) (spec : Spec) (a : Arg) (s : Str) (h : IsText a s) (c : Char)
    (ht : spec.type = some c) (hc : c ≠ 's') :
    writeArg fd spec a = .error (refusal c (ch! "string")) := by
  cases h <;> simp only [writeArg, writeStr, ht, if_neg hc, unknownType_eq] <;> simp

example : refusal 'q' (ch! "string") = .format (ch! "unknown format code 'q' for string")
    ∧ refusal '\n' (ch! "string") = .format (ch! "unknown format code '\\x0a' for string")
    ∧ refusal '\xe4' (ch! "string") = .format (ch! "unknown format code '\\xffffffe4' for string") := ⟨rfl, rfl, rfl⟩

/-- **C52.** The field is as wide as asked for, or as wide as its text, which stands in it whole, with the fill character
around it. -/
theorem C52_field (spec : Spec) (s shown : Str) (hs : shown = s.take (spec.precision.getD s.length)) :
    (textField spec s).length = max spec.width shown.length
    ∧ ∃ l r, textField spec s = List.replicate l spec.fill ++ shown ++ List.replicate r spec.fill
      ∧ (spec.align = .right → r = 0) ∧ (spec.align = .center → l ≤ r ∧ r ≤ l + 1)
      ∧ (spec.align ≠ .right → spec.align ≠ .center → l = 0) := by
  have e : cutText spec s = shown := by
    rw [hs, cutText]
    cases spec.precision <;> simp
  unfold textField
  rw [e]
  simp only
  generalize hgap : spec.width - shown.length = gap
  refine ⟨?_, ?_⟩
  · cases spec.align <;> simp only [List.length_append, List.length_replicate] <;> omega
  · cases hal : spec.align
    · exact ⟨0, gap, by simp⟩
    · exact ⟨0, gap, by simp⟩
    · exact ⟨gap, 0, by simp⟩
    · exact ⟨gap / 2, gap - gap / 2, by simp, by simp, fun _ => ⟨by omega, by omega⟩, by simp⟩
    · exact ⟨0, gap, by simp⟩

/-- `{:*^7.3}`. -/
example (fd : Spec → Nat → Except Err Str) :
    format fd (ch! "[{:*^7.3}]") [.cstr (ch! "abcdef")] = .ok (ch! "[**abc**]")
    ∧ format fd (ch! "[{:>6}]") [.bool true] = .ok (ch! "[  true]") := ⟨rfl, rfl⟩

end Blackhole.Fmt
