import Verif.FmtArgs.List

/-! # Lemmas: without names and pointers nothing changes -/

namespace Blackhole.FmtArgs

open Fmt (Err Spec Next Arg peek isDigit isNameStart)

/-- What is passed as an argument that was already covered. -/
def Passed.known : Passed → Option Arg
  | .val v => v.known
  | .named _ _ => none

section
variable {args : List Passed} {as : List Arg} (h : args.map Passed.known = as.map some)
include h

theorem known_get (i : Nat) :
    (args[i]? = none ∧ as[i]? = none) ∨ ∃ v a, args[i]? = some (.val v) ∧ as[i]? = some a ∧ v.known = some a := by
  have hi : (args.map Passed.known)[i]? = (as.map some)[i]? := by rw [h]
  rw [List.getElem?_map, List.getElem?_map] at hi
  cases h1 : args[i]? with
  | none =>
    cases h2 : as[i]? with
    | none => exact .inl ⟨rfl, rfl⟩
    | some a => rw [h1, h2] at hi; cases hi
  | some p =>
    cases h2 : as[i]? with
    | none => rw [h1, h2] at hi; cases hi
    | some a =>
      rw [h1, h2] at hi
      have hi : p.known = some a := Option.some.inj hi
      cases p with
      | named n v => cases hi
      | val v => exact .inr ⟨v, a, rfl, rfl, hi⟩

theorem known_names (name : Str) : firstNamed args name = none := by
  induction args generalizing as with
  | nil => rfl
  | cons p args ih =>
    cases as with
    | nil => cases h
    | cons a as =>
      simp only [List.map_cons, List.cons.injEq] at h
      cases p with
      | named n v => cases h.1
      | val v => exact ih h.2

theorem parseArgIndex_known (next : Next) (s : Str) :
    (∃ e, parseArgIndex (makeArgList args) next s = .error e ∧ Fmt.parseArgIndex as next s = .error e)
    ∨ ∃ v a n s', v.known = some a ∧ parseArgIndex (makeArgList args) next s = .ok (v, n, s')
      ∧ Fmt.parseArgIndex as next s = .ok (a, n, s') := by
  unfold parseArgIndex Fmt.parseArgIndex Fmt.doGetArg
  simp only [doGetArg_eq]
  by_cases hd : ¬ isDigit (peek s) = true
  · rw [if_pos hd, if_pos hd]
    cases next with
    | none => exact .inl ⟨_, rfl, rfl⟩
    | some i =>
      rcases known_get h i with ⟨h1, h2⟩ | ⟨v, a, h1, h2, h3⟩
      · simp only [h1, h2]; exact .inl ⟨_, rfl, rfl⟩
      · simp only [h1, h2]; exact .inr ⟨v, a, some (i + 1), s, h3, rfl, rfl⟩
  · rw [if_neg hd, if_neg hd]
    cases hp : Fmt.parseNonneg s with
    | error e => exact .inl ⟨_, rfl, rfl⟩
    | ok x =>
      obtain ⟨i, s'⟩ := x
      match next with
      | some (k + 1) => exact .inl ⟨_, rfl, rfl⟩
      | some 0 =>
        rcases known_get h i with ⟨h1, h2⟩ | ⟨v, a, h1, h2, h3⟩
        · simp only [h1, h2]; exact .inl ⟨_, rfl, rfl⟩
        · simp only [h1, h2]; exact .inr ⟨v, a, none, s', h3, rfl, rfl⟩
      | none =>
        rcases known_get h i with ⟨h1, h2⟩ | ⟨v, a, h1, h2, h3⟩
        · simp only [h1, h2]; exact .inl ⟨_, rfl, rfl⟩
        · simp only [h1, h2]; exact .inr ⟨v, a, none, s', h3, rfl, rfl⟩

theorem parseArg_known (next : Next) (s : Str) :
    (∃ e, parseArg (makeArgList args) next s = .error e ∧ Fmt.parseArg as next s = .error e)
    ∨ ∃ v a n s', v.known = some a ∧ parseArg (makeArgList args) next s = .ok (v, n, s')
      ∧ Fmt.parseArg as next s = .ok (a, n, s') := by
  unfold parseArg Fmt.parseArg
  by_cases hn : isNameStart (peek s) = true
  · rw [if_pos hn, if_pos hn]
    left
    unfold parseArgName
    simp only [findName_eq, known_names h]
    match next with
    | some (k + 1) => exact ⟨_, rfl, rfl⟩
    | some 0 => exact ⟨_, rfl, rfl⟩
    | none => exact ⟨_, rfl, rfl⟩
  · rw [if_neg hn, if_neg hn]
    exact parseArgIndex_known h next s

theorem argNumber_known (next : Next) (what s : Str) :
    argNumber (makeArgList args) next what s = Fmt.argNumber as next what s := by
  unfold argNumber Fmt.argNumber
  rcases parseArg_known h next s with ⟨e, h1, h2⟩ | ⟨v, a, n, s', hk, h1, h2⟩
  · rw [h1, h2]; rfl
  · rw [h1, h2]
    simp only [bind, Except.bind]
    split
    · cases v with
      | arg b =>
        cases hk
        cases a <;> rfl
      | custom text => cases hk; rfl
      | uchar c => cases hk
      | ptr n => cases hk
    · rename_i hne
      split
      · exact absurd rfl (hne _)
      · rfl

theorem parseWidth_known (next : Next) (spec : Spec) (s : Str) :
    parseWidth (makeArgList args) next spec s = Fmt.parseWidth as next spec s := by
  unfold parseWidth Fmt.parseWidth
  by_cases hd : isDigit (peek s) = true
  · rw [if_pos hd, if_pos hd]
  · rw [if_neg hd, if_neg hd]
    split
    · simp only [argNumber_known h]
    · rename_i hne
      split
      · exact absurd rfl (hne _)
      · rfl

theorem parsePrecision_known (a : Arg) (next : Next) (spec : Spec) (s : Str) :
    parsePrecision (makeArgList args) (.arg a) next spec s = Fmt.parsePrecision as a next spec s := by
  unfold parsePrecision Fmt.parsePrecision
  have hn : noPrecision (.arg a)
      = if a.isInteger then some (ch! "precision not allowed in integer format specifier") else none := rfl
  rw [hn]
  simp only [argNumber_known h]
  split
  · rename_i s'
    simp only
    by_cases hd : isDigit (peek s') = true
    · rw [if_pos hd, if_pos hd]
      cases Fmt.parseNonneg s' with
      | error e => rfl
      | ok x => by_cases hi : a.isInteger = true <;> simp only [hi] <;> rfl
    · rw [if_neg hd, if_neg hd]
      by_cases hb : ∃ t, s' = '{' :: t
      · obtain ⟨s2, rfl⟩ := hb
        simp only
        cases Fmt.argNumber as next (ch! "precision") s2 with
        | error e => rfl
        | ok x => by_cases hi : a.isInteger = true <;> simp only [hi] <;> rfl
      · cases a.isInteger
        all_goals
          simp only [Bool.false_eq_true, if_false, if_true]
          split
          · exact absurd ⟨_, rfl⟩ hb
          · split
            · exact absurd ⟨_, rfl⟩ hb
            · rfl
  · rename_i hne
    split
    · exact absurd rfl (hne _)
    · rfl

theorem parseSpec_known (a : Arg) (next : Next) (s : Str) :
    parseSpec (makeArgList args) (.arg a) next s = Fmt.parseSpec as a next s := by
  unfold parseSpec Fmt.parseSpec
  simp only [Val.asArg, parseWidth_known h, parsePrecision_known h]

variable (fd : Spec → Nat → Except Err Str)

theorem formatPlain_known (a : Arg) (next : Next) (s : Str) :
    formatPlain fd (makeArgList args) (.arg a) next s = Fmt.formatField fd as a next s := by
  unfold formatPlain Fmt.formatField
  rw [parseSpec_known h]
  rfl

theorem formatField_known {v : Val} {a : Arg} (hk : v.known = some a) (next : Next) (s : Str) :
    formatField fd (makeArgList args) v next s = Fmt.formatField fd as a next s := by
  cases v with
  | arg b => cases hk; exact formatPlain_known h fd a next s
  | uchar c => cases hk
  | ptr n => cases hk
  | custom text =>
    cases hk
    simp only [formatField, printed, formatPlain_known h]
    by_cases h1 : peek s = ':'
    · rw [if_pos h1]
    · rw [if_neg h1]
      unfold Fmt.formatField
      rw [if_neg h1]
      simp only
      by_cases h2 : peek s = '}'
      · rw [if_pos h2, if_pos h2]
        cases Fmt.writeArg fd {} (.str text ['\x00']) <;> rfl
      · rw [if_neg h2, if_neg h2]

theorem field_known (next : Next) (s : Str) : field fd (makeArgList args) next s = Fmt.field fd as next s := by
  unfold field Fmt.field
  rcases parseArg_known h next s with ⟨e, h1, h2⟩ | ⟨v, a, n, s', hk, h1, h2⟩
  · rw [h1, h2]
  · rw [h1, h2]
    exact formatField_known h fd hk n s'

theorem formatLoop_known (fuel : Nat) : ∀ (next : Next) (s : Str),
    formatLoop fd (makeArgList args) fuel next s = Fmt.formatLoop fd as fuel next s := by
  induction fuel with
  | zero => intro next s; cases s <;> rfl
  | succ fuel ih =>
    intro next s
    cases s with
    | nil => rfl
    | cons c s =>
      rw [formatLoop, Fmt.formatLoop, field_known h]
      simp only [ih]
      rfl

end

end Blackhole.FmtArgs
