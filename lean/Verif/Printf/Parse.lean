import Verif.Printf.Lemmas
import Verif.Fmt.Parse

/-! # Lemmas about the parser of `sprintf` -/

namespace Blackhole.Printf

open Fmt (Err Spec Next peek isDigit parseNonneg)
open FmtArgs (Val)

/-! ## Flags -/

def applyFlag (spec : Spec) : Flag → Spec
  | .minus => { spec with align := .left }
  | .plus => { spec with sign := true, plus := true }
  | .space => { spec with sign := true }
  | .hash => { spec with hash := true }
  | .zero => { spec with fill := '0' }

def isFlag (c : Char) : Bool := c == '-' || c == '+' || c == '0' || c == ' ' || c == '#'

theorem parseFlags_none (spec : Spec) (s : Str) (h : isFlag (peek s) = false) : parseFlags spec s = (spec, s) := by
  unfold parseFlags
  split <;> first | rfl | (simp [peek, isFlag] at h)

theorem parseFlags_spec (flags : List Flag) (rest : Str) (h : isFlag (peek rest) = false) : ∀ spec,
    parseFlags spec (flags.map Flag.print ++ rest) = (flags.foldl applyFlag spec, rest) := by
  induction flags with
  | nil => intro spec; exact parseFlags_none spec rest h
  | cons f fs ih =>
    intro spec
    rw [List.foldl_cons, ← ih]
    cases f <;> rfl

theorem fold_width (flags : List Flag) : ∀ spec, (flags.foldl applyFlag spec).width = spec.width := by
  induction flags with
  | nil => intro spec; rfl
  | cons f fs ih => intro spec; rw [List.foldl_cons, ih]; cases f <;> rfl

theorem fold_precision (flags : List Flag) : ∀ spec, (flags.foldl applyFlag spec).precision = spec.precision := by
  induction flags with
  | nil => intro spec; rfl
  | cons f fs ih => intro spec; rw [List.foldl_cons, ih]; cases f <;> rfl

theorem fold_align (flags : List Flag) : ∀ spec,
    (flags.foldl applyFlag spec).align = if .minus ∈ flags then .left else spec.align := by
  induction flags with
  | nil => intro spec; simp
  | cons f fs ih => intro spec; rw [List.foldl_cons, ih]; cases f <;> simp [applyFlag]

theorem fold_fill (flags : List Flag) : ∀ spec,
    (flags.foldl applyFlag spec).fill = if .zero ∈ flags then '0' else spec.fill := by
  induction flags with
  | nil => intro spec; simp
  | cons f fs ih => intro spec; rw [List.foldl_cons, ih]; cases f <;> simp [applyFlag]

theorem fold_sign (flags : List Flag) : ∀ spec,
    (flags.foldl applyFlag spec).sign = (spec.sign || decide (.plus ∈ flags ∨ .space ∈ flags)) := by
  induction flags with
  | nil => intro spec; simp
  | cons f fs ih => intro spec; rw [List.foldl_cons, ih]; cases f <;> simp [applyFlag]

theorem fold_plus (flags : List Flag) : ∀ spec,
    (flags.foldl applyFlag spec).plus = (spec.plus || decide (.plus ∈ flags)) := by
  induction flags with
  | nil => intro spec; simp
  | cons f fs ih => intro spec; rw [List.foldl_cons, ih]; cases f <;> simp [applyFlag]

theorem fold_hash (flags : List Flag) : ∀ spec,
    (flags.foldl applyFlag spec).hash = (spec.hash || decide (.hash ∈ flags)) := by
  induction flags with
  | nil => intro spec; simp
  | cons f fs ih => intro spec; rw [List.foldl_cons, ih]; cases f <;> simp [applyFlag]

/-! ## Numbers from the format string or an argument -/

/-- How the next argument is found before and after a width or precision. -/
def Moves (n n' : Nat) (next next' : Next) : Prop := (next = some n ∧ next' = some n') ∨ (n' = n ∧ next' = next)

def setWidth (S : Spec) : Option Int → Spec
  | none => S
  | some z => { S with width := z.natAbs, align := if z < 0 then .left else S.align }

/-- What may follow the width. -/
def Stops (s : Str) : Prop :=
  isDigit (peek s) = false ∧ isFlag (peek s) = false ∧ peek s ≠ '*' ∧ peek s ≠ '$' ∧ s ≠ []

theorem flag_of_digit {c : Char} (h : isDigit c = true) (h0 : c ≠ '0') : isFlag c = false := by
  simp only [isFlag, Bool.or_eq_false_iff, beq_eq_false_iff_ne]
  refine ⟨⟨⟨⟨?_, ?_⟩, h0⟩, ?_⟩, ?_⟩ <;> (rintro rfl; revert h; decide)

theorem peek_lit {k : Nat} (hk : k ≠ 0) (s : Str) :
    isDigit (peek (Nat.toDigits 10 k ++ s)) = true ∧ isFlag (peek (Nat.toDigits 10 k ++ s)) = false := by
  rw [Fmt.peek_append _ Nat.toDigits_ne_nil]
  have := Fmt.peek_toDigits k
  exact ⟨this, flag_of_digit this (Fmt.peek_toDigits_ne_zero k (by omega))⟩

theorem parseRest_spec (args : List Val) (spec : Spec) (flags : List Flag) (width : Option Num) (tail : Str)
    (ht : Stops tail) (hw0 : width ≠ some (.lit 0)) {n n' : Nat} {next next' : Next} {w : Option Int}
    (hw : NumIs args width n w n') (hm : Moves n n' next next') :
    parseRest args next spec (flags.map Flag.print ++ (widthText width ++ tail))
      = .ok (setWidth (flags.foldl applyFlag spec) w, next', tail) := by
  unfold parseRest
  have hf : isFlag (peek (widthText width ++ tail)) = false := by
    cases width with
    | none => exact ht.2.1
    | some x =>
      cases x with
      | star => rfl
      | lit k => exact (peek_lit (fun e => hw0 (by rw [e])) tail).2
  rw [parseFlags_spec flags _ hf]
  simp only
  cases hw with
  | absent =>
    have : next' = next := by
      rcases hm with ⟨rfl, rfl⟩ | ⟨_, rfl⟩ <;> rfl
    subst this
    have hN : widthText none ++ tail = tail := rfl
    rw [hN, if_neg (by rw [ht.1]; decide)]
    split
    · exact absurd rfl ht.2.2.1
    · rfl
  | @lit k _ hk =>
    have : next' = next := by
      rcases hm with ⟨rfl, rfl⟩ | ⟨_, rfl⟩ <;> rfl
    subst this
    have hk0 : k ≠ 0 := fun e => hw0 (by rw [e])
    have hN : widthText (some (.lit k)) ++ tail = Nat.toDigits 10 k ++ tail := rfl
    rw [hN, if_pos (peek_lit hk0 tail).1, Fmt.parseNonneg_spec k hk tail ht.1]
    simp only [Except.map, setWidth]
    congr 2
  | @star _ z ha h1 h2 =>
    have : next = some n ∧ next' = some (n + 1) := by
      rcases hm with h | ⟨h, _⟩
      · exact h
      · omega
    obtain ⟨rfl, rfl⟩ := this
    have hd : isDigit (peek (widthText (some .star) ++ tail)) = false := rfl
    rw [if_neg (by rw [hd]; decide)]
    simp only [widthText, Num.print, List.cons_append, List.nil_append]
    have hg : getArg args (some n) tail none = .ok (.arg (.int z), some (n + 1)) := by
      simp only [getArg, ha]
    rw [hg]
    simp only [bind, Except.bind, widthOf, anyInt]
    have e : (if z < 0 then (-z % 2 ^ 32).toNat else z.toNat) = z.natAbs := by
      split
      · rw [Int.emod_eq_of_lt (by omega) (by omega)]; omega
      · omega
    rw [e, if_neg (by omega)]
    simp only [setWidth]
    congr 2
    split <;> rfl

theorem flags_split (flags : List Flag) : ∃ n fs, flags = List.replicate n .zero ++ fs ∧ fs.head? ≠ some .zero := by
  induction flags with
  | nil => exact ⟨0, [], rfl, by simp⟩
  | cons f fs ih =>
    by_cases h : f = .zero
    · obtain ⟨n, gs, e, hg⟩ := ih
      exact ⟨n + 1, gs, by rw [h, e]; rfl, hg⟩
    · exact ⟨0, f :: fs, rfl, by simpa using h⟩

theorem ofDigitChars_zeros (n : Nat) (ds : Str) :
    Nat.ofDigitChars 10 (List.replicate n '0' ++ ds) 0 = Nat.ofDigitChars 10 ds 0 := by
  induction n with
  | zero => rfl
  | succ n ih =>
    rw [List.replicate_succ, List.cons_append, Fmt.ofDigitChars_cons]
    exact ih

theorem parseNonneg_zeros (n : Nat) (ds : Str) (k : Nat) (hk : k < 2 ^ 31) (hds : ∀ c ∈ ds, isDigit c = true)
    (hv : Nat.ofDigitChars 10 ds 0 = k) (rest : Str) (hrest : isDigit (peek rest) = false) :
    parseNonneg (List.replicate n '0' ++ (ds ++ rest)) = .ok (k, rest) := by
  have hval : Nat.ofDigitChars 10 (List.replicate n '0' ++ ds) 0 = k := by rw [ofDigitChars_zeros, hv]
  unfold parseNonneg
  rw [← List.append_assoc, Fmt.parseDigits_spec _ _ hrest 0 _ (by rw [hval]; omega), hval]
  · simp only
    rw [if_neg (by omega)]
  · intro c hc
    rw [List.mem_append] at hc
    rcases hc with hc | hc
    · rw [(List.mem_replicate.1 hc).2]; rfl
    · exact hds c hc

theorem fold_zeros (n : Nat) (spec : Spec) :
    (List.replicate (n + 1) Flag.zero).foldl applyFlag spec = { spec with fill := '0' } := by
  induction n generalizing spec with
  | zero => rfl
  | succ n ih => rw [List.replicate_succ, List.foldl_cons, ih]; rfl

/-- A header without a position. -/
theorem parseHeader_auto (args : List Val) (spec : Spec) (flags : List Flag) (width : Option Num) (tail : Str)
    (ht : Stops tail) (hw0 : width ≠ some (.lit 0)) {n n' : Nat} {next next' : Next} {w : Option Int}
    (hw : NumIs args width n w n') (hm : Moves n n' next next') :
    parseHeader args next spec (flags.map Flag.print ++ (widthText width ++ tail))
      = .ok (none, setWidth (flags.foldl applyFlag spec) w, next', tail) := by
  obtain ⟨m, fs, rfl, hfs⟩ := flags_split flags
  have hlitnext : ∀ k, width = some (.lit k) → w = some (k : Int) ∧ k < 2 ^ 31 ∧ next' = next := by
    intro k e
    subst e
    cases hw with
    | lit hk =>
      refine ⟨rfl, hk, ?_⟩
      rcases hm with ⟨rfl, rfl⟩ | ⟨_, rfl⟩ <;> rfl
  have hlit : ∀ (S : Spec) (k : Nat), setWidth S (some (k : Int)) = { S with width := k } := by
    intro S k
    simp only [setWidth, Int.natAbs_natCast]
    rw [if_neg (by omega)]
  -- what comes after the leading zeros
  by_cases hcase : fs = [] ∧ ∃ k, width = some (.lit k)
  · obtain ⟨rfl, k, rfl⟩ := hcase
    obtain ⟨rfl, hk, rfl⟩ := hlitnext k rfl
    have hk0 : k ≠ 0 := fun e => hw0 (by rw [e])
    rw [hlit]
    simp only [List.append_nil, List.map_replicate, Flag.print, widthText, Num.print]
    have hp := parseNonneg_zeros m (Nat.toDigits 10 k) k hk (Fmt.toDigits_isDigit k) Nat.ofDigitChars_ten_toDigits tail ht.1
    unfold parseHeader
    simp only
    cases m with
    | zero =>
      simp only [List.replicate_zero, List.nil_append] at hp ⊢
      rw [if_pos (peek_lit hk0 tail).1, hp]
      simp only [bind, Except.bind]
      rw [if_neg ht.2.2.2.1, if_pos hk0]
      have hc : peek (Nat.toDigits 10 k ++ tail) ≠ '0' := by
        rw [Fmt.peek_append _ Nat.toDigits_ne_nil]
        exact Fmt.peek_toDigits_ne_zero k (by omega)
      rw [if_neg hc]
      rfl
    | succ m =>
      rw [fold_zeros]
      have hd : isDigit (peek (List.replicate (m + 1) '0' ++ (Nat.toDigits 10 k ++ tail))) = true := rfl
      rw [if_pos hd, hp]
      simp only [bind, Except.bind]
      rw [if_neg ht.2.2.2.1, if_pos hk0]
      have hc : peek (List.replicate (m + 1) '0' ++ (Nat.toDigits 10 k ++ tail)) = '0' := rfl
      rw [if_pos hc]
  · -- not a digit follows
    have hR : isDigit (peek (fs.map Flag.print ++ (widthText width ++ tail))) = false
        ∧ peek (fs.map Flag.print ++ (widthText width ++ tail)) ≠ '$' := by
      cases fs with
      | cons f fs =>
        have : f ≠ .zero := by simpa using hfs
        cases f <;> first | exact absurd rfl this | exact ⟨rfl, by simp [peek, Flag.print]⟩
      | nil =>
        cases width with
        | none => exact ⟨ht.1, ht.2.2.2.1⟩
        | some x =>
          cases x with
          | star => exact ⟨rfl, by simp [peek, widthText, Num.print]⟩
          | lit k => exact absurd ⟨rfl, k, rfl⟩ hcase
    rw [List.map_append, List.append_assoc, List.map_replicate, List.foldl_append]
    unfold parseHeader
    simp only
    cases m with
    | zero =>
      simp only [List.replicate_zero, List.nil_append, List.foldl_nil]
      rw [if_neg (by rw [hR.1]; decide), parseRest_spec args spec fs width tail ht hw0 hw hm]
      rfl
    | succ m =>
      have hp := parseNonneg_zeros (m + 1) [] 0 (by decide) (by simp) rfl
        (fs.map Flag.print ++ (widthText width ++ tail)) hR.1
      rw [List.nil_append] at hp
      have hd : isDigit (peek (List.replicate (m + 1) '0' ++ (fs.map Flag.print ++ (widthText width ++ tail)))) = true := rfl
      have hc : peek (List.replicate (m + 1) '0' ++ (fs.map Flag.print ++ (widthText width ++ tail))) = '0' := rfl
      have hN : Flag.zero.print = '0' := rfl
      rw [hN, if_pos hd, hp]
      simp only [bind, Except.bind]
      rw [if_neg hR.2, if_neg (by decide), if_pos hc, fold_zeros,
        parseRest_spec args { spec with fill := '0' } fs width tail ht hw0 hw hm]
      rfl

/-- A header with a position. -/
theorem parseHeader_index (args : List Val) (spec : Spec) (k : Nat) (hk : k < 2 ^ 31) (flags : List Flag)
    (width : Option Num) (tail : Str)
    (ht : Stops tail) (hw0 : width ≠ some (.lit 0)) {n n' : Nat} {next next' : Next} {w : Option Int}
    (hw : NumIs args width n w n') (hm : Moves n n' next next') :
    parseHeader args next spec (indexText (some k) ++ (flags.map Flag.print ++ (widthText width ++ tail)))
      = .ok (some k, setWidth (flags.foldl applyFlag spec) w, next', tail) := by
  unfold parseHeader
  simp only [indexText, List.append_assoc]
  rw [if_pos (by rw [Fmt.peek_append _ Nat.toDigits_ne_nil]; exact Fmt.peek_toDigits k),
    Fmt.parseNonneg_spec k hk _ (by rfl)]
  simp only [bind, Except.bind]
  rw [if_pos (by rfl)]
  simp only [List.cons_append, List.nil_append, List.tail_cons]
  rw [parseRest_spec args spec flags width tail ht hw0 hw hm]
  rfl

theorem parsePrecision_spec (args : List Val) (spec : Spec) (hs : spec.precision = none) (pr : Option (Option Num))
    (tail : Str) (ht1 : isDigit (peek tail) = false) (ht2 : peek tail ≠ '*') (ht3 : peek tail ≠ '.')
    {n n' : Nat} {next next' : Next} {p : Option Int}
    (hp : NumIs args (pr.getD none) n p n') (hm : Moves n n' next next') :
    parsePrecision args next spec (precisionText pr ++ tail)
      = .ok ({ spec with precision := effective p }, next', tail) := by
  have hspec : ({ spec with precision := none } : Spec) = spec := by cases spec; simp only at hs; subst hs; rfl
  have hnone : ∀ n p n', NumIs args none n p n' → p = none ∧ n' = n := by
    intro n p n' h; cases h; exact ⟨rfl, rfl⟩
  match pr with
  | none =>
    obtain ⟨rfl, rfl⟩ := hnone _ _ _ hp
    have : next' = next := by rcases hm with ⟨rfl, rfl⟩ | ⟨_, rfl⟩ <;> rfl
    subst this
    simp only [precisionText, List.nil_append, effective, hspec]
    unfold parsePrecision
    split
    · exact absurd rfl ht3
    · rfl
  | some none =>
    obtain ⟨rfl, rfl⟩ := hnone _ _ _ hp
    have : next' = next := by rcases hm with ⟨rfl, rfl⟩ | ⟨_, rfl⟩ <;> rfl
    subst this
    simp only [precisionText, List.cons_append, List.nil_append, effective, hspec]
    unfold parsePrecision
    simp only
    rw [if_neg (by rw [ht1]; decide)]
    split
    · exact absurd rfl ht2
    · rfl
  | some (some x) =>
    simp only [precisionText, List.cons_append]
    unfold parsePrecision
    simp only
    simp only [Option.getD_some] at hp
    cases hp with
    | @lit k _ hk =>
      have : next' = next := by rcases hm with ⟨rfl, rfl⟩ | ⟨_, rfl⟩ <;> rfl
      subst this
      have hN : (Num.lit k).print = Nat.toDigits 10 k := rfl
      rw [hN]
      rw [if_pos (by rw [Fmt.peek_append _ Nat.toDigits_ne_nil]; exact Fmt.peek_toDigits k),
        Fmt.parseNonneg_spec k hk tail ht1]
      simp only [Except.map, effective]
      rw [if_neg (by omega)]
      simp
    | @star _ z ha h1 h2 =>
      have : next = some n ∧ next' = some (n + 1) := by
        rcases hm with h | ⟨h, _⟩
        · exact h
        · omega
      obtain ⟨rfl, rfl⟩ := this
      rw [if_neg (by show ¬ isDigit '*' = true; decide)]
      simp only [Num.print, List.cons_append, List.nil_append]
      have hg : getArg args (some n) tail none = .ok (.arg (.int z), some (n + 1)) := by
        simp only [getArg, ha]
      rw [hg]
      simp only [bind, Except.bind, precisionOf, anyInt]
      rw [if_neg (by omega)]
      rfl

/-! ## The length -/

theorem parseLength_spec (v : Val) (len : Len) (conv : Conv) (rest : Str) :
    parseLength v (len.print ++ conv.print :: rest) = (convert len.bits conv.print v, conv.print :: rest) := by
  cases len <;> cases conv <;> rfl

theorem stops_tail (pr : Option (Option Num)) (len : Len) (conv : Conv) (rest : Str) :
    Stops (precisionText pr ++ (len.print ++ conv.print :: rest)) := by
  match pr with
  | some none => exact ⟨rfl, rfl, by simp [precisionText, peek], by simp [precisionText, peek], by simp [precisionText]⟩
  | some (some x) => exact ⟨rfl, rfl, by simp [precisionText, peek], by simp [precisionText, peek], by simp [precisionText]⟩
  | none => cases len <;> cases conv <;> exact ⟨rfl, rfl, by simp [precisionText, peek, Len.print, Conv.print],
      by simp [precisionText, peek, Len.print, Conv.print], by simp [Len.print, Conv.print]⟩

theorem tail_peek (len : Len) (conv : Conv) (rest : Str) :
    isDigit (peek (len.print ++ conv.print :: rest)) = false ∧ peek (len.print ++ conv.print :: rest) ≠ '*'
      ∧ peek (len.print ++ conv.print :: rest) ≠ '.' := by
  cases len <;> cases conv <;> exact ⟨rfl, by simp [peek, Len.print, Conv.print], by simp [peek, Len.print, Conv.print]⟩

end Blackhole.Printf
