import Verif.JsonRead.Gaps

/-!
# Numbers: lemmas
-/

namespace Blackhole.JsonRead

open Config (Json)

theorem digit_iff (c : Char) : isDigit c = true ↔ Digit c := by
  constructor
  · intro h
    have hc : c.toNat < 58 := by
      unfold isDigit at h
      have h := of_decide_eq_true h
      simp only [Char.le_def, UInt32.le_iff_toNat_le] at h
      have e1 : '9'.val.toNat = 57 := rfl
      have e2 : c.val.toNat = c.toNat := rfl
      omega
    have key : ∀ n : Fin 58, isDigit (Char.ofNat n.val) = true → Char.ofNat n.val ∈ ch! "0123456789" := by decide
    have := key ⟨c.toNat, hc⟩ (by simpa only [Char.ofNat_toNat] using h)
    unfold Digit
    simpa only [Char.ofNat_toNat] using this
  · intro h
    have : ∀ c ∈ ch! "0123456789", isDigit c = true := by decide
    exact this c h

theorem digit_range {c : Char} (h : Digit c) : 48 ≤ c.toNat ∧ c.toNat ≤ 57 := by
  have : ∀ c ∈ ch! "0123456789", 48 ≤ c.toNat ∧ c.toNat ≤ 57 := by decide
  exact this c h

theorem digit_not {c d : Char} (h : Digit c) (hd : isDigit d = false) : c ≠ d := by
  rintro rfl
  rw [(digit_iff c).2 h] at hd
  cases hd

/-- What no number goes on with. -/
def Stop (s : Str) : Prop := ∀ c r, s = c :: r → isDigit c = false ∧ c ≠ '.' ∧ c ≠ 'e' ∧ c ≠ 'E'

/-- No digit comes first. -/
def NoDigit (s : Str) : Prop := ∀ c r, s = c :: r → isDigit c = false

theorem take_digits {ds r : Str} (h : ∀ c ∈ ds, Digit c) (hr : NoDigit r) :
    (ds ++ r).takeWhile isDigit = ds ∧ (ds ++ r).dropWhile isDigit = r := by
  induction ds with
  | nil =>
    cases r with
    | nil => exact ⟨rfl, rfl⟩
    | cons c r =>
      have hc : ¬ isDigit c = true := by rw [hr c r rfl]; decide
      exact ⟨List.takeWhile_cons_of_neg hc, List.dropWhile_cons_of_neg hc⟩
  | cons d ds ih =>
    have hd := (digit_iff d).2 (h d (.head _))
    have := ih (fun c hc => h c (.tail _ hc))
    rw [List.cons_append, List.takeWhile_cons_of_pos hd, List.dropWhile_cons_of_pos hd, this.1, this.2]
    exact ⟨rfl, rfl⟩

theorem digits_take (s : Str) : (∀ c ∈ s.takeWhile isDigit, Digit c) ∧ s = s.takeWhile isDigit ++ s.dropWhile isDigit := by
  induction s with
  | nil => exact ⟨by simp, rfl⟩
  | cons c s ih =>
    by_cases hc : isDigit c = true
    · rw [List.takeWhile_cons_of_pos hc, List.dropWhile_cons_of_pos hc, List.cons_append, ← ih.2]
      refine ⟨?_, rfl⟩
      intro d hd
      rcases List.mem_cons.1 hd with rfl | hd
      · exact (digit_iff _).1 hc
      · exact ih.1 d hd
    · rw [List.takeWhile_cons_of_neg hc, List.dropWhile_cons_of_neg hc]
      exact ⟨by simp, rfl⟩

theorem digits_first {s : Str} (h : isDigit (peek s) = true) : Digits (s.takeWhile isDigit) := by
  refine ⟨?_, (digits_take s).1⟩
  cases s with
  | nil => exact absurd h (by decide)
  | cons c s => rw [List.takeWhile_cons_of_pos (show isDigit c = true from h)]; simp

theorem peek_digits {ds : Str} (h : Digits ds) (r : Str) : isDigit (peek (ds ++ r)) = true := by
  obtain ⟨h1, h2⟩ := h
  cases ds with
  | nil => exact absurd rfl h1
  | cons c ds => exact (digit_iff c).2 (h2 c (.head _))

/-! ## The digits before the point -/

theorem whole_ok {s ds r : Str} (h : whole s = .ok (ds, r)) : Whole ds ∧ s = ds ++ r := by
  cases s with
  | nil => cases h
  | cons c s =>
    rw [whole] at h
    split at h
    · rename_i hc
      cases h
      subst hc
      exact ⟨⟨⟨by simp, by intro c hc; rw [List.mem_singleton.1 hc]; exact (digit_iff _).1 rfl⟩, fun _ => rfl⟩, rfl⟩
    · rename_i hc
      split at h
      · rename_i hd
        cases h
        refine ⟨⟨⟨by simp, ?_⟩, ?_⟩, ?_⟩
        · intro d hd'
          rcases List.mem_cons.1 hd' with rfl | hd'
          · exact (digit_iff _).1 hd
          · exact (digits_take s).1 d hd'
        · intro h0
          simp only [List.head?_cons, Option.some.injEq] at h0
          exact absurd h0 hc
        · rw [List.cons_append, ← (digits_take s).2]
      · cases h

theorem whole_whole {ds r : Str} (h : Whole ds) (hr : NoDigit r) : whole (ds ++ r) = .ok (ds, r) := by
  obtain ⟨⟨h1, h2⟩, h3⟩ := h
  cases ds with
  | nil => exact absurd rfl h1
  | cons c ds =>
    rw [List.cons_append, whole]
    by_cases hc : c = '0'
    · subst hc
      have := h3 rfl
      simp only [List.cons.injEq, true_and] at this
      rw [if_pos rfl, this]
      rfl
    · rw [if_neg hc, if_pos ((digit_iff c).2 (h2 c (.head _)))]
      have := take_digits (fun d hd => h2 d (.tail _ hd)) hr
      rw [this.1, this.2]

/-! ## Fractions and exponents -/

theorem fraction_ok {s f r : Str} (h : fraction s = .ok (f, r)) : Fraction f ∧ s = f ++ r := by
  unfold fraction at h
  split at h
  · cases h
    exact ⟨.none, rfl⟩
  · rename_i q hq
    split at h
    · rename_i hd
      cases h
      refine ⟨.some (digits_first hd), ?_⟩
      rw [consume_some hq, List.cons_append, ← (digits_take q).2]
    · cases h

theorem fraction_fraction {f r : Str} (h : Fraction f) (hr : ∀ c r', r = c :: r' → isDigit c = false ∧ c ≠ '.') :
    fraction (f ++ r) = .ok (f, r) := by
  cases h with
  | none =>
    have : consume '.' r = none := by
      cases r with
      | nil => rfl
      | cons c r => exact consume_ne r (hr c r rfl).2
    rw [List.nil_append, fraction, this]
  | @some ds hd =>
    have := take_digits hd.2 (fun c r' h => (hr c r' h).1)
    rw [List.cons_append, fraction, consume_cons]
    simp only
    rw [if_pos (peek_digits hd r), this.1, this.2]

theorem exponentSign_cases (s : Str) :
    ∃ sign r, exponentSign s = (sign, r) ∧ sign ∈ [[], ['+'], ['-']] ∧ s = sign ++ r := by
  cases s with
  | nil => exact ⟨[], [], rfl, by simp, rfl⟩
  | cons c s =>
    by_cases hc : c = '+' ∨ c = '-'
    · exact ⟨[c], s, by rw [exponentSign, if_pos hc], by rcases hc with rfl | rfl <;> simp, rfl⟩
    · exact ⟨[], c :: s, by rw [exponentSign, if_neg hc], by simp, rfl⟩

theorem exponent_ok {s e r : Str} (h : exponent s = .ok (e, r)) : Exponent e ∧ s = e ++ r := by
  cases s with
  | nil => cases h; exact ⟨.none, rfl⟩
  | cons c s =>
    rw [exponent] at h
    split at h
    · rename_i hc
      have hc' : c ∈ ['e', 'E'] := by simpa using hc
      obtain ⟨sign, r', he, hs, rfl⟩ := exponentSign_cases s
      rw [he] at h
      simp only at h
      split at h
      · rename_i hp
        simp only [Except.ok.injEq, Prod.mk.injEq] at h
        obtain ⟨rfl, rfl⟩ := h
        refine ⟨Exponent.some hc' hs (digits_first hp), ?_⟩
        rw [List.cons_append, List.cons_append, List.append_assoc, ← (digits_take r').2]
      · cases h
    · cases h
      exact ⟨.none, rfl⟩

theorem exponent_exponent {e r : Str} (h : Exponent e) (hr : Stop r) : exponent (e ++ r) = .ok (e, r) := by
  cases h with
  | none =>
    cases r with
    | nil => rfl
    | cons c r =>
      have := hr c r rfl
      rw [List.nil_append, exponent, if_neg]
      rintro (h | h)
      · exact this.2.2.1 h
      · exact this.2.2.2 h
  | @some c sign ds hc hs hd =>
    have ht := take_digits hd.2 (fun c r' h => (hr c r' h).1)
    have hc' : c = 'e' ∨ c = 'E' := by simpa using hc
    rw [List.cons_append, List.append_assoc, exponent, if_pos hc']
    have hsign : exponentSign (sign ++ (ds ++ r)) = (sign, ds ++ r) := by
      simp only [List.mem_cons, List.not_mem_nil, or_false] at hs
      rcases hs with rfl | rfl | rfl
      · obtain ⟨h1, h2⟩ := hd
        cases ds with
        | nil => exact absurd rfl h1
        | cons d ds =>
          have := h2 d (.head _)
          rw [List.nil_append, List.cons_append, exponentSign, if_neg]
          rintro (h | h)
          · exact digit_not this (by decide) h
          · exact digit_not this (by decide) h
      · rfl
      · rfl
    rw [hsign]
    simp only
    rw [if_pos (peek_digits hd r), ht.1, ht.2]
    rfl

/-! ## Integers -/

instance (z : Int) : Decidable (Fits z) := by
  unfold Fits
  infer_instance

theorem fold_le (ds : Str) : ∀ n : Nat, n ≤ ds.foldl (fun n c => 10 * n + (c.toNat - 48)) n := by
  induction ds with
  | nil => exact fun n => Nat.le_refl n
  | cons c ds ih =>
    intro n
    rw [List.foldl_cons]
    exact Nat.le_trans (by omega) (ih _)

theorem collect_eq (limit ld : Nat) (last : Char) (hl : last.toNat = 48 + ld) (hld : ld < 10) (ds : Str)
    (hd : ∀ c ∈ ds, Digit c) : ∀ i : Nat, i ≤ limit * 10 + ld → collect limit last i ds =
      if ds.foldl (fun n c => 10 * n + (c.toNat - 48)) i ≤ limit * 10 + ld
      then some (ds.foldl (fun n c => 10 * n + (c.toNat - 48)) i) else none := by
  induction ds with
  | nil =>
    intro i hi
    rw [collect, List.foldl_nil, if_pos hi]
  | cons c ds ih =>
    intro i hi
    have hc := digit_range (hd c (.head _))
    have hlt : last < c ↔ last.toNat < c.toNat := by
      rw [Char.lt_def, UInt32.lt_iff_toNat_lt]
      exact Iff.rfl
    rw [collect, List.foldl_cons]
    by_cases h : limit ≤ i ∧ (i ≠ limit ∨ last < c)
    · rw [if_pos h, if_neg]
      have := fold_le ds (10 * i + (c.toNat - 48))
      rw [hlt] at h
      omega
    · rw [if_neg h, Nat.mul_comm i 10]
      rw [hlt] at h
      exact ih (fun d hd' => hd d (.tail _ hd')) _ (by omega)

/-- Which integers are kept. -/
theorem collect_neg {ds : Str} (hd : ∀ c ∈ ds, Digit c) : collect 922337203685477580 '8' 0 ds =
    if Fits (integerOf true ds) then some (decimalOf ds) else none := by
  rw [collect_eq 922337203685477580 8 '8' rfl (by decide) ds hd 0 (by omega)]
  have : ds.foldl (fun n c => 10 * n + (c.toNat - 48)) 0 = decimalOf ds := rfl
  rw [this]
  have hfit : Fits (integerOf true ds) ↔ decimalOf ds ≤ 922337203685477580 * 10 + 8 := by
    unfold Fits integerOf
    rw [if_pos rfl]
    omega
  by_cases h : decimalOf ds ≤ 922337203685477580 * 10 + 8
  · rw [if_pos h, if_pos (hfit.2 h)]
  · rw [if_neg h, if_neg (fun hf => h (hfit.1 hf))]

theorem collect_pos {ds : Str} (hd : ∀ c ∈ ds, Digit c) : collect 1844674407370955161 '5' 0 ds =
    if Fits (integerOf false ds) then some (decimalOf ds) else none := by
  rw [collect_eq 1844674407370955161 5 '5' rfl (by decide) ds hd 0 (by omega)]
  have : ds.foldl (fun n c => 10 * n + (c.toNat - 48)) 0 = decimalOf ds := rfl
  rw [this]
  have hfit : Fits (integerOf false ds) ↔ decimalOf ds ≤ 1844674407370955161 * 10 + 5 := by
    unfold Fits integerOf
    rw [if_neg (by decide)]
    omega
  by_cases h : decimalOf ds ≤ 1844674407370955161 * 10 + 5
  · rw [if_pos h, if_pos (hfit.2 h)]
  · rw [if_neg h, if_neg (fun hf => h (hfit.1 hf))]

theorem collect_both (neg : Bool) {ds : Str} (hd : ∀ c ∈ ds, Digit c) :
    (if neg = true then collect 922337203685477580 '8' 0 ds else collect 1844674407370955161 '5' 0 ds) =
      if Fits (integerOf neg ds) then some (decimalOf ds) else none := by
  cases neg with
  | true => rw [if_pos rfl]; exact collect_neg hd
  | false => rw [if_neg (by decide)]; exact collect_pos hd

/-! ## Numbers -/

theorem minus_ok (s : Str) : s = (if (minus s).1 then ['-'] else []) ++ (minus s).2 := by
  unfold minus
  split
  · rename_i r hr
    rw [consume_some hr]
    rfl
  · rfl

theorem minus_sign (neg : Bool) {ds r : Str} (h : Digits ds) :
    minus ((if neg then ['-'] else []) ++ (ds ++ r)) = (neg, ds ++ r) := by
  cases neg with
  | true => rfl
  | false =>
    obtain ⟨h1, h2⟩ := h
    cases ds with
    | nil => exact absurd rfl h1
    | cons c ds =>
      rw [if_neg (by decide), List.nil_append, List.cons_append, minus,
        consume_ne _ (digit_not (h2 c (.head _)) (by decide))]

variable {toDouble : Str → Option Nat}

theorem number_ok {s r : Str} {v : Json} (h : number toDouble s = .ok (v, r)) :
    ∃ t, s = t ++ r ∧ Reads toDouble (.value v) t := by
  have hm := minus_ok s
  unfold number at h
  generalize minus s = m at h hm
  obtain ⟨neg, s1⟩ := m
  simp only at h hm
  split at h
  · cases h
  · rename_i ds s2 hw
    replace hw := whole_ok hw
    obtain ⟨hw, rfl⟩ := hw
    rw [collect_both neg hw.1.2] at h
    split at h
    · cases h
    · rename_i f s3 hf
      replace hf := fraction_ok hf
      obtain ⟨hf, rfl⟩ := hf
      split at h
      · cases h
      · rename_i e s4 he
        replace he := exponent_ok he
        obtain ⟨he, rfl⟩ := he
        split at h
        · rename_i i hi
          simp only [Except.ok.injEq, Prod.mk.injEq] at h
          obtain ⟨rfl, rfl⟩ := h
          by_cases hfit : Fits (integerOf neg ds)
          · rw [if_pos hfit] at hi
            cases hi
            exact ⟨_, by simpa using hm, .int hw hfit⟩
          · rw [if_neg hfit] at hi
            cases hi
        · rename_i hno
          split at h
          · rename_i bits hb
            simp only [Except.ok.injEq, Prod.mk.injEq] at h
            obtain ⟨rfl, rfl⟩ := h
            refine ⟨_, by rw [hm]; simp only [List.append_assoc], .double hw hf he ?_ hb⟩
            by_cases hfit : Fits (integerOf neg ds)
            · rw [if_pos hfit] at hno
              refine Classical.byContradiction (fun hn => ?_)
              simp only [not_or, ne_eq, Classical.not_not] at hn
              exact hno _ hn.1 hn.2.1 rfl
            · exact .inr (.inr hfit)
          · cases h

theorem number_int {neg : Bool} {ds r : Str} (hw : Whole ds) (hfit : Fits (integerOf neg ds)) (hr : Stop r) :
    number toDouble (((if neg then ['-'] else []) ++ ds) ++ r) = .ok (.int (integerOf neg ds), r) := by
  rw [List.append_assoc, number, minus_sign neg hw.1]
  simp only
  rw [whole_whole hw (fun c r' h => (hr c r' h).1)]
  simp only
  rw [show r = [] ++ r from rfl, fraction_fraction .none (fun c r' h => ⟨(hr c r' h).1, (hr c r' h).2.1⟩)]
  simp only
  rw [show r = [] ++ r from rfl, exponent_exponent .none hr]
  simp only
  rw [collect_both neg hw.1.2, if_pos hfit]
  simp only
  rfl

theorem number_double {neg : Bool} {ds f e r : Str} {bits : Nat} (hw : Whole ds) (hf : Fraction f) (he : Exponent e)
    (hfit : f ≠ [] ∨ e ≠ [] ∨ ¬ Fits (integerOf neg ds))
    (hb : toDouble ((if neg then ['-'] else []) ++ ds ++ f ++ e) = some bits) (hr : Stop r) :
    number toDouble (((if neg then ['-'] else []) ++ ds ++ f ++ e) ++ r) = .ok (.double bits, r) := by
  have he0 : ∀ c r', e ++ r = c :: r' → isDigit c = false ∧ c ≠ '.' := by
    intro c r' h
    cases he with
    | none => exact ⟨(hr c r' h).1, (hr c r' h).2.1⟩
    | some hc _ _ =>
      cases h
      simp only [List.mem_cons, List.not_mem_nil, or_false] at hc
      rcases hc with rfl | rfl <;> decide
  have hf0 : NoDigit (f ++ (e ++ r)) := by
    intro c r' h
    cases hf with
    | none => exact (he0 c r' h).1
    | some _ => cases h; decide
  have hno : ∀ i, ¬ (f = [] ∧ e = [] ∧ (if Fits (integerOf neg ds) then some (decimalOf ds) else none) = some i) := by
    rintro i ⟨h1, h2, h3⟩
    rcases hfit with h | h | h
    · exact h h1
    · exact h h2
    · rw [if_neg h] at h3
      cases h3
  rw [List.append_assoc, List.append_assoc, List.append_assoc, number, minus_sign neg hw.1]
  simp only
  rw [whole_whole hw hf0]
  simp only
  rw [fraction_fraction hf he0]
  simp only
  rw [exponent_exponent he hr]
  simp only
  rw [collect_both neg hw.1.2]
  split
  · rename_i i hi
    exact absurd ⟨rfl, rfl, hi⟩ (hno i)
  · rw [hb]

end Blackhole.JsonRead
