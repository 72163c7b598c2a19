import Verif.Pattern.Shape

/-! # The grammars on printed input -/

namespace Blackhole.Pattern

open Fmt (escapeText SpecText peek isDigit)

/-! ## Text up to a mark -/

theorem untilMark_step {mark : Str} {c : Char} {s : Str}
    (h : ¬ (mark <+: (c :: s) ∧ peek ((c :: s).drop mark.length) ≠ '}')) :
    untilMark mark (c :: s) = (untilMark mark s).map fun x => (c :: x.1, x.2) := by
  rw [untilMark, if_neg h]
  cases untilMark mark s <;> rfl

theorem untilMark_head {m : Str} {c : Char} (hc : c ≠ ':') (s : Str) :
    untilMark (':' :: m) (c :: s) = (untilMark (':' :: m) s).map fun x => (c :: x.1, x.2) := by
  refine untilMark_step ?_
  rintro ⟨h, _⟩
  rw [List.cons_prefix_cons] at h
  exact hc h.1.symm

theorem map_nil {x : Option (Str × Str)} : x.map (fun y => ([] ++ y.1, y.2)) = x := by cases x <;> rfl

theorem untilMark_no_colon {m : Str} (d s : Str) (h : ':' ∉ d) :
    untilMark (':' :: m) (d ++ s) = (untilMark (':' :: m) s).map fun x => (d ++ x.1, x.2) := by
  induction d with
  | nil => rw [List.nil_append, map_nil]
  | cons c d ih =>
    simp only [List.mem_cons, not_or] at h
    rw [List.cons_append, untilMark_head (Ne.symm h.1), ih h.2]
    cases untilMark (':' :: m) s <;> rfl

/-- A text without the mark, before a colon. -/
theorem untilMark_skip {m : Str} (hm : ':' ∉ m) (d s : Str) (h : ¬ (':' :: m) <:+: d) :
    untilMark (':' :: m) (d ++ ':' :: s) = (untilMark (':' :: m) (':' :: s)).map fun x => (d ++ x.1, x.2) := by
  induction d with
  | nil => rw [List.nil_append, map_nil]
  | cons c d ih =>
    have h' : ¬ (':' :: m) <:+: d := fun hh => h (hh.trans (List.suffix_cons c d).isInfix)
    rw [List.cons_append, untilMark_step, ih h']
    · cases untilMark (':' :: m) (':' :: s) <;> rfl
    · rintro ⟨hp, _⟩
      rw [List.cons_prefix_cons] at hp
      obtain ⟨rfl, hp⟩ := hp
      rcases Nat.lt_or_ge d.length m.length with hl | hl
      · have hd : d ++ [':'] <+: m := by
          refine List.prefix_of_prefix_length_le (l₃ := d ++ ':' :: s) ⟨s, by simp⟩ hp ?_
          simp only [List.length_append, List.length_cons, List.length_nil]
          omega
        exact hm (hd.subset (by simp))
      · have hd : m <+: d := List.prefix_of_prefix_length_le hp ⟨':' :: s, rfl⟩ hl
        exact h (List.IsPrefix.isInfix (List.cons_prefix_cons.2 ⟨rfl, hd⟩))

theorem untilMark_at {m r : Str} (hr : peek r ≠ '}') : untilMark (':' :: m) (':' :: (m ++ r)) = some ([], r) := by
  have e : (':' :: (m ++ r)).drop (':' :: m).length = r := by simp
  rw [untilMark, if_pos ⟨⟨r, by simp⟩, by rw [e]; exact hr⟩, e]

theorem untilMark_spec {m : Str} (hm : ':' ∉ m) {d r : Str} (h : ¬ (':' :: m) <:+: d) (hr : peek r ≠ '}') :
    untilMark (':' :: m) (d ++ ':' :: (m ++ r)) = some (d, r) := by
  rw [untilMark_skip hm d _ h, untilMark_at hr]
  simp

theorem untilMark_none {m s : Str} (h : ':' ∉ s) : untilMark (':' :: m) s = none := by
  have := untilMark_no_colon (m := m) s [] h
  rw [List.append_nil] at this
  rw [this]; rfl

/-! ## Specifications -/

theorem optDigits_spec {ds r : Str} (h1 : ∀ c ∈ ds, isDigit c = true) (h2 : isDigit (peek r) = false) :
    optDigits (ds ++ r) = (ds, r) := by
  have h0 : r.takeWhile isDigit = [] ∧ r.dropWhile isDigit = r := by
    cases r with
    | nil => exact ⟨rfl, rfl⟩
    | cons c r =>
      have : isDigit c = false := h2
      simp [this]
  rw [optDigits, List.takeWhile_append_of_pos h1, List.dropWhile_append_of_pos h1, h0.1, h0.2]
  simp

theorem optChar_some {p : Char → Bool} {c : Char} (h : p c = true) (s : Str) : optChar p (c :: s) = ([c], s) := by
  simp [optChar, h]

theorem optChar_none {p : Char → Bool} {s : Str} (h : p (peek s) = false) : optChar p s = ([], s) := by
  cases s with
  | nil => rfl
  | cons c s =>
    have : p c = false := h
    simp [optChar, this]

theorem isAlign_iff (c : Char) : isAlign c = true ↔ c = '<' ∨ c = '^' ∨ c = '>' := by
  simp [isAlign, or_assoc]

theorem digit_not_align {c : Char} (h : isDigit c = true) : isAlign c = false := by
  cases h2 : isAlign c with
  | false => rfl
  | true => rcases (isAlign_iff c).1 h2 with rfl | rfl | rfl <;> exact absurd h (by decide)

theorem typedSpec_print {types : List Char} (htypes : ∀ c ∈ types, isDigit c = false ∧ isAlign c = false) {t : ShortSpec}
    (hv : t.Valid types) {p : Char → Bool} (hp : ∀ c ∈ types, p c = true) (r : Str) :
    typedSpec p (t.print ++ r) = some (t.print, r) := by
  obtain ⟨al, w, ty⟩ := t
  obtain ⟨h1, h2⟩ := hv
  simp only at h1 h2
  have hty := htypes ty h2
  have hw : (∀ c ∈ widthText w, isDigit c = true) ∧ isAlign (peek (widthText w ++ ty :: r)) = false := by
    cases w with
    | none => exact ⟨by simp [widthText], hty.2⟩
    | some w =>
      refine ⟨Fmt.toDigits_isDigit w, ?_⟩
      rw [widthText, Fmt.peek_append _ Nat.toDigits_ne_nil]
      exact digit_not_align (Fmt.peek_toDigits w)
  simp only [ShortSpec.print, List.append_assoc, List.singleton_append]
  generalize widthText w = ds at hw
  have e1 : optChar isAlign (al.toList ++ (ds ++ ty :: r)) = (al.toList, ds ++ ty :: r) := by
    cases al with
    | none => exact optChar_none hw.2
    | some c => exact optChar_some ((isAlign_iff c).2 (h1 c rfl)) _
  have e2 : optDigits (ds ++ ty :: r) = (ds, ty :: r) := optDigits_spec hw.1 hty.1
  simp only [typedSpec, e1, e2, hp ty h2, if_true, List.append_assoc]

theorem alignOf_isAlign {c : Char} (h : Fmt.alignOf c = none) : isAlign c = false := by
  cases h2 : isAlign c with
  | false => rfl
  | true => rcases (isAlign_iff c).1 h2 with rfl | rfl | rfl <;> exact absurd h (by decide)

theorem print_no_close {t : SpecText} (hv : t.Valid) : '}' ∉ t.print := by
  intro hc
  unfold SpecText.print at hc
  simp only [List.mem_append, Option.mem_toList] at hc
  have dig : ∀ n, '}' ∉ Nat.toDigits 10 n := fun n h => absurd (Fmt.toDigits_isDigit n _ h) (by decide)
  rcases hc with hc | hc | hc | hc | hc | hc | hc
  · split at hc
    · cases hc
    · rename_i f al h
      rw [List.mem_append, Option.mem_toList, List.mem_singleton] at hc
      rcases hc with hc | hc
      · rw [hc] at h
        exact (hv.fill _ _ h).2.1 rfl
      · revert hc; cases al <;> decide
  · rcases hv.sign _ hc with h | h | h <;> exact absurd h (by decide)
  · split at hc
    · exact absurd hc (by decide)
    · cases hc
  · split at hc
    · exact absurd hc (by decide)
    · cases hc
  · split at hc
    · cases hc
    · exact dig _ hc
  · split at hc
    · cases hc
    · rw [List.mem_cons] at hc
      rcases hc with hc | hc
      · exact absurd hc (by decide)
      · exact dig _ hc
  · exact absurd (hv.type _ hc) (by decide)

theorem ok6_facts {c : Char} (h : Fmt.ok6 c = true) : c ≠ '.' := Fmt.ok_cases h (by decide)

theorem optFill_spec {t : SpecText} (h : DefaultSpec t) :
    optFill (Fmt.r0 t []) = ((match t.align with
      | some (some f, _) => [f]
      | _ => []), (match t.align with
      | some (_, al) => [Fmt.alignChar al]
      | none => []) ++ Fmt.r1 t []) ∧
    optChar isAlign ((match t.align with
      | some (_, al) => [Fmt.alignChar al]
      | none => []) ++ Fmt.r1 t []) = ((match t.align with
      | some (_, al) => [Fmt.alignChar al]
      | none => []), Fmt.r1 t []) := by
  have hr1 := alignOf_isAlign (Fmt.alignOf_none (Fmt.peek_r1 h.valid []))
  have hal : ∀ f al, t.align = some (f, al) → isAlign (Fmt.alignChar al) = true := by
    intro f al e
    have h1 := h.valid.align f al e
    have h2 := h.align f
    rw [e] at h2
    cases al with
    | default => exact absurd rfl h1
    | numeric => exact absurd rfl h2
    | left => rfl
    | right => rfl
    | center => rfl
  cases e : t.align with
  | none =>
    have h0 : Fmt.r0 t [] = Fmt.r1 t [] := by simp [Fmt.r0, e]
    refine ⟨?_, ?_⟩
    · have hm := Fmt.mem_ok1 h.valid e
      have hp := Fmt.print_eq t []
      simp only [List.nil_append]
      rw [← h0, ← hp]
      obtain ⟨c, cs, hcs⟩ := List.exists_cons_of_ne_nil h.valid.nonempty
      rw [hcs] at hm ⊢
      cases cs with
      | nil => rfl
      | cons d ds =>
        have := alignOf_isAlign (Fmt.alignOf_none (hm d (by simp)))
        simp [optFill, this]
    · simp only [List.nil_append]
      exact optChar_none hr1
  | some x =>
    obtain ⟨f, al⟩ := x
    have ha := hal f al e
    refine ⟨?_, ?_⟩
    · unfold Fmt.r0
      rw [e]
      cases f with
      | none =>
        simp only [Option.toList_none, List.nil_append, List.singleton_append]
        cases hr : Fmt.r1 t [] with
        | nil => simp [optFill]
        | cons d ds =>
          rw [hr] at hr1
          have : isAlign d = false := hr1
          simp [optFill, this]
      | some f => simp [optFill, ha]
    · simp only [List.singleton_append]
      exact optChar_some ha _

theorem optionalSpec_print {t : SpecText} (h : DefaultSpec t) : optionalSpec (t.print ++ ['}']) = (t.print, ['}']) := by
  have hv := h.valid
  have e0 := optFill_spec h
  have e1 : Fmt.r1 t [] = Fmt.r2 t [] := by simp [Fmt.r1, h.sign]
  have e2 : optChar (· == '#') (Fmt.r2 t []) = ((if t.hash then ['#'] else []), Fmt.r3 t []) := by
    have h3 := Fmt.peek_r3 hv []
    unfold Fmt.r2
    cases t.hash with
    | true => exact optChar_some rfl _
    | false =>
      refine optChar_none ?_
      have : peek (Fmt.r3 t []) ≠ '#' := Fmt.ok_cases h3 (by decide)
      simp [this]
  have e3 : optChar (· == '0') (Fmt.r3 t []) = ((if t.zero then ['0'] else []), Fmt.r4 t []) := by
    have h4 := Fmt.peek_r4 hv []
    unfold Fmt.r3
    cases t.zero with
    | true => exact optChar_some rfl _
    | false =>
      refine optChar_none ?_
      have : peek (Fmt.r4 t []) ≠ '0' := Fmt.ok_cases h4 (by decide)
      simp [this]
  have e4 : optDigits (Fmt.r4 t []) = ((match t.width with
      | none => []
      | some w => Nat.toDigits 10 w), Fmt.r5 t []) := by
    have h5 := Fmt.ok5_not_digit (Fmt.peek_r5 hv [])
    unfold Fmt.r4
    cases t.width with
    | none => exact optDigits_spec (by simp) h5
    | some w => exact optDigits_spec (Fmt.toDigits_isDigit w) h5
  have e5 : optPrecision (Fmt.r5 t []) = ((match t.precision with
      | none => []
      | some p => '.' :: Nat.toDigits 10 p), Fmt.r6 t []) := by
    have h6 := Fmt.peek_r6 hv []
    unfold Fmt.r5
    cases t.precision with
    | none =>
      simp only [List.nil_append]
      have : peek (Fmt.r6 t []) ≠ '.' := ok6_facts h6
      unfold optPrecision
      split
      · rename_i e
        rw [e] at this
        exact absurd rfl this
      · rfl
    | some p =>
      have hd : optDigits (Nat.toDigits 10 p ++ Fmt.r6 t []) = (Nat.toDigits 10 p, Fmt.r6 t []) :=
        optDigits_spec (Fmt.toDigits_isDigit p) (Fmt.ok5_not_digit (by simp [Fmt.ok5, h6]))
      simp only [List.cons_append, optPrecision, hd]
      split
      · rename_i e
        simp only [Prod.mk.injEq] at e
        exact absurd e.1 Nat.toDigits_ne_nil
      · rename_i e
        simp only [Prod.mk.injEq] at e
        obtain ⟨rfl, rfl⟩ := e
        rfl
  have e6 : optChar (fun c => c == 's' || c == 'd' || c == 'f' || c == 'x') (Fmt.r6 t []) = (t.type.toList, ['}']) := by
    unfold Fmt.r6
    cases ht : t.type with
    | none => rfl
    | some c =>
      refine optChar_some ?_ _
      rcases h.type c ht with rfl | rfl | rfl | rfl <;> rfl
  rw [Fmt.print_eq]
  rw [e1] at e0
  simp only [optionalSpec, e0.1, e0.2, e2, e3, e4, e5, e6]
  unfold SpecText.print
  rw [h.sign]
  simp only [Option.toList_none, List.nil_append, List.append_assoc, Prod.mk.injEq, and_true]
  cases t.align with
  | none => rfl
  | some x =>
    obtain ⟨f, al⟩ := x
    cases f <;> rfl

/-! ## Defaults -/

theorem decimal_toDigits (n : Nat) : decimal (Nat.toDigits 10 n) = n := by
  have := Nat.ofDigitChars_ten_toDigits (n := n)
  unfold Nat.ofDigitChars at this
  have e : (fun (sofar : Nat) (c : Char) => 10 * sofar + (c.toNat - '0'.toNat))
      = fun (n : Nat) (c : Char) => n * 10 + (c.toNat - 48) := by
    funext a c
    rw [show '0'.toNat = 48 from rfl, Nat.mul_comm]
  rw [e] at this
  exact this

theorem castInt_nat (n : Nat) (h : n < 2 ^ 63) : castInt (Nat.toDigits 10 n) = some (n : Int) := by
  have hp := Fmt.peek_toDigits n
  have h1 : peek (Nat.toDigits 10 n) ≠ '-' := fun e => absurd hp (by rw [e]; decide)
  have h2 : peek (Nat.toDigits 10 n) ≠ '+' := fun e => absurd hp (by rw [e]; decide)
  have hall : (Nat.toDigits 10 n).all isDigit = true := List.all_eq_true.2 (Fmt.toDigits_isDigit n)
  simp only [castInt, if_neg h1, if_neg (not_or.2 ⟨h1, h2⟩), decimal_toDigits]
  rw [if_pos]
  exact ⟨Nat.toDigits_ne_nil, hall, by omega, by omega⟩

theorem castInt_neg (n : Nat) (h : n ≤ 2 ^ 63) : castInt ('-' :: Nat.toDigits 10 n) = some (-(n : Int)) := by
  have hall : (Nat.toDigits 10 n).all isDigit = true := List.all_eq_true.2 (Fmt.toDigits_isDigit n)
  simp only [castInt, show peek ('-' :: Nat.toDigits 10 n) = '-' from rfl, true_or, if_true, List.tail_cons,
    decimal_toDigits]
  rw [if_pos]
  exact ⟨Nat.toDigits_ne_nil, hall, by omega, by omega⟩

theorem castInt_big (n : Nat) (h : 2 ^ 63 ≤ n) : castInt (Nat.toDigits 10 n) = none := by
  have hp := Fmt.peek_toDigits n
  have h1 : peek (Nat.toDigits 10 n) ≠ '-' := fun e => absurd hp (by rw [e]; decide)
  have h2 : peek (Nat.toDigits 10 n) ≠ '+' := fun e => absurd hp (by rw [e]; decide)
  simp only [castInt, if_neg h1, if_neg (not_or.2 ⟨h1, h2⟩), decimal_toDigits]
  rw [if_neg]
  omega

theorem castInt_small (n : Nat) (h : 2 ^ 63 < n) : castInt ('-' :: Nat.toDigits 10 n) = none := by
  simp only [castInt, show peek ('-' :: Nat.toDigits 10 n) = '-' from rfl, true_or, if_true, List.tail_cons,
    decimal_toDigits]
  rw [if_neg]
  omega

theorem castInt_text {s : Str} {c : Char} (hc : c ∈ s) (h1 : isDigit c = false) (h2 : c ≠ '-') (h3 : c ≠ '+') :
    castInt s = none := by
  simp only [castInt]
  rw [if_neg]
  rintro ⟨_, hall, _⟩
  rw [List.all_eq_true] at hall
  have : c ∈ (if peek s = '-' ∨ peek s = '+' then s.tail else s) := by
    split
    · rename_i h
      cases s with
      | nil => cases hc
      | cons d s =>
        rcases List.mem_cons.1 hc with rfl | hc
        · exact absurd h (not_or.2 ⟨h2, h3⟩)
        · exact hc
    · exact hc
  rw [hall c this] at h1
  cases h1

/-! ## The item pattern -/

/-- The mark does not end in the middle of printed items, because the braces of literal text come in pairs. -/
theorem untilMark_text (s rest : Str) (hr : peek rest = '{' ∨ peek rest = ':') :
    untilMark (ch! ":p}") (escapeText s ++ rest)
      = (untilMark (ch! ":p}") rest).map fun x => (escapeText s ++ x.1, x.2) := by
  induction s with
  | nil =>
    show untilMark (ch! ":p}") ([] ++ rest) = _
    rw [List.nil_append]
    exact map_nil.symm
  | cons c s ih =>
    rw [escapeText_cons]
    by_cases hb : c = '{' ∨ c = '}'
    · have hc : ':' ∉ [c, c] := by rcases hb with rfl | rfl <;> decide
      rw [if_pos hb, List.append_assoc, untilMark_no_colon _ _ hc, ih]
      cases untilMark (ch! ":p}") rest <;> rfl
    · rw [if_neg hb]
      show untilMark (ch! ":p}") (c :: (escapeText s ++ rest)) = _
      rw [untilMark_step, ih]
      · cases untilMark (ch! ":p}") rest <;> rfl
      · rintro ⟨hp, hn⟩
        rw [List.cons_prefix_cons] at hp
        obtain ⟨rfl, hp⟩ := hp
        cases s with
        | nil =>
          cases rest with
          | nil => simp [escapeText] at hp
          | cons d rest =>
            simp only [escapeText, List.flatMap_nil, List.nil_append, List.cons_prefix_cons] at hp
            obtain ⟨rfl, _⟩ := hp
            rcases hr with hr | hr <;> simp only [peek] at hr <;> exact absurd hr (by decide)
        | cons d s =>
          rw [escapeText_cons] at hp hn
          by_cases hd : d = '{' ∨ d = '}'
          · rw [if_pos hd, List.cons_append, List.cons_append, List.cons_prefix_cons] at hp
            rcases hd with rfl | rfl <;> exact absurd hp.1 (by decide)
          · rw [if_neg hd] at hp hn
            simp only [List.cons_append, List.cons_prefix_cons, List.nil_append] at hp hn
            obtain ⟨_, hp⟩ := hp
            cases s with
            | nil =>
              cases rest with
              | nil => simp [escapeText] at hp
              | cons e rest =>
                simp only [escapeText, List.flatMap_nil, List.nil_append, List.cons_prefix_cons] at hp
                obtain ⟨rfl, _⟩ := hp
                rcases hr with hr | hr <;> simp only [peek] at hr <;> exact absurd hr (by decide)
            | cons e s =>
              rw [escapeText_cons] at hp hn
              by_cases he : e = '{' ∨ e = '}'
              · rw [if_pos he] at hp hn
                simp only [List.cons_append, List.cons_prefix_cons] at hp
                obtain ⟨rfl, _⟩ := hp
                exact hn rfl
              · rw [if_neg he] at hp
                simp only [List.cons_append, List.cons_prefix_cons] at hp
                exact he (.inr hp.1.symm)

theorem short_facts {t : ShortSpec} {types : List Char} (hv : t.Valid types)
    (htypes : ∀ c ∈ types, c ≠ ':' ∧ c ≠ 'p' ∧ c ≠ '{' ∧ c ≠ '}' ∧ isDigit c = false ∧ isAlign c = false) :
    ∀ c ∈ t.print, c ≠ ':' ∧ c ≠ 'p' ∧ c ≠ '{' ∧ c ≠ '}' := by
  intro c hc
  simp only [ShortSpec.print, List.mem_append, Option.mem_toList, List.mem_singleton] at hc
  rcases hc with hc | hc | hc
  · rcases hv.1 c hc with rfl | rfl | rfl <;> decide
  · have : isDigit c = true := by
      cases hw : t.width with
      | none => rw [hw] at hc; cases hc
      | some w => rw [hw] at hc; exact Fmt.toDigits_isDigit w c hc
    refine ⟨?_, ?_, ?_, ?_⟩ <;> (rintro rfl; exact absurd this (by decide))
  · have := htypes c (hc ▸ hv.2)
    exact ⟨this.1, this.2.1, this.2.2.1, this.2.2.2.1⟩

theorem sd_facts : ∀ c ∈ ['s', 'd'], c ≠ ':' ∧ c ≠ 'p' ∧ c ≠ '{' ∧ c ≠ '}' ∧ isDigit c = false ∧ isAlign c = false := by
  decide

theorem s_facts : ∀ c ∈ ['s'], c ≠ ':' ∧ c ≠ 'p' ∧ c ≠ '{' ∧ c ≠ '}' ∧ isDigit c = false ∧ isAlign c = false := by
  decide

theorem short_ne_nil (t : ShortSpec) : t.print ≠ [] := by simp [ShortSpec.print]

theorem untilMark_key (key : Str) (hk : ':' ∉ key) (spec : Option Str)
    (hs : ∀ s, spec = some s → ∃ t : ShortSpec, t.Valid ['s', 'd'] ∧ s = t.print) (rest : Str) :
    untilMark (ch! ":p}") (printKey key spec ++ rest)
      = (untilMark (ch! ":p}") rest).map fun x => (printKey key spec ++ x.1, x.2) := by
  cases spec with
  | none =>
    refine untilMark_no_colon _ _ ?_
    simp only [printKey, List.cons_append, List.mem_cons, List.mem_append]
    simp [hk]
  | some s =>
    obtain ⟨t, hv, rfl⟩ := hs s rfl
    have hf := short_facts hv sd_facts
    have h1 : ':' ∉ '{' :: key := by simp [hk]
    have h2 : ':' ∉ t.print ++ ['}'] := by
      intro h
      rcases List.mem_append.1 h with h | h
      · exact (hf _ h).1 rfl
      · exact absurd h (by decide)
    have e : printKey key (some t.print) ++ rest = ('{' :: key) ++ ':' :: ((t.print ++ ['}']) ++ rest) := by
      simp [printKey]
    have e' : ∀ x, printKey key (some t.print) ++ x = ('{' :: key) ++ ':' :: ((t.print ++ ['}']) ++ x) := by
      simp [printKey]
    rw [e, untilMark_no_colon _ _ h1, untilMark_step, untilMark_no_colon _ _ h2]
    · simp only [e']
      cases untilMark (ch! ":p}") rest <;> rfl
    · rintro ⟨hp, _⟩
      rw [List.cons_prefix_cons] at hp
      obtain ⟨_, hp⟩ := hp
      obtain ⟨c, cs, hcs⟩ := List.exists_cons_of_ne_nil (short_ne_nil t)
      rw [hcs] at hp hf
      simp only [List.cons_append, List.cons_prefix_cons] at hp
      exact (hf c (by simp)).2.1 hp.1.symm

theorem NormalItems.valid {p : ItemPiece} {ps : List ItemPiece} (h : NormalItems (p :: ps)) : p.Valid := by
  cases ps with
  | nil => exact h
  | cons q ps => exact h.1

theorem NormalItems.tail {p : ItemPiece} {ps : List ItemPiece} (h : NormalItems (p :: ps)) : NormalItems ps := by
  cases ps with
  | nil => trivial
  | cons q ps => exact h.2.2

theorem printItems_peek {p : ItemPiece} {ps : List ItemPiece} (h : NormalItems (p :: ps)) (hp : p.isText = true)
    (r : Str) (hr : peek r = '{' ∨ peek r = ':') : peek (printItems ps ++ r) = '{' ∨ peek (printItems ps ++ r) = ':' := by
  cases ps with
  | nil => exact hr
  | cons q ps =>
    left
    cases q with
    | text s => exact absurd ⟨hp, rfl⟩ h.2.1
    | name spec => cases spec <;> rfl
    | value spec => cases spec <;> rfl

theorem untilMark_items (ps : List ItemPiece) (hn : NormalItems ps) (r : Str) (hr : peek r = '{' ∨ peek r = ':') :
    untilMark (ch! ":p}") (printItems ps ++ r)
      = (untilMark (ch! ":p}") r).map fun x => (printItems ps ++ x.1, x.2) := by
  induction ps with
  | nil =>
    rw [printItems, List.nil_append]
    exact map_nil.symm
  | cons p ps ih =>
    have e : ∀ x, printItems (p :: ps) ++ x = p.print ++ (printItems ps ++ x) := by simp [printItems]
    simp only [e]
    have step : untilMark (ch! ":p}") (p.print ++ (printItems ps ++ r))
        = (untilMark (ch! ":p}") (printItems ps ++ r)).map fun x => (p.print ++ x.1, x.2) := by
      cases p with
      | text s => exact untilMark_text s _ (printItems_peek hn rfl r hr)
      | name spec => exact untilMark_key _ (by decide) spec hn.valid _
      | value spec => exact untilMark_key _ (by decide) spec hn.valid _
    rw [step, ih hn.tail]
    cases untilMark (ch! ":p}") r <;> rfl

theorem itemLiteral_escape (s r : Str) :
    itemLiteral (escapeText s ++ r) = (s ++ (itemLiteral r).1, (itemLiteral r).2) := by
  induction s with
  | nil => rfl
  | cons c s ih =>
    rw [escapeText_cons]
    by_cases hb : c = '{' ∨ c = '}'
    · rw [if_pos hb]
      show itemLiteral (c :: c :: (escapeText s ++ r)) = _
      rw [itemLiteral, if_pos hb, if_pos rfl, ih]; rfl
    · rw [if_neg hb]
      show itemLiteral (c :: (escapeText s ++ r)) = _
      cases h : escapeText s ++ r with
      | nil =>
        rw [h] at ih
        have : s = [] ∧ r = [] := by
          have := escapeText_length s
          have h' := congrArg List.length h
          simp only [List.length_append, List.length_nil] at h'
          exact ⟨List.length_eq_zero_iff.1 (by omega), List.length_eq_zero_iff.1 (by omega)⟩
        obtain ⟨rfl, rfl⟩ := this
        simp [itemLiteral, hb]
      | cons d x =>
        rw [h] at ih
        rw [itemLiteral, if_neg hb, ih]; rfl

theorem itemLiteral_key (key : Str) (hk : peek key ≠ '{') (hk0 : key ≠ []) (r : Str) :
    itemLiteral ('{' :: (key ++ r)) = ([], '{' :: (key ++ r)) := by
  cases key with
  | nil => exact absurd rfl hk0
  | cons c key =>
    have : c ≠ '{' := hk
    simp [itemLiteral, this]

theorem drop_length_append (a b : Str) : (a ++ b).drop a.length = b := by simp

theorem itemAttribute_print (key : Str) (spec : Option Str)
    (hs : ∀ s, spec = some s → ∃ t : ShortSpec, t.Valid ['s', 'd'] ∧ s = t.print) (rest : Str) :
    itemAttribute ('{' :: key) (printKey key spec ++ rest) = some (spec.getD [], rest) := by
  cases spec with
  | none =>
    have e : printKey key none ++ rest = ('{' :: key) ++ '}' :: rest := by simp [printKey]
    rw [e, itemAttribute, if_pos ⟨_, rfl⟩]
    simp only [drop_length_append]
    rfl
  | some s =>
    obtain ⟨t, hv, rfl⟩ := hs s rfl
    have e : printKey key (some t.print) ++ rest = ('{' :: key) ++ ':' :: (t.print ++ '}' :: rest) := by simp [printKey]
    have et := typedSpec_print (types := ['s', 'd']) (by decide) hv (p := fun c => c == 's' || c == 'd') (by decide)
      ('}' :: rest)
    rw [e, itemAttribute, if_pos ⟨_, rfl⟩]
    simp only [drop_length_append, et]
    rfl

theorem itemAttribute_other {key : Str} {s : Str} (h : ¬ key <+: s) : itemAttribute key s = none := by
  rw [itemAttribute, if_neg h]

theorem not_prefix_escape {key : Str} {c : Char} (hc : c ≠ '{') {s : Str} (hs : s ≠ []) (r : Str) :
    ¬ ('{' :: c :: key) <+: escapeText s ++ r := by
  cases s with
  | nil => exact absurd rfl hs
  | cons d s =>
    intro h
    rw [escapeText_cons] at h
    by_cases hb : d = '{' ∨ d = '}'
    · rw [if_pos hb] at h
      simp only [List.cons_append, List.cons_prefix_cons] at h
      obtain ⟨rfl, h2, _⟩ := h
      exact hc h2
    · rw [if_neg hb] at h
      simp only [List.cons_append, List.cons_prefix_cons] at h
      exact hb (.inl h.1.symm)

theorem not_prefix_value (spec : Option Str) (r : Str) : ¬ (ch! "{name") <+: printKey (ch! "value") spec ++ r := by
  cases spec with
  | none =>
    intro h
    simp only [printKey, List.cons_append, List.nil_append, List.cons_prefix_cons] at h
    exact absurd h.2.1 (by decide)
  | some s =>
    intro h
    simp only [printKey, List.cons_append, List.nil_append, List.cons_prefix_cons] at h
    exact absurd h.2.1 (by decide)

theorem itemLiteral_items {p : ItemPiece} {ps : List ItemPiece} (h : NormalItems (p :: ps)) (hp : p.isText = true) :
    itemLiteral (printItems ps) = ([], printItems ps) := by
  cases ps with
  | nil => rfl
  | cons q ps =>
    cases q with
    | text s => exact absurd ⟨hp, rfl⟩ h.2.1
    | name spec =>
      cases spec <;> simp [printItems, ItemPiece.print, printKey, itemLiteral]
    | value spec =>
      cases spec <;> simp [printItems, ItemPiece.print, printKey, itemLiteral]

theorem items_cons (fuel : Nat) {s : Str} (hs : s ≠ []) : items (fuel + 1) s =
    match itemAttribute (ch! "{name") s with
    | some (spec, r) => (items fuel r).map (.name spec :: ·)
    | none =>
      match itemAttribute (ch! "{value") s with
      | some (spec, r) => (items fuel r).map (.value spec :: ·)
      | none =>
        match itemLiteral s with
        | ([], _) => none
        | (t, r) => (items fuel r).map (.literal t :: ·) := by
  cases s with
  | nil => exact absurd rfl hs
  | cons c s => rfl

theorem items_print (ps : List ItemPiece) (hn : NormalItems ps) : ∀ fuel, ps.length ≤ fuel →
    items fuel (printItems ps) = some (ps.map ItemPiece.item) := by
  induction ps with
  | nil => intro fuel _; cases fuel <;> rfl
  | cons p ps ih =>
    intro fuel hf
    obtain ⟨fuel, rfl⟩ : ∃ k, fuel = k + 1 := ⟨fuel - 1, by rw [List.length_cons] at hf; omega⟩
    have ih' := ih hn.tail fuel (by rw [List.length_cons] at hf; omega)
    have hv := hn.valid
    rw [printItems]
    cases p with
    | name spec =>
      have hne : (ItemPiece.name spec).print ++ printItems ps ≠ [] := by cases spec <;> simp [ItemPiece.print, printKey]
      rw [items_cons fuel hne, ItemPiece.print, itemAttribute_print (ch! "name") spec hv]
      simp only [ih']
      rfl
    | value spec =>
      have hne : (ItemPiece.value spec).print ++ printItems ps ≠ [] := by cases spec <;> simp [ItemPiece.print, printKey]
      rw [items_cons fuel hne, ItemPiece.print, itemAttribute_other (not_prefix_value spec _),
        itemAttribute_print (ch! "value") spec hv]
      simp only [ih']
      rfl
    | text s =>
      have hs : s ≠ [] := hv
      have hne : (ItemPiece.text s).print ++ printItems ps ≠ [] := (escape_head hs _).1
      rw [items_cons fuel hne, ItemPiece.print,
        itemAttribute_other (not_prefix_escape (c := 'n') (by decide) hs _),
        itemAttribute_other (not_prefix_escape (c := 'v') (by decide) hs _), itemLiteral_escape,
        itemLiteral_items hn rfl, List.append_nil]
      cases s with
      | nil => exact absurd rfl hs
      | cons c s =>
        simp only [ih']
        rfl

theorem length_le_printItems (ps : List ItemPiece) (hn : NormalItems ps) : ps.length ≤ (printItems ps).length := by
  induction ps with
  | nil => simp
  | cons p ps ih =>
    have := ih hn.tail
    have hv := hn.valid
    have : 0 < p.print.length := by
      cases p with
      | name spec => cases spec <;> simp [ItemPiece.print, printKey]
      | value spec => cases spec <;> simp [ItemPiece.print, printKey]
      | text s =>
        have h1 := escapeText_length s
        have hs : s ≠ [] := hv
        have : 0 < s.length := List.length_pos_iff.2 hs
        show 0 < (escapeText s).length
        omega
    simp only [List.length_cons, printItems, List.length_append]
    omega

end Blackhole.Pattern
