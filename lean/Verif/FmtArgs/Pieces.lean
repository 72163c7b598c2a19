import Verif.FmtArgs.List
import Verif.Fmt.Parse
import Verif.Fmt.Lemmas
import Verif.Config.Lemmas

/-! # Lemmas about format strings with names -/

namespace Blackhole.FmtArgs

open Fmt (Err Spec SpecText Next Arg peek isDigit isNameStart meaningOf specTail NextAt)

/-! ## Writing -/

theorem writeVal_written (fd : Spec → Nat → Except Err Str) (spec : Spec) (v : Val) (hv : v.InRange)
    (hc : ∀ text, v ≠ .custom text) : writeVal fd spec v = written fd spec v := by
  cases v with
  | arg a => rfl
  | custom text => exact absurd rfl (hc text)
  | uchar c =>
    have hb : c.toNat < 256 := hv
    simp only [writeVal, written]
    cases ht : spec.type with
    | none => simp only [Fmt.writeArg, ht]
    | some t =>
      simp only
      by_cases he : t = 'c'
      · subst he
        simp [Fmt.writeArg, ht]
      · rw [if_pos he, if_neg he, Fmt.writeInt_eq 32 true (.inl rfl) spec c.toNat (by omega) (by omega), Int.natAbs_natCast, ht]
        have : ¬ ((c.toNat : Int) < 0) := by omega
        have hs : Fmt.signText spec (c.toNat : Int) = Fmt.signText spec 0 := by
          unfold Fmt.signText
          rw [if_neg this, if_neg (by decide : ¬ (0 : Int) < 0)]
        rw [hs]
        cases Fmt.intDigits spec c.toNat <;> rfl
  | ptr n =>
    have hb : n < 2 ^ 64 := hv
    have key : writeVal.address spec n = .ok (Fmt.layout spec (ch! "0x") (Nat.toDigits 16 n)) := by
      unfold writeVal.address
      rw [Fmt.writeInt_eq 64 false (.inr rfl) _ (n : Int) (by omega) (by omega), Int.natAbs_natCast]
      have : ¬ ((n : Int) < 0) := by omega
      simp only [Fmt.intDigits, Fmt.signText, this, if_false, if_true, Bool.false_eq_true, List.nil_append]
      rfl
    simp only [writeVal, written]
    cases ht : spec.type with
    | none => rw [if_pos (.inl rfl)]; exact key
    | some t =>
      simp only
      by_cases he : t = 'p'
      · subst he
        rw [if_neg (by simp), if_pos (.inr rfl)]
        exact key
      · rw [if_pos he, if_neg (by simp [he]), Fmt.unknownType_eq]
        rfl

/-! ## Specifications -/

theorem parseWidth_text {t : SpecText} (hv : t.Valid) (l : ArgList) (next : Next) (tail : Str) :
    parseWidth l next (Fmt.s4 t) (Fmt.r4 t tail) = .ok (Fmt.s5 t, next, Fmt.r5 t tail) := by
  unfold Fmt.r4 Fmt.s5
  have hok := Fmt.peek_r5 hv tail
  cases h : t.width with
  | none =>
    simp only [List.nil_append]
    unfold parseWidth
    rw [if_neg (by rw [Fmt.ok5_not_digit hok]; decide)]
    split
    · rename_i e; rw [e] at hok; simp only [peek] at hok; exact absurd hok (by decide)
    · rfl
  | some w =>
    simp only
    unfold parseWidth
    rw [if_pos (by rw [Fmt.peek_append _ Nat.toDigits_ne_nil]; exact Fmt.peek_toDigits w),
      Fmt.parseNonneg_spec w (hv.width w h).2 _ (Fmt.ok5_not_digit hok)]
    rfl

theorem parsePrecision_text {t : SpecText} (hv : t.Valid) {v : Val} (hf : t.precision ≠ none → noPrecision v = none)
    (l : ArgList) (next : Next) (tail : Str) :
    parsePrecision l v next (Fmt.s5 t) (Fmt.r5 t tail) = .ok (Fmt.s6 t, next, Fmt.r6 t tail) := by
  unfold Fmt.r5 Fmt.s6
  have hok := Fmt.peek_r6 hv tail
  cases h : t.precision with
  | none =>
    simp only [List.nil_append]
    unfold parsePrecision
    split
    · rename_i e; rw [e] at hok; simp only [peek] at hok; exact absurd hok (by decide)
    · rfl
  | some p =>
    have hi := hf (by simp [h])
    simp only [List.cons_append]
    unfold parsePrecision
    simp only
    rw [if_pos (by rw [Fmt.peek_append _ Nat.toDigits_ne_nil]; exact Fmt.peek_toDigits p),
      Fmt.parseNonneg_spec p (hv.precision p h) _ (Fmt.ok5_not_digit (by simp [Fmt.ok5, hok]))]
    simp [Except.map, bind, Except.bind, hi]

theorem parseSpec_text {t : SpecText} (hv : t.Valid) {v : Val} (hf : t.Fits v.asArg)
    (hp : t.precision ≠ none → noPrecision v = none) (l : ArgList) (next : Next) (tail : Str) :
    parseSpec l v next (t.print ++ '}' :: tail) = .ok (t.meaning, next, '}' :: tail) := by
  rw [Fmt.print_eq]
  unfold parseSpec
  rw [Fmt.parseAlign_spec hv (fun h => hf.numeric (.inl h))]
  simp only [bind, Except.bind]
  rw [Fmt.parseSign_spec hv (fun h => hf.numeric (.inr (.inl h))) hf.signed]
  simp only
  rw [Fmt.parseHash_spec hv (fun h => hf.numeric (.inr (.inr (.inl h))))]
  simp only
  rw [Fmt.parseZero_spec hv (fun h => hf.numeric (.inr (.inr (.inr h))))]
  simp only
  rw [parseWidth_text hv]
  simp only
  rw [parsePrecision_text hv hp]
  simp only
  rw [Fmt.parseType_spec hv, Fmt.s7_eq hv]

theorem fits_asArg {t : SpecText} {v : Val} (hf : Fits t v) (hc : ∀ text, v ≠ .custom text) :
    t.Fits v.asArg ∧ (t.precision ≠ none → noPrecision v = none) := by
  cases v with
  | custom text => exact absurd rfl (hc text)
  | arg a =>
    have hf : t.Fits a := hf
    refine ⟨hf, fun h => ?_⟩
    simp [noPrecision, Val.asArg, hf.precision h]
  | uchar c =>
    have hf : t.Fits (.char c) := hf
    exact ⟨hf, fun h => absurd (hf.precision h) (by simp [Arg.isInteger])⟩
  | ptr n =>
    obtain ⟨h1, h2, h3, h4, h5⟩ := hf
    refine ⟨⟨?_, by simp [h2], by simp [h5]⟩, by simp [h5]⟩
    rintro (⟨f, h⟩ | h | h | h)
    · exact absurd h (h1 f)
    · exact absurd h2 h
    · rw [h3] at h; cases h
    · rw [h4] at h; cases h

theorem formatPlain_text (fd : Spec → Nat → Except Err Str) (l : ArgList) (v : Val) (hr : v.InRange) (next : Next)
    (hc : ∀ text, v ≠ .custom text)
    (spec : Option SpecText) (hv : ∀ t, spec = some t → t.Valid) (hf : ∀ t, spec = some t → Fits t v) (tail : Str) :
    formatPlain fd l v next (specTail spec tail) =
      match written fd (meaningOf spec) v with
      | .error e => .error e
      | .ok out => .ok (out, next, tail) := by
  unfold formatPlain
  have e : (if peek (specTail spec tail) = ':' then parseSpec l v next (specTail spec tail).tail
      else (Except.ok ({}, next, specTail spec tail) : Except Err (Spec × Next × Str)))
      = .ok (meaningOf spec, next, '}' :: tail) := by
    cases spec with
    | none => rfl
    | some t =>
      obtain ⟨h1, h2⟩ := fits_asArg (hf t rfl) hc
      exact parseSpec_text (hv t rfl) h1 h2 l next tail
  rw [e]
  simp only
  rw [if_pos (show peek ('}' :: tail) = '}' from rfl), writeVal_written fd _ v hr hc]
  cases written fd (meaningOf spec) v <;> rfl

theorem formatField_text (fd : Spec → Nat → Except Err Str) (l : ArgList) (v : Val) (hr : v.InRange) (next : Next)
    (spec : Option SpecText) (hv : ∀ t, spec = some t → t.Valid) (hf : ∀ t, spec = some t → Fits t v) (tail : Str) :
    formatField fd l v next (specTail spec tail) =
      match written fd (meaningOf spec) v with
      | .error e => .error e
      | .ok out => .ok (out, next, tail) := by
  cases v with
  | custom text =>
    have h := formatPlain_text fd l (printed text) trivial next (by intro t h; cases h) spec hv hf tail
    have hw : written fd (meaningOf spec) (printed text) = written fd (meaningOf spec) (.custom text) := rfl
    rw [hw] at h
    unfold formatField
    simp only
    rw [h]
    cases spec with
    | none =>
      rw [if_neg (by simp [specTail, peek]), if_pos (show peek (specTail none tail) = '}' from rfl)]
      cases written fd (meaningOf none) (.custom text) <;> rfl
    | some t => rw [if_pos (show peek (specTail (some t) tail) = ':' from rfl)]
  | arg a => exact formatPlain_text fd l _ hr next (by simp) spec hv hf tail
  | uchar a => exact formatPlain_text fd l _ hr next (by simp) spec hv hf tail
  | ptr a => exact formatPlain_text fd l _ hr next (by simp) spec hv hf tail

/-! ## References -/

theorem ident_cons {s : Str} (h : Ident s) : ∃ c cs, s = c :: cs ∧ isNameStart c = true ∧ ∀ x ∈ cs, isNameChar x = true := by
  obtain ⟨c, cs, rfl⟩ := List.exists_cons_of_ne_nil h.nonempty
  have key : ∀ x, (Fmt.letter x = true ∨ x = '_') → isNameStart x = true := by
    intro x hx
    rcases hx with hx | rfl
    · simp only [Fmt.letter, Bool.or_eq_true] at hx
      unfold isNameStart
      rcases hx with hx | hx <;> simp [hx]
    · rfl
  refine ⟨c, cs, rfl, ?_, ?_⟩
  · have h1 := h.first c rfl
    rcases h.chars c (by simp) with hc | hc | hc
    · exact key c (.inl hc)
    · exact key c (.inr hc)
    · exact absurd hc h1
  · intro x hx
    unfold isNameChar
    rcases h.chars x (by simp [hx]) with hc | hc | hc
    · simp [key x (.inl hc)]
    · simp [key x (.inr hc)]
    · simp [isDigit, hc.1, hc.2]

theorem parseArg_name_at (args : List Passed) (next : Next) (hn : next = some 0 ∨ next = none) (s : Str) (hs : Ident s)
    (rest : Str) (hp : peek rest = ':' ∨ peek rest = '}') :
    parseArg (makeArgList args) next (s ++ rest) =
      match firstNamed args s with
      | none => .error (.format (ch! "argument not found"))
      | some v => .ok (v, none, rest) := by
  obtain ⟨c, cs, rfl, h1, h2⟩ := ident_cons hs
  obtain ⟨d, ds, hd, hstop⟩ : ∃ d ds, rest = d :: ds ∧ isNameChar d = false := by
    cases rest with
    | nil => rcases hp with h | h <;> exact absurd h (by decide)
    | cons d ds =>
      refine ⟨d, ds, rfl, ?_⟩
      simp only [peek] at hp
      rcases hp with rfl | rfl <;> rfl
  unfold parseArg
  rw [if_pos (show isNameStart (peek (c :: cs ++ rest)) = true from h1)]
  unfold parseArgName
  have e1 : (c :: cs ++ rest).tail.takeWhile isNameChar = cs := by
    rw [List.cons_append, List.tail_cons, List.takeWhile_append_of_pos h2, hd,
      List.takeWhile_cons_of_neg (by simp [hstop]), List.append_nil]
  have e2 : (c :: cs ++ rest).tail.dropWhile isNameChar = rest := by
    rw [List.cons_append, List.tail_cons, List.dropWhile_append_of_pos h2, hd,
      List.dropWhile_cons_of_neg (by simp [hstop])]
  simp only [e1, e2]
  rw [show peek (c :: cs ++ rest) = c from rfl, findName_eq]
  rcases hn with rfl | rfl <;> cases firstNamed args (c :: cs) <;> rfl

theorem parseArg_auto_at (args : List Passed) (i : Nat) (rest : Str) (hp : peek rest = ':' ∨ peek rest = '}') :
    parseArg (makeArgList args) (some i) (rest) =
      match args[i]? with
      | none => .error (.format (ch! "argument index out of range"))
      | some a => .ok (a.value, some (i + 1), rest) := by
  unfold parseArg
  have h1 : isNameStart (peek (rest)) = false := by rcases hp with h | h <;> rw [h] <;> rfl
  have h2 : isDigit (peek (rest)) = false := by rcases hp with h | h <;> rw [h] <;> rfl
  rw [if_neg (by rw [h1]; decide)]
  unfold parseArgIndex
  simp only
  rw [if_pos (by rw [h2]; decide), doGetArg_eq]
  cases args[i]? with
  | some a => rfl
  | none =>
    simp only
    rw [if_neg]
    rintro ⟨h3, h4⟩
    rcases hp with h | h
    · exact h4 h
    · exact h3 h

theorem parseArg_manual_at (args : List Passed) (next : Next) (hn : next = some 0 ∨ next = none) (i : Nat) (hi : i < 2 ^ 31)
    (rest : Str) (hp : peek rest = ':' ∨ peek rest = '}') :
    parseArg (makeArgList args) next (Nat.toDigits 10 i ++ rest) =
      match args[i]? with
      | none => .error (.format (ch! "argument index out of range"))
      | some a => .ok (a.value, none, rest) := by
  have h2 : isDigit (peek (rest)) = false := by rcases hp with h | h <;> rw [h] <;> rfl
  have h3 := Fmt.peek_toDigits i
  unfold parseArg
  rw [Fmt.peek_append _ Nat.toDigits_ne_nil, if_neg (by rw [Fmt.digit_not_nameStart h3]; decide)]
  unfold parseArgIndex
  simp only
  rw [Fmt.peek_append _ Nat.toDigits_ne_nil, if_neg (by rw [h3]; decide), Fmt.parseNonneg_spec i hi _ h2]
  have key (h : args[i]? = none) : (if peek (rest) ≠ '}' ∧ peek (rest) ≠ ':'
      then ch! "invalid format string" else ch! "argument index out of range") = ch! "argument index out of range" := by
    rw [if_neg]
    rintro ⟨h3, h4⟩
    rcases hp with h | h
    · exact h4 h
    · exact h3 h
  simp only [doGetArg_eq]
  rcases hn with rfl | rfl
  all_goals
    cases h : args[i]? with
    | some a => rfl
    | none =>
      simp only
      rw [key h]

theorem parseArg_name (args : List Passed) (next : Next) (hn : next = some 0 ∨ next = none) (s : Str) (hs : Ident s)
    (spec : Option SpecText) (tail : Str) :
    parseArg (makeArgList args) next (s ++ specTail spec tail) =
      match firstNamed args s with
      | none => .error (.format (ch! "argument not found"))
      | some v => .ok (v, none, specTail spec tail) :=
  parseArg_name_at args next hn s hs _ (Fmt.peek_specTail spec tail)

theorem parseArg_auto (args : List Passed) (i : Nat) (spec : Option SpecText) (tail : Str) :
    parseArg (makeArgList args) (some i) (specTail spec tail) =
      match args[i]? with
      | none => .error (.format (ch! "argument index out of range"))
      | some a => .ok (a.value, some (i + 1), specTail spec tail) :=
  parseArg_auto_at args i _ (Fmt.peek_specTail spec tail)

theorem parseArg_manual (args : List Passed) (next : Next) (hn : next = some 0 ∨ next = none) (i : Nat) (hi : i < 2 ^ 31)
    (spec : Option SpecText) (tail : Str) :
    parseArg (makeArgList args) next (Nat.toDigits 10 i ++ specTail spec tail) =
      match args[i]? with
      | none => .error (.format (ch! "argument index out of range"))
      | some a => .ok (a.value, none, specTail spec tail) :=
  parseArg_manual_at args next hn i hi _ (Fmt.peek_specTail spec tail)

/-- A field finds its argument. -/
theorem parseArg_ref (args : List Passed) (manual : Bool) (i : Nat) (next : Next) (hn : NextAt manual i next) (ref : Ref)
    (hv : ref.Valid) (hm : ref.says = manual) (spec : Option SpecText) (tail : Str) :
    ∃ next', NextAt manual (i + 1) next' ∧ parseArg (makeArgList args) next (ref.print ++ specTail spec tail) =
      match ref.find args i with
      | .error m => .error (.format m)
      | .ok v => .ok (v, next', specTail spec tail) := by
  cases ref with
  | auto =>
    subst hm
    have hnx : next = some i := hn
    subst hnx
    refine ⟨some (i + 1), rfl, ?_⟩
    rw [show Ref.print .auto ++ specTail spec tail = specTail spec tail from rfl, parseArg_auto]
    simp only [Ref.find, Ref.find.at?]
    cases args[i]? <;> rfl
  | index j =>
    subst hm
    refine ⟨none, .inr rfl, ?_⟩
    rw [show Ref.print (.index j) = Nat.toDigits 10 j from rfl, parseArg_manual args next hn j hv]
    simp only [Ref.find, Ref.find.at?]
    cases args[j]? <;> rfl
  | name s =>
    subst hm
    refine ⟨none, .inr rfl, ?_⟩
    rw [show Ref.print (.name s) = s from rfl, parseArg_name args next hn s hv]
    simp only [Ref.find]
    cases firstNamed args s <;> rfl

theorem firstNamed_mem {args : List Passed} {s : Str} {v : Val} (h : firstNamed args s = some v) : ∃ a ∈ args, a.value = v := by
  induction args with
  | nil => cases h
  | cons a args ih =>
    cases a with
    | val w =>
      obtain ⟨a, h1, h2⟩ := ih h
      exact ⟨a, by simp [h1], h2⟩
    | named n w =>
      rw [firstNamed] at h
      split at h
      · cases h
        exact ⟨.named n v, by simp, rfl⟩
      · obtain ⟨a, h1, h2⟩ := ih h
        exact ⟨a, by simp [h1], h2⟩

theorem find_mem {args : List Passed} {i : Nat} {ref : Ref} {v : Val} (h : ref.find args i = .ok v) :
    ∃ a ∈ args, a.value = v := by
  have key : ∀ j, Ref.find.at? args j = .ok v → ∃ a ∈ args, a.value = v := by
    intro j hj
    unfold Ref.find.at? at hj
    split at hj
    · rename_i a ha
      cases hj
      exact ⟨a, List.mem_of_getElem? ha, rfl⟩
    · cases hj
  cases ref with
  | auto => exact key i h
  | index j => exact key j h
  | name s =>
    simp only [Ref.find] at h
    split at h
    · rename_i w hw
      cases h
      exact firstNamed_mem hw
    · cases h

/-! ## The loop -/

theorem formatLoop_text (fd : Spec → Nat → Except Err Str) (l : ArgList) (next : Next) (rest : Str) (R : Except Err Str)
    (h : ∀ fuel, rest.length ≤ fuel → formatLoop fd l fuel next rest = R) (s : Str) :
    ∀ fuel, (Fmt.escapeText s ++ rest).length ≤ fuel →
      formatLoop fd l fuel next (Fmt.escapeText s ++ rest) = R.map (s ++ ·) := by
  induction s with
  | nil =>
    intro fuel hf
    rw [show Fmt.escapeText [] ++ rest = rest from rfl] at hf ⊢
    rw [h fuel hf]
    cases R <;> rfl
  | cons c s ih =>
    intro fuel hf
    have e : Fmt.escapeText (c :: s) = (if c = '{' ∨ c = '}' then [c, c] else [c]) ++ Fmt.escapeText s := by
      simp [Fmt.escapeText]
    rw [e] at hf ⊢
    by_cases hc : c = '{' ∨ c = '}'
    · rw [if_pos hc] at hf ⊢
      simp only [List.cons_append, List.nil_append, List.length_cons] at hf ⊢
      obtain ⟨fuel, rfl⟩ : ∃ k, fuel = k + 1 := ⟨fuel - 1, by omega⟩
      rw [formatLoop, if_neg (by rcases hc with rfl | rfl <;> decide), if_pos (show peek (c :: _) = c from rfl), List.tail_cons, ih fuel (by omega), Fmt.map_map]
      rfl
    · rw [if_neg hc] at hf ⊢
      simp only [List.cons_append, List.nil_append, List.length_cons] at hf ⊢
      obtain ⟨fuel, rfl⟩ : ∃ k, fuel = k + 1 := ⟨fuel - 1, by omega⟩
      rw [formatLoop, if_pos (by simpa only [not_or] using hc), ih fuel (by omega), Fmt.map_map]
      rfl

theorem peek_ref {ref : Ref} (hv : ref.Valid) (spec : Option SpecText) (tail : Str) :
    peek (ref.print ++ specTail spec tail) ≠ '{' := by
  cases ref with
  | auto =>
    rcases Fmt.peek_specTail spec tail with h | h <;> rw [show Ref.print .auto ++ specTail spec tail = specTail spec tail from rfl, h] <;> decide
  | index i =>
    rw [show Ref.print (.index i) = Nat.toDigits 10 i from rfl, Fmt.peek_append _ Nat.toDigits_ne_nil]
    intro h
    have := Fmt.peek_toDigits i
    rw [h] at this
    exact absurd this (by decide)
  | name s =>
    obtain ⟨c, cs, rfl, h1, _⟩ := ident_cons hv
    show c ≠ '{'
    rintro rfl
    exact absurd h1 (by decide)

theorem print_field (ref : Ref) (spec : Option SpecText) (tail : Str) :
    (Piece.field ref spec).print ++ tail = '{' :: (ref.print ++ specTail spec tail) := by
  cases spec <;> simp [Piece.print, specTail]

theorem formatLoop_pieces (fd : Spec → Nat → Except Err Str) (args : List Passed) (hr : ∀ a ∈ args, a.value.InRange)
    (manual : Bool) (ps : List Piece) :
    ∀ (i : Nat) (next : Next), WellFormed ps → Suits args i ps → Chosen manual ps → NextAt manual i next →
    ∀ fuel, (printAll ps).length ≤ fuel → formatLoop fd (makeArgList args) fuel next (printAll ps) = expand fd args i ps := by
  induction ps with
  | nil =>
    intro i next _ _ _ _ fuel _
    simp [printAll, formatLoop, expand]
  | cons p ps ih =>
    intro i next hw hs hm hn fuel hf
    cases p with
    | text s =>
      rw [printAll, Piece.print] at hf ⊢
      rw [expand]
      exact formatLoop_text fd _ next _ _ (fun k hk => ih i next hw.2 hs hm hn k hk) s fuel hf
    | field ref spec =>
      obtain ⟨hw1, hw2, hw3⟩ := hw
      obtain ⟨hs1, hs2⟩ := hs
      rw [printAll, print_field] at hf ⊢
      have hlen : (printAll ps).length ≤ (ref.print ++ specTail spec (printAll ps)).length := by
        unfold specTail
        simp only [List.length_append, List.length_cons]
        omega
      rw [List.length_cons] at hf
      obtain ⟨fuel, rfl⟩ : ∃ k, fuel = k + 1 := ⟨fuel - 1, by omega⟩
      rw [formatLoop, if_neg (by decide), if_neg (peek_ref hw1 _ _), if_neg (by decide), expand]
      unfold field
      obtain ⟨next', hn', hp⟩ := parseArg_ref args manual i next hn ref hw1 hm.1 spec (printAll ps)
      rw [hp]
      cases ha : ref.find args i with
      | error m => rfl
      | ok v =>
        obtain ⟨a, ha1, ha2⟩ := find_mem ha
        simp only
        rw [formatField_text fd _ v (ha2 ▸ hr a ha1) next' spec hw2 (fun t ht => hs1 v t ha ht)]
        cases written fd (meaningOf spec) v with
        | error x => rfl
        | ok out =>
          simp only
          rw [ih (i + 1) next' hw3 hs2 hm.2 hn' fuel (by omega)]

theorem ident_no_nul {s : Str} (h : Ident s) : '\x00' ∉ s := by
  intro hm
  rcases h.chars _ hm with h | h | h
  · exact absurd h (by decide)
  · exact absurd h (by decide)
  · exact absurd h.1 (by decide)

theorem printAll_no_nul (ps : List Piece) (hw : WellFormed ps) : '\x00' ∉ printAll ps := by
  induction ps with
  | nil => simp [printAll]
  | cons p ps ih =>
    rw [printAll, List.mem_append, not_or]
    cases p with
    | text s =>
      refine ⟨?_, ih hw.2⟩
      have hs := hw.1
      simp only [Piece.print, Fmt.escapeText, List.mem_flatMap, not_exists, not_and]
      intro c hc h
      split at h
      · simp at h; exact hs (h ▸ hc)
      · simp at h; exact hs (h ▸ hc)
    | field ref spec =>
      obtain ⟨hw1, hw2, hw3⟩ := hw
      refine ⟨?_, ih hw3⟩
      have hr : '\x00' ∉ ref.print := by
        cases ref with
        | auto => simp [Ref.print]
        | index i => exact Fmt.toDigits_no_nul i
        | name s => exact ident_no_nul hw1
      cases spec with
      | none => simp [Piece.print, hr]
      | some t => simp [Piece.print, hr, Fmt.print_no_nul (hw2 t rfl)]

end Blackhole.FmtArgs
