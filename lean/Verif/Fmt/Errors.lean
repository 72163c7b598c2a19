import Verif.Fmt.Text

/-! # Faults in format strings (C69)

Every format string that is made of well formed pieces, perhaps with a fault at its end, either prints what it says or is
refused; in that case the message tells the first fault. -/

namespace Blackhole.Fmt

/-! ## What is expected -/

/-- Numbers, as far as specifications are concerned: everything but texts. -/
def isNumber : Arg → Bool
  | .cstr _ | .str _ _ | .strNull => false
  | _ => true

/-- Arguments that have no precision. -/
def isInt : Arg → Bool
  | .cstr _ | .str _ _ | .strNull | .double _ => false
  | _ => true

def isUnsigned : Arg → Bool
  | .uint _ | .ulong _ => true
  | _ => false

def needsNumber (c : Char) : Str := ch! "format specifier '" ++ [c] ++ ch! "' requires numeric argument"
def needsSigned (c : Char) : Str := ch! "format specifier '" ++ [c] ++ ch! "' requires signed argument"

/-- What is wrong with a specification for an argument, from left to right. -/
def SpecText.complaints (t : SpecText) (a : Arg) : List Str :=
  (if (t.align.map (·.2)) = some .numeric ∧ ¬ isNumber a then [needsNumber '='] else [])
  ++ ((match t.sign with
    | none => []
    | some c => if ¬ isNumber a then [needsNumber c] else if isUnsigned a then [needsSigned c] else [])
  ++ ((if t.hash ∧ ¬ isNumber a then [needsNumber '#'] else [])
  ++ ((if t.zero ∧ ¬ isNumber a then [needsNumber '0'] else [])
  ++ (if t.precision ≠ none ∧ isInt a then [ch! "precision not allowed in integer format specifier"] else []))))

/-- How fields were numbered so far: so many that take the next argument, or some with positions. -/
inductive Numbering where
  | automatic (n : Nat)
  | positions

/-- The argument of a field, and the numbering after it; or what is wrong. -/
def select (args : List Arg) : Numbering → Option Nat → Except Str (Arg × Numbering)
  | .automatic n, none =>
    match args[n]? with
    | some a => .ok (a, .automatic (n + 1))
    | none => .error (ch! "argument index out of range")
  | .positions, none => .error (ch! "cannot switch from manual to automatic argument indexing")
  | .automatic (_ + 1), some _ => .error (ch! "cannot switch from automatic to manual argument indexing")
  | _, some i =>
    match args[i]? with
    | some a => .ok (a, .positions)
    | none => .error (ch! "argument index out of range")

/-- An argument with a specification. -/
def present (fd : Spec → Nat → Except Err Str) (spec : Option SpecText) (a : Arg) : Except Err Str :=
  match spec with
  | none => writeArg fd {} a
  | some t =>
    match t.complaints a with
    | m :: _ => .error (.format m)
    | [] => writeArg fd t.meaning a

/-- The beginning of a field. -/
def openField (pos : Option Nat) : Str :=
  '{' :: match pos with
    | none => []
    | some i => Nat.toDigits 10 i

/-- How a format string ends. -/
inductive Ending where
  /-- As it should. -/
  | clean
  /-- A closing brace alone. -/
  | close (rest : Str)
  /-- A field with a name: arguments have none. -/
  | name (c : Char) (rest : Str)
  /-- A field that is neither closed nor has a specification. -/
  | unclosed (pos : Option Nat) (rest : Str)
  /-- Something behind the type letter. -/
  | behindType (pos : Option Nat) (c : Char) (rest : Str)
  /-- An opening brace as fill. -/
  | fill (pos : Option Nat) (al : Align) (rest : Str)
  /-- A point without a precision. -/
  | point (pos : Option Nat) (rest : Str)

def Ending.print : Ending → Str
  | .clean => []
  | .close rest => '}' :: rest
  | .name c rest => '{' :: c :: rest
  | .unclosed pos rest => openField pos ++ rest
  | .behindType pos c rest => openField pos ++ ':' :: c :: rest
  | .fill pos al rest => openField pos ++ ':' :: '{' :: alignChar al :: rest
  | .point pos rest => openField pos ++ ':' :: '.' :: rest

/-- What begins a name. -/
def beginsName (c : Char) : Bool := letter c || c == '_'

/-- The rest of the text really is a fault of this kind. -/
def Ending.Proper : Ending → Prop
  | .clean => True
  | .close rest => rest.head? ≠ some '}'
  | .name c _ => beginsName c
  | .unclosed pos rest => (∀ i, pos = some i → i < 2 ^ 31) ∧
    match rest.head? with
    | none => True
    | some c => c ≠ '}' ∧ c ≠ ':' ∧ isDigit c = false ∧ (pos = none → c ≠ '{' ∧ beginsName c = false)
  | .behindType pos c rest => (∀ i, pos = some i → i < 2 ^ 31) ∧ letter c ∧ rest.head? ≠ some '}' ∧ ∀ al, rest.head? ≠ some (alignChar al)
  | .fill pos al _ => (∀ i, pos = some i → i < 2 ^ 31) ∧ al ≠ .default
  | .point pos rest => (∀ i, pos = some i → i < 2 ^ 31) ∧
    match rest.head? with
    | none => True
    | some c => c ≠ '{' ∧ isDigit c = false ∧ ∀ al, c ≠ alignChar al

/-- What is printed for the end, or what is said about it. -/
def Ending.report (args : List Arg) (n : Numbering) : Ending → Except Err Str
  | .clean => .ok []
  | .close _ => .error (.format (ch! "unmatched '}' in format string"))
  | .name _ _ =>
    match n with
    | .automatic (_ + 1) => .error (.format (ch! "cannot switch from automatic to manual argument indexing"))
    | _ => .error (.format (ch! "argument not found"))
  | .unclosed pos _ =>
    match select args n pos with
    | .error _ => .error (.format (ch! "invalid format string"))
    | .ok _ => .error (.format (ch! "missing '}' in format string"))
  | .behindType pos _ _ =>
    match select args n pos with
    | .error m => .error (.format m)
    | .ok _ => .error (.format (ch! "missing '}' in format string"))
  | .fill pos _ _ =>
    match select args n pos with
    | .error m => .error (.format m)
    | .ok _ => .error (.format (ch! "invalid fill character '{'"))
  | .point pos _ =>
    match select args n pos with
    | .error m => .error (.format m)
    | .ok _ => .error (.format (ch! "missing precision specifier"))

/-- The whole format string, from left to right; the first fault counts. -/
def outcome (fd : Spec → Nat → Except Err Str) (args : List Arg) (e : Ending) : Numbering → List Piece → Except Err Str
  | n, [] => e.report args n
  | n, .text s :: ps => (outcome fd args e n ps).map (s ++ ·)
  | n, .field pos spec :: ps =>
    match select args n pos with
    | .error m => .error (.format m)
    | .ok (a, n) =>
      match present fd spec a with
      | .error err => .error err
      | .ok out => (outcome fd args e n ps).map (out ++ ·)

/-! ## Lemmas -/

theorem isNumber_eq (a : Arg) : a.isNumeric = isNumber a := by cases a <;> rfl
theorem isInt_eq (a : Arg) : a.isInteger = isInt a := by cases a <;> rfl

theorem requireNumeric_eq (a : Arg) (c : Char) :
    requireNumeric a c = if isNumber a then .ok () else .error (.format (needsNumber c)) := by
  rw [requireNumeric, isNumber_eq]; rfl

theorem checkSign_eq (a : Arg) (c : Char) :
    checkSign a c = if isNumber a then (if isUnsigned a then .error (.format (needsSigned c)) else .ok ())
      else .error (.format (needsNumber c)) := by
  unfold checkSign
  rw [requireNumeric_eq]
  cases a <;> rfl

/-- What is wrong is what does not fit. -/
theorem fits_iff (t : SpecText) (a : Arg) : t.Fits a ↔ t.complaints a = [] := by
  simp only [SpecText.complaints, List.append_eq_nil_iff]
  constructor
  · rintro ⟨h1, h2, h3⟩
    rw [isNumber_eq] at h1
    rw [isInt_eq] at h3
    refine ⟨?_, ?_, ?_, ?_, ?_⟩
    · rw [if_neg]
      rintro ⟨h, hn⟩
      cases ha : t.align with
      | none => simp [ha] at h
      | some x => exact hn (h1 (.inl ⟨x.1, by rw [ha]; simp [ha] at h; rw [← h]⟩))
    · cases hs : t.sign with
      | none => rfl
      | some c =>
        have e1 := h1 (.inr (.inl (by simp [hs])))
        obtain ⟨e2, e3⟩ := h2 (by simp [hs])
        have e4 : isUnsigned a = false := by
          cases a <;> first | rfl | exact absurd rfl (e2 _) | exact absurd rfl (e3 _)
        simp [e1, e4]
    · rw [if_neg]
      rintro ⟨h, hn⟩
      exact hn (h1 (.inr (.inr (.inl h))))
    · rw [if_neg]
      rintro ⟨h, hn⟩
      exact hn (h1 (.inr (.inr (.inr h))))
    · rw [if_neg]
      rintro ⟨h, hn⟩
      rw [h3 h] at hn
      exact absurd hn (by decide)
  · rintro ⟨h1, h2, h3, h4, h5⟩
    refine ⟨?_, ?_, ?_⟩
    · rw [isNumber_eq]
      rintro (⟨f, h⟩ | h | h | h)
      · simpa [h] using h1
      · obtain ⟨c, hc⟩ := Option.ne_none_iff_exists'.1 h
        rw [hc] at h2
        cases hn : isNumber a with
        | true => rfl
        | false => simp [hn] at h2
      · simpa [h] using h3
      · simpa [h] using h4
    · intro h
      obtain ⟨c, hc⟩ := Option.ne_none_iff_exists'.1 h
      rw [hc] at h2
      constructor
      · rintro n rfl
        simp [isNumber, isUnsigned] at h2
      · rintro n rfl
        simp [isNumber, isUnsigned] at h2
    · intro h
      rw [isInt_eq]
      simpa [h] using h5

theorem parseSpec_complaint {t : SpecText} (hv : t.Valid) {a : Arg} {m : Str} {ms : List Str} (hm : t.complaints a = m :: ms)
    (args : List Arg) (next : Next) (tail : Str) :
    parseSpec args a next (t.print ++ '}' :: tail) = .error (.format m) := by
  rw [print_eq]
  unfold parseSpec
  unfold SpecText.complaints at hm
  by_cases h1 : (∃ f, t.align = some (f, .numeric)) → a.isNumeric = true
  case neg =>
    simp only [Classical.not_imp] at h1
    obtain ⟨⟨f, h⟩, hn⟩ := h1
    rw [isNumber_eq] at hn
    rw [if_pos ⟨by rw [h]; rfl, hn⟩, List.cons_append, List.cons.injEq] at hm
    rw [← hm.1]
    have : parseAlign a {} (r0 t tail) = .error (.format (needsNumber '=')) := by
      unfold r0
      rw [h]
      cases f with
      | none =>
        simp only [Option.toList_none, List.nil_append, List.singleton_append, alignChar]
        unfold parseAlign
        simp only [alignOf_none (peek_r1 hv tail), show alignOf '=' = some .numeric from rfl]
        simp only [afterAlign, if_true, requireNumeric_eq, if_neg hn]
      | some f =>
        obtain ⟨hf1, hf2, _⟩ := hv.fill f _ h
        simp only [Option.toList_some, List.cons_append, List.nil_append, alignChar]
        unfold parseAlign
        simp only [peek, alignOf]
        rw [if_neg hf2, if_neg hf1]
        simp only [afterAlign, if_true, requireNumeric_eq, if_neg hn]
    rw [this]
    rfl
  rw [if_neg (by
    rintro ⟨h, hn⟩
    cases ha : t.align with
    | none => simp [ha] at h
    | some x =>
      have := h1 ⟨x.1, by rw [ha]; simp [ha] at h; rw [← h]⟩
      rw [isNumber_eq] at this
      exact hn this), List.nil_append] at hm
  rw [parseAlign_spec hv h1]
  simp only [bind, Except.bind]
  by_cases h2 : t.sign ≠ none → a.isNumeric = true ∧ (∀ n, a ≠ .uint n) ∧ ∀ n, a ≠ .ulong n
  case neg =>
    simp only [Classical.not_imp] at h2
    obtain ⟨hs, h2⟩ := h2
    obtain ⟨c, hc⟩ := Option.ne_none_iff_exists'.1 hs
    rw [hc] at hm
    simp only at hm
    have he : checkSign a c = .error (.format m) := by
      rw [checkSign_eq]
      rw [isNumber_eq] at h2
      cases hn : isNumber a with
      | false =>
        simp only [hn, Bool.false_eq_true, not_false_eq_true, if_true, List.cons_append, List.cons.injEq] at hm
        rw [← hm.1]; rfl
      | true =>
        have hu : isUnsigned a = true := by
          cases hu : isUnsigned a with
          | true => rfl
          | false =>
            refine absurd ⟨hn, ?_, ?_⟩ h2
            · rintro n rfl; simp [isUnsigned] at hu
            · rintro n rfl; simp [isUnsigned] at hu
        simp only [hn, hu, not_true_eq_false, if_false, if_true, List.cons_append, List.cons.injEq] at hm
        rw [← hm.1, hu]; rfl
    have : parseSign a (s1 t) (r1 t tail) = .error (.format m) := by
      unfold r1
      rw [hc]
      rcases hv.sign c hc with rfl | rfl | rfl <;> simp [parseSign, he, Except.map]
    rw [this]
  have hsign : (match t.sign with
    | none => []
    | some c => if ¬ isNumber a then [needsNumber c] else if isUnsigned a then [needsSigned c] else []) = [] := by
    cases hs : t.sign with
    | none => rfl
    | some c =>
      obtain ⟨e1, e2, e3⟩ := h2 (by simp [hs])
      rw [isNumber_eq] at e1
      have e4 : isUnsigned a = false := by
        cases a <;> first | rfl | exact absurd rfl (e2 _) | exact absurd rfl (e3 _)
      simp [e1, e4]
  rw [hsign, List.nil_append] at hm
  rw [parseSign_spec hv (fun h => (h2 h).1) (fun h => (h2 h).2)]
  simp only
  by_cases h3 : t.hash = true → a.isNumeric = true
  case neg =>
    simp only [Classical.not_imp] at h3
    rw [isNumber_eq] at h3
    rw [if_pos h3, List.cons_append, List.cons.injEq] at hm
    have : parseHash a (s2 t) (r2 t tail) = .error (.format m) := by
      unfold r2
      rw [h3.1, ← hm.1]
      simp [parseHash, requireNumeric_eq, h3.2, Except.map]
    rw [this]
  rw [if_neg (by rintro ⟨h, hn⟩; rw [← isNumber_eq] at hn; exact hn (h3 h)), List.nil_append] at hm
  rw [parseHash_spec hv h3]
  simp only
  by_cases h4 : t.zero = true → a.isNumeric = true
  case neg =>
    simp only [Classical.not_imp] at h4
    rw [isNumber_eq] at h4
    rw [if_pos h4, List.cons_append, List.cons.injEq] at hm
    have : parseZero a (s3 t) (r3 t tail) = .error (.format m) := by
      unfold r3
      rw [h4.1, ← hm.1]
      simp [parseZero, requireNumeric_eq, h4.2, Except.map]
    rw [this]
  rw [if_neg (by rintro ⟨h, hn⟩; rw [← isNumber_eq] at hn; exact hn (h4 h)), List.nil_append] at hm
  rw [parseZero_spec hv h4]
  simp only
  rw [parseWidth_spec hv]
  simp only
  by_cases h5 : t.precision ≠ none ∧ isInt a = true
  · obtain ⟨p, hp⟩ := Option.ne_none_iff_exists'.1 h5.1
    rw [if_pos h5, List.cons.injEq] at hm
    have hi : a.isInteger = true := by rw [isInt_eq]; exact h5.2
    have : parsePrecision args a next (s5 t) (r5 t tail) = .error (.format m) := by
      unfold r5
      rw [hp]
      simp only [List.cons_append]
      unfold parsePrecision
      simp only
      rw [if_pos (by rw [peek_append _ Nat.toDigits_ne_nil]; exact peek_toDigits p),
        parseNonneg_spec p (hv.precision p hp) _ (ok5_not_digit (by simp [ok5, peek_r6 hv tail]))]
      simp [Except.map, bind, Except.bind, hi, ← hm.1]
    rw [this]
  · rw [if_neg h5] at hm
    cases hm

/-- `next_arg_index_` for a numbering. -/
def Numbering.next : Numbering → Next
  | .automatic n => some n
  | .positions => none

theorem nameStart_eq (c : Char) : isNameStart c = beginsName c := rfl

/-- Choosing an argument. -/
theorem parseArg_select (args : List Arg) (n : Numbering) (pos : Option Nat) (hpos : ∀ i, pos = some i → i < 2 ^ 31)
    (rest : Str) (hd : isDigit (peek rest) = false) (hn : pos = none → isNameStart (peek rest) = false) :
    parseArg args n.next ((openField pos).tail ++ rest) =
      match select args n pos with
      | .ok (a, n) => .ok (a, n.next, rest)
      | .error m => .error (.format (if peek rest ≠ '}' ∧ peek rest ≠ ':' then ch! "invalid format string" else m)) := by
  cases pos with
  | none =>
    simp only [openField, List.tail_cons, List.nil_append]
    unfold parseArg
    rw [if_neg (by simp [hn rfl])]
    unfold parseArgIndex
    simp only
    rw [if_pos (by simp [hd])]
    cases n with
    | positions => rfl
    | automatic i =>
      simp only [Numbering.next, select, doGetArg]
      cases args[i]? <;> rfl
  | some i =>
    have h3 := peek_toDigits i
    simp only [openField, List.tail_cons]
    unfold parseArg
    rw [peek_append _ Nat.toDigits_ne_nil, if_neg (by rw [digit_not_nameStart h3]; decide)]
    unfold parseArgIndex
    simp only
    rw [peek_append _ Nat.toDigits_ne_nil, if_neg (by rw [h3]; decide), parseNonneg_spec i (hpos i rfl) _ hd]
    simp only
    cases n with
    | positions =>
      simp only [Numbering.next, select, doGetArg]
      cases args[i]? <;> rfl
    | automatic k =>
      cases k with
      | succ k => rfl
      | zero =>
        simp only [Numbering.next, select, doGetArg]
        cases args[i]? <;> rfl

theorem formatField_present (fd : Spec → Nat → Except Err Str) (args : List Arg) (a : Arg) (next : Next)
    (spec : Option SpecText) (hv : ∀ t, spec = some t → t.Valid) (tail : Str) :
    formatField fd args a next (specTail spec tail) =
      match present fd spec a with
      | .error e => .error e
      | .ok out => .ok (out, next, tail) := by
  cases spec with
  | none =>
    rw [formatField_spec fd args a next none hv (by simp)]
    rfl
  | some t =>
    cases hc : t.complaints a with
    | nil =>
      rw [formatField_spec fd args a next (some t) hv (by rintro u ⟨⟩; exact (fits_iff t a).2 hc)]
      simp only [present, hc, meaningOf]
      cases writeArg fd t.meaning a <;> rfl
    | cons m ms =>
      simp only [present, hc]
      have : specTail (some t) tail = ':' :: (t.print ++ '}' :: tail) := rfl
      rw [this]
      unfold formatField
      rw [if_pos (show peek (':' :: _) = ':' from rfl), List.tail_cons, parseSpec_complaint (hv t rfl) hc]

theorem peek_head {s : Str} {c : Char} (h : peek s = c) (hc : c ≠ '\x00') : s.head? = some c := by
  cases s with
  | nil => exact absurd h.symm hc
  | cons d s => simp only [peek] at h; simp [h]

theorem alignOf_some {c : Char} {al : Align} (h : alignOf c = some al) : c = alignChar al := by
  unfold alignOf at h
  split at h <;> cases h <;> rfl

/-- What cannot be a sign, `#`, `0` or a width is left alone. -/
theorem parse_passes (args : List Arg) (a : Arg) (next : Next) (spec : Spec) (s : Str) (h : ok5 (peek s) = true) :
    parseSign a spec s = .ok (spec, s) ∧ parseHash a spec s = .ok (spec, s) ∧ parseZero a spec s = .ok (spec, s)
    ∧ parseWidth args next spec s = .ok (spec, next, s) := by
  refine ⟨?_, ?_, ?_, ?_⟩
  · unfold parseSign
    split
    · simp only [peek] at h; exact absurd h (by decide)
    · simp only [peek] at h; exact absurd h (by decide)
    · simp only [peek] at h; exact absurd h (by decide)
    · rfl
  · unfold parseHash
    split
    · simp only [peek] at h; exact absurd h (by decide)
    · rfl
  · unfold parseZero
    split
    · simp only [peek] at h; exact absurd h (by decide)
    · rfl
  · unfold parseWidth
    rw [if_neg (by rw [ok5_not_digit h]; decide)]
    split
    · simp only [peek] at h; exact absurd h (by decide)
    · rfl

theorem loop_field (fd : Spec → Nat → Except Err Str) (args : List Arg) (fuel : Nat) (next : Next) (pos : Option Nat)
    (rest : Str) (h : pos = none → peek rest ≠ '{') :
    formatLoop fd args (fuel + 1) next (openField pos ++ rest)
      = match field fd args next ((openField pos).tail ++ rest) with
        | .error e => .error e
        | .ok (out, next, s) => (formatLoop fd args fuel next s).map (out ++ ·) := by
  have hne : peek ((openField pos).tail ++ rest) ≠ '{' := by
    cases pos with
    | none => exact h rfl
    | some i =>
      simp only [openField, List.tail_cons]
      rw [peek_append _ Nat.toDigits_ne_nil]
      intro h
      have := peek_toDigits i
      rw [h] at this
      exact absurd this (by decide)
  have e : openField pos ++ rest = '{' :: ((openField pos).tail ++ rest) := rfl
  rw [e, formatLoop, if_neg (by decide), if_neg hne, if_neg (by decide)]
  rfl

/-- A field that ends in a fault behind its position. -/
theorem loop_fault (fd : Spec → Nat → Except Err Str) (args : List Arg) (fuel : Nat) (n : Numbering) (pos : Option Nat)
    (hpos : ∀ i, pos = some i → i < 2 ^ 31) (rest : Str) (h : pos = none → peek rest ≠ '{')
    (hd : isDigit (peek rest) = false) (hn : pos = none → isNameStart (peek rest) = false) (m : Str)
    (hfault : ∀ a next, formatField fd args a next rest = .error (.format m))
    (hf : (openField pos ++ rest).length ≤ fuel) :
    formatLoop fd args fuel n.next (openField pos ++ rest) =
      match select args n pos with
      | .ok _ => .error (.format m)
      | .error m => .error (.format (if peek rest ≠ '}' ∧ peek rest ≠ ':' then ch! "invalid format string" else m)) := by
  obtain ⟨fuel, rfl⟩ : ∃ k, fuel = k + 1 := ⟨fuel - 1, by simp [openField] at hf; omega⟩
  rw [loop_field fd args fuel _ pos rest h, field, parseArg_select args n pos hpos rest hd hn]
  cases select args n pos with
  | error m => rfl
  | ok x => simp only [hfault]

/-- The last part of a format string. -/
theorem formatLoop_ending (fd : Spec → Nat → Except Err Str) (args : List Arg) (e : Ending) (he : e.Proper)
    (n : Numbering) (fuel : Nat) (hf : e.print.length ≤ fuel) :
    formatLoop fd args fuel n.next e.print = e.report args n := by
  cases e with
  | clean => simp [Ending.print, formatLoop, Ending.report]
  | close rest =>
    obtain ⟨fuel, rfl⟩ : ∃ k, fuel = k + 1 := ⟨fuel - 1, by simp [Ending.print] at hf; omega⟩
    rw [Ending.print, formatLoop, if_neg (by decide), if_neg, if_pos rfl]
    · rfl
    · intro h
      exact he (peek_head h (by decide))
  | name c rest =>
    obtain ⟨fuel, rfl⟩ : ∃ k, fuel = k + 1 := ⟨fuel - 1, by simp [Ending.print] at hf; omega⟩
    have hc : isNameStart c = true := he
    rw [Ending.print, formatLoop, if_neg (by decide), if_neg, if_neg (by decide)]
    · unfold field parseArg
      rw [if_pos (show isNameStart (peek (c :: rest)) = true from hc)]
      cases n with
      | positions => rfl
      | automatic k => cases k <;> rfl
    · intro h
      have : c = '{' := h
      rw [this] at hc
      exact absurd hc (by decide)
  | unclosed pos rest =>
    obtain ⟨hpos, he⟩ := he
    have hr : peek rest ≠ '}' ∧ peek rest ≠ ':' ∧ isDigit (peek rest) = false
        ∧ (pos = none → peek rest ≠ '{' ∧ isNameStart (peek rest) = false) := by
      cases rest with
      | nil => exact ⟨by decide, by decide, rfl, fun _ => ⟨by decide, rfl⟩⟩
      | cons c rest => exact he
    rw [Ending.print, loop_fault fd args fuel n pos hpos rest (fun h => (hr.2.2.2 h).1) hr.2.2.1 (fun h => (hr.2.2.2 h).2)
      (ch! "missing '}' in format string") ?_ hf, Ending.report]
    · cases select args n pos <;> simp [hr.1, hr.2.1]
    · intro a next
      unfold formatField
      rw [if_neg hr.2.1]
      simp only
      rw [if_neg hr.1]
  | behindType pos c rest =>
    obtain ⟨hpos, hc, hb, hal⟩ := he
    rw [Ending.print, loop_fault fd args fuel n pos hpos (':' :: c :: rest) (fun _ => by simp [peek]) rfl (fun _ => rfl)
      (ch! "missing '}' in format string") ?_ hf, Ending.report]
    · cases select args n pos <;> simp [peek]
    · intro a next
      have h1 : alignOf (peek rest) = none := by
        cases h : alignOf (peek rest) with
        | none => rfl
        | some al =>
          have := alignOf_some h
          refine absurd (peek_head this ?_) (hal al)
          cases al <;> decide
      have h2 : alignOf c = none := alignOf_none (by simp [ok1, ok2, ok3, ok4, ok5, ok6, hc])
      have h3 : ok6 (peek (c :: rest)) = true := by simp [peek, ok6, hc]
      have hne : c ≠ '}' := by rintro rfl; exact absurd hc (by decide)
      have hsp : parseSpec args a next (c :: rest) = .ok ({ type := some c }, next, rest) := by
        unfold parseSpec
        obtain ⟨p1, p2, p3, p4⟩ := parse_passes args a next {} (c :: rest) (by simp [ok5, h3])
        have p5 : parsePrecision args a next {} (c :: rest) = .ok ({}, next, c :: rest) := by
          unfold parsePrecision
          split
          · rename_i e
            rw [e] at h3
            simp only [peek] at h3
            exact absurd h3 (by decide)
          · rfl
        have p6 : parseType {} (c :: rest) = ({ type := some c }, rest) := by
          unfold parseType
          split
          · rename_i e; cases e
          · rename_i e
            simp only [List.cons.injEq] at e
            exact absurd e.1 hne
          · rename_i e
            simp only [List.cons.injEq] at e
            rw [← e.1, ← e.2]
        simp only [parseAlign, h1, h2, bind, Except.bind, p1, p2, p3, p4, p5, p6]
      unfold formatField
      rw [if_pos (show peek (':' :: _) = ':' from rfl), List.tail_cons, hsp]
      simp only
      rw [if_neg]
      intro h
      exact hb (peek_head h (by decide))
  | fill pos al rest =>
    obtain ⟨hpos, he⟩ := he
    rw [Ending.print, loop_fault fd args fuel n pos hpos _ (fun _ => by simp [peek]) rfl (fun _ => rfl)
      (ch! "invalid fill character '{'") ?_ hf, Ending.report]
    · cases select args n pos <;> simp [peek]
    · intro a next
      unfold formatField
      rw [if_pos (show peek (':' :: _) = ':' from rfl), List.tail_cons]
      unfold parseSpec parseAlign
      simp only [peek, alignOf_alignChar he, bind, Except.bind]
      rw [if_neg (by decide), if_pos trivial]
  | point pos rest =>
    obtain ⟨hpos, he⟩ := he
    rw [Ending.print, loop_fault fd args fuel n pos hpos _ (fun _ => by simp [peek]) rfl (fun _ => rfl)
      (ch! "missing precision specifier") ?_ hf, Ending.report]
    · cases select args n pos <;> simp [peek]
    · intro a next
      have h1 : alignOf (peek rest) = none := by
        cases rest with
        | nil => rfl
        | cons c rest =>
          cases h : alignOf c with
          | none => exact h
          | some al => exact absurd (alignOf_some h) (he.2.2 al)
      have h2 : isDigit (peek rest) = false := by
        cases rest with
        | nil => rfl
        | cons c rest => exact he.2.1
      unfold formatField
      rw [if_pos (show peek (':' :: _) = ':' from rfl), List.tail_cons]
      have hp : parsePrecision args a next {} ('.' :: rest) = .error (.format (ch! "missing precision specifier")) := by
        unfold parsePrecision
        simp only [h2, Bool.false_eq_true, if_false]
        split
        · rename_i s
          exact absurd rfl he.1
        · rfl
      have : parseSpec args a next ('.' :: rest) = .error (.format (ch! "missing precision specifier")) := by
        unfold parseSpec
        obtain ⟨p1, p2, p3, p4⟩ := parse_passes args a next {} ('.' :: rest) rfl
        simp only [parseAlign, h1, show alignOf '.' = none from rfl, bind, Except.bind, p1, p2, p3, p4, hp]
      rw [this]

/-- **C69.** -/
theorem formatLoop_outcome (fd : Spec → Nat → Except Err Str) (args : List Arg) (e : Ending) (he : e.Proper)
    (ps : List Piece) : ∀ (n : Numbering), WellFormed ps →
    ∀ fuel, (printAll ps ++ e.print).length ≤ fuel →
      formatLoop fd args fuel n.next (printAll ps ++ e.print) = outcome fd args e n ps := by
  induction ps with
  | nil =>
    intro n _ fuel hf
    exact formatLoop_ending fd args e he n fuel hf
  | cons p ps ih =>
    intro n hw fuel hf
    cases p with
    | text s =>
      rw [printAll, Piece.print, List.append_assoc] at hf ⊢
      rw [outcome]
      exact formatLoop_text fd args _ _ _ (fun k hk => ih n hw.2 k hk) s fuel hf
    | field pos spec =>
      obtain ⟨hw1, hw2, hw3⟩ := hw
      have hprint : printAll (.field pos spec :: ps) ++ e.print = openField pos ++ specTail spec (printAll ps ++ e.print) := by
        simp only [printAll, Piece.print, openField, specTail, List.cons_append, List.append_assoc, List.nil_append]
        rfl
      have hlen : (printAll ps ++ e.print).length + 1 ≤ (openField pos ++ specTail spec (printAll ps ++ e.print)).length := by
        simp [specTail, openField]
        omega
      have hp := peek_specTail spec (printAll ps ++ e.print)
      have hd : isDigit (peek (specTail spec (printAll ps ++ e.print))) = false := by rcases hp with h | h <;> rw [h] <;> rfl
      have hns : isNameStart (peek (specTail spec (printAll ps ++ e.print))) = false := by rcases hp with h | h <;> rw [h] <;> rfl
      rw [hprint] at hf ⊢
      obtain ⟨fuel, rfl⟩ : ∃ k, fuel = k + 1 := ⟨fuel - 1, by omega⟩
      rw [loop_field fd args fuel _ pos _ (fun _ => by rcases hp with h | h <;> rw [h] <;> decide), field,
        parseArg_select args n pos hw1 _ hd (fun _ => hns), outcome]
      cases select args n pos with
      | error m => simp only; rcases hp with h | h <;> simp [h]
      | ok x =>
        obtain ⟨a, n'⟩ := x
        simp only
        rw [formatField_present fd args a n'.next spec hw2]
        cases present fd spec a with
        | error err => rfl
        | ok out =>
          simp only
          rw [ih n' hw3 fuel (by omega)]

/-- **C69.** Whatever well formed pieces a format string is made of, with whatever arguments, and whatever fault is at its
end: it prints what the pieces say, or it is refused with the message that belongs to its first fault. -/
theorem C69_outcome (fd : Spec → Nat → Except Err Str) (args : List Arg) (ps : List Piece) (e : Ending)
    (hw : WellFormed ps) (he : e.Proper) (hn : '\x00' ∉ e.print) :
    format fd (printAll ps ++ e.print) args = outcome fd args e (.automatic 0) ps := by
  unfold format
  rw [Config.cstr_plain (by simp [printAll_no_nul ps hw, hn])]
  exact formatLoop_outcome fd args e he ps (.automatic 0) hw _ (Nat.le_refl _)

/-- Where automatic fields are in the arguments. -/
def Numbering.At : Numbering → Nat → Prop
  | .automatic n, i => i = n
  | .positions, _ => True

/-- A numbering that is already decided. -/
def Numbering.Manual : Numbering → Bool → Prop
  | .automatic 0, _ => True
  | .automatic (_ + 1), m => m = false
  | .positions, m => m = true

theorem select_ok {args : List Arg} {n n' : Numbering} {pos : Option Nat} {a : Arg} (h : select args n pos = .ok (a, n')) :
    n.Manual pos.isSome ∧ (∀ m, n'.Manual m ↔ m = pos.isSome) ∧
    ∀ i, n.At i → args[pos.getD i]? = some a ∧ n'.At (i + 1) := by
  cases pos with
  | none =>
    cases n with
    | positions => simp [select] at h
    | automatic k =>
      simp only [select] at h
      cases hk : args[k]? with
      | none => simp [hk] at h
      | some b =>
        simp only [hk, Except.ok.injEq, Prod.mk.injEq] at h
        obtain ⟨rfl, rfl⟩ := h
        refine ⟨by cases k <;> simp [Numbering.Manual], by simp [Numbering.Manual], ?_⟩
        rintro i rfl
        exact ⟨hk, rfl⟩
  | some j =>
    have key : n.Manual true → (match args[j]? with
        | some a => (Except.ok (a, Numbering.positions) : Except Str (Arg × Numbering))
        | none => .error (ch! "argument index out of range")) = .ok (a, n') →
        n.Manual true ∧ (∀ m, n'.Manual m ↔ m = true) ∧ ∀ i, n.At i → args[j]? = some a ∧ n'.At (i + 1) := by
      intro hm h
      cases hj : args[j]? with
      | none => simp [hj] at h
      | some b =>
        simp only [hj, Except.ok.injEq, Prod.mk.injEq] at h
        obtain ⟨rfl, rfl⟩ := h
        exact ⟨hm, by simp [Numbering.Manual], fun _ _ => ⟨rfl, trivial⟩⟩
    cases n with
    | positions => exact key rfl h
    | automatic k =>
      cases k with
      | zero => exact key trivial h
      | succ k => simp [select] at h

theorem outcome_ok {fd : Spec → Nat → Except Err Str} {args : List Arg} (ps : List Piece) :
    ∀ (n : Numbering) (i : Nat) (out : Str), n.At i → outcome fd args .clean n ps = .ok out →
      (∃ m, n.Manual m ∧ Numbered m ps) ∧ Suits args i ps := by
  induction ps with
  | nil =>
    intro n i out _ _
    refine ⟨?_, trivial⟩
    cases n with
    | positions => exact ⟨true, rfl, trivial⟩
    | automatic k => exact ⟨false, by cases k <;> simp [Numbering.Manual], trivial⟩
  | cons p ps ih =>
    intro n i out hi h
    cases p with
    | text s =>
      rw [outcome] at h
      cases hr : outcome fd args .clean n ps with
      | error e => rw [hr] at h; cases h
      | ok r =>
        obtain ⟨⟨m, h1, h2⟩, h3⟩ := ih n i r hi hr
        exact ⟨⟨m, h1, h2⟩, h3⟩
    | field pos spec =>
      rw [outcome] at h
      cases hs : select args n pos with
      | error e => rw [hs] at h; cases h
      | ok x =>
        obtain ⟨a, n'⟩ := x
        rw [hs] at h
        simp only at h
        obtain ⟨e1, e2, e3⟩ := select_ok hs
        obtain ⟨e4, e5⟩ := e3 i hi
        cases hp : present fd spec a with
        | error e => rw [hp] at h; cases h
        | ok o =>
          rw [hp] at h
          simp only at h
          cases hr : outcome fd args .clean n' ps with
          | error e => rw [hr] at h; cases h
          | ok r =>
            obtain ⟨⟨m, h1, h2⟩, h3⟩ := ih n' (i + 1) r e5 hr
            have hm := (e2 m).1 h1
            subst hm
            refine ⟨⟨pos.isSome, e1, rfl, h2⟩, ?_, h3⟩
            intro b t hb ht
            rw [e4] at hb
            cases hb
            subst ht
            rw [fits_iff]
            cases hc : t.complaints a with
            | nil => rfl
            | cons c cs => simp [present, hc] at hp

/-- **C69.** What is accepted is in order: fields have positions throughout or nowhere, and each specification suits its
argument. (So C49 tells what is printed.) -/
theorem C69_accepted (fd : Spec → Nat → Except Err Str) (args : List Arg) (ps : List Piece) (hw : WellFormed ps) (out : Str)
    (h : format fd (printAll ps) args = .ok out) :
    Suits args 0 ps ∧ (∃ manual, Numbered manual ps) ∧ expand fd args 0 ps = .ok out := by
  have := C69_outcome fd args ps .clean hw trivial (by simp [Ending.print])
  rw [Ending.print, List.append_nil, h] at this
  obtain ⟨⟨m, _, h1⟩, h2⟩ := outcome_ok ps (.automatic 0) 0 out rfl this.symm
  exact ⟨h2, ⟨m, h1⟩, by rw [← C49_expand fd args ps m hw h2 h1, h]⟩

/-- Some refused strings, with their arguments, each with another fault. -/
example (fd : Spec → Nat → Except Err Str) :
    format fd (ch! "a{}b{:+}") [.int 5, .uint 7] = .error (.format (ch! "format specifier '+' requires signed argument"))
    ∧ format fd (ch! "a{}b{0}") [.int 5, .uint 7]
      = .error (.format (ch! "cannot switch from automatic to manual argument indexing"))
    ∧ format fd (ch! "a{2:x}}") [.int 5, .uint 7] = .error (.format (ch! "argument index out of range"))
    ∧ format fd (ch! "{}{:x}}") [.int 5, .uint 7] = .error (.format (ch! "unmatched '}' in format string"))
    ∧ format fd (ch! "{}{:{<8}") [.int 5, .uint 7] = .error (.format (ch! "invalid fill character '{'")) := by
  let plus : SpecText := { sign := some '+' }
  let hex : SpecText := { type := some 'x' }
  have vplus : plus.Valid := by constructor <;> simp [plus, SpecText.print]
  have vhex : hex.Valid := by constructor <;> simp [hex, SpecText.print]; decide
  have w5 : writeArg fd {} (.int 5) = .ok (ch! "5") := rfl
  have x7 : writeArg fd hex.meaning (.uint 7) = .ok (ch! "7") := by
    rw [C45_text fd _ _ _ (.uint (n := 7) (by decide))]
    rfl
  refine ⟨?_, ?_, ?_, ?_, ?_⟩
  · refine (C69_outcome fd _ [.text (ch! "a"), .field none none, .text (ch! "b"), .field none (some plus)] .clean
      ⟨by decide, by simp, by simp, by decide, by simp, by rintro t ⟨⟩; exact vplus, trivial⟩ trivial (by decide)).trans ?_
    simp [outcome, select, present, w5, SpecText.complaints, plus, isNumber, isUnsigned, needsSigned, Except.map]
  · refine (C69_outcome fd _ [.text (ch! "a"), .field none none, .text (ch! "b"), .field (some 0) none] .clean
      ⟨by decide, by simp, by simp, by decide, by simp, by simp, trivial⟩ trivial (by decide)).trans ?_
    simp [outcome, select, present, w5, Except.map]
  · refine (C69_outcome fd _ [.text (ch! "a"), .field (some 2) (some hex)] (.close [])
      ⟨by decide, by simp, by rintro t ⟨⟩; exact vhex, trivial⟩ (by simp [Ending.Proper]) (by decide)).trans ?_
    simp [outcome, select, Except.map]
  · refine (C69_outcome fd _ [.field none none, .field none (some hex)] (.close [])
      ⟨by simp, by simp, by simp, by rintro t ⟨⟩; exact vhex, trivial⟩ (by simp [Ending.Proper]) (by decide)).trans ?_
    simp [outcome, select, present, w5, x7, SpecText.complaints, hex, Except.map, Ending.report]
  · refine (C69_outcome fd _ [.field none none] (.fill none .left (ch! "8}"))
      ⟨by simp, by simp, trivial⟩ (by simp [Ending.Proper]) (by decide)).trans ?_
    simp [outcome, select, present, w5, Except.map, Ending.report]

end Blackhole.Fmt
