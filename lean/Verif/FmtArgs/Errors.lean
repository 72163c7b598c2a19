import Verif.FmtArgs.Props
import Verif.Fmt.Errors

/-! # C75 Faults in format strings with names, pointers and user types -/

namespace Blackhole.FmtArgs

open Fmt (Err Spec SpecText Next Arg peek isDigit isNameStart meaningOf specTail Numbering isNumber isInt isUnsigned
  needsNumber needsSigned print_eq isNumber_eq isInt_eq parseAlign parseSign parseHash parseZero r0 r1 r2 r3 r5 s1 s2 s3 s5
  parseAlign_spec parseSign_spec parseHash_spec parseZero_spec peek_r1 alignOf_none alignOf alignChar afterAlign
  requireNumeric_eq checkSign checkSign_eq)

/-! ## What is expected -/

/-- What is wrong with a specification for an argument, from left to right. Objects of user types are texts, as far as
specifications are concerned; so are pointers, except that they have no precision. -/
def complaints (t : SpecText) : Val → List Str
  | .arg a => t.complaints a
  | .uchar c => t.complaints (.char c)
  | .custom text => t.complaints (.cstr text)
  | .ptr _ => t.complaints (.cstr [])
      ++ if t.precision ≠ none then [ch! "precision not allowed in pointer format specifier"] else []

/-- The argument of a field, and the numbering after it; or what is wrong. A name is as good as a position. -/
def select (args : List Passed) : Numbering → Ref → Except Str (Val × Numbering)
  | .automatic n, .auto => (Ref.find args n .auto).map fun v => (v, .automatic (n + 1))
  | .positions, .auto => .error (ch! "cannot switch from manual to automatic argument indexing")
  | .automatic (_ + 1), .index _ | .automatic (_ + 1), .name _ =>
    .error (ch! "cannot switch from automatic to manual argument indexing")
  | _, ref => (ref.find args 0).map fun v => (v, .positions)

/-- An argument with a specification. -/
def present (fd : Spec → Nat → Except Err Str) (spec : Option SpecText) (v : Val) : Except Err Str :=
  match spec with
  | none => written fd {} v
  | some t =>
    match complaints t v with
    | m :: _ => .error (.format m)
    | [] => written fd t.meaning v

/-- The whole format string, from left to right; the first fault counts. -/
def outcome (fd : Spec → Nat → Except Err Str) (args : List Passed) : Numbering → List Piece → Except Err Str
  | _, [] => .ok []
  | n, .text s :: ps => (outcome fd args n ps).map (s ++ ·)
  | n, .field ref spec :: ps =>
    match select args n ref with
    | .error m => .error (.format m)
    | .ok (v, n) =>
      match present fd spec v with
      | .error e => .error e
      | .ok out => (outcome fd args n ps).map (out ++ ·)

/-! ## Helpers -/

/-- The complaints about a value, in terms of what the checks look at. -/
theorem complaints_eq (t : SpecText) (v : Val) (hc : ∀ text, v ≠ .custom text) :
    complaints t v =
      (if (t.align.map (·.2)) = some .numeric ∧ ¬ isNumber v.asArg then [needsNumber '='] else [])
      ++ ((match t.sign with
        | none => []
        | some c => if ¬ isNumber v.asArg then [needsNumber c] else if isUnsigned v.asArg then [needsSigned c] else [])
      ++ ((if t.hash ∧ ¬ isNumber v.asArg then [needsNumber '#'] else [])
      ++ ((if t.zero ∧ ¬ isNumber v.asArg then [needsNumber '0'] else [])
      ++ (if t.precision ≠ none then (noPrecision v).toList else [])))) := by
  have hi : ∀ a : Arg, (if t.precision ≠ none ∧ isInt a then [ch! "precision not allowed in integer format specifier"] else [])
      = if t.precision ≠ none then
        (if a.isInteger then some (ch! "precision not allowed in integer format specifier") else none).toList else [] := by
    intro a
    rw [isInt_eq]
    by_cases h1 : t.precision ≠ none <;> cases h2 : isInt a <;> simp [h1]
  cases v with
  | custom text => exact absurd rfl (hc text)
  | arg a => simp only [complaints, SpecText.complaints, hi]; rfl
  | uchar c => simp only [complaints, SpecText.complaints, hi]; rfl
  | ptr n =>
    simp only [complaints, SpecText.complaints, noPrecision, Option.toList, List.append_assoc]
    simp only [isInt, isNumber, Val.asArg, Bool.false_eq_true, and_false, if_false, List.nil_append]
    rfl

theorem parseSpec_complaint {t : SpecText} (hv : t.Valid) {v : Val} (hcu : ∀ text, v ≠ .custom text) {m : Str}
    {ms : List Str} (hm : complaints t v = m :: ms) (l : ArgList) (next : Next) (tail : Str) :
    parseSpec l v next (t.print ++ '}' :: tail) = .error (.format m) := by
  rw [complaints_eq t v hcu] at hm
  rw [print_eq]
  unfold parseSpec
  generalize ha' : v.asArg = a at hm ⊢
  by_cases h1 : (∃ f, t.align = some (f, .numeric)) → a.isNumeric = true
  case neg =>
    simp only [Classical.not_imp] at h1
    obtain ⟨⟨f, h⟩, hn⟩ := h1
    rw [isNumber_eq] at hn
    rw [if_pos ⟨by rw [h]; rfl, hn⟩, List.cons_append, List.cons.injEq] at hm
    rw [← hm.1]
    have : parseAlign a {} (r0 t tail) = .error (.format (needsNumber '=')) := by
      unfold r0
      rw [h]
      cases f with
      | none =>
        simp only [Option.toList_none, List.nil_append, List.singleton_append, alignChar]
        unfold parseAlign
        simp only [alignOf_none (peek_r1 hv tail), show alignOf '=' = some .numeric from rfl]
        simp only [afterAlign, if_true, requireNumeric_eq, if_neg hn]
      | some f =>
        obtain ⟨hf1, hf2, _⟩ := hv.fill f _ h
        simp only [Option.toList_some, List.cons_append, List.nil_append, alignChar]
        unfold parseAlign
        simp only [peek, alignOf]
        rw [if_neg hf2, if_neg hf1]
        simp only [afterAlign, if_true, requireNumeric_eq, if_neg hn]
    rw [this]
    rfl
  rw [if_neg (by
    rintro ⟨h, hn⟩
    cases ha : t.align with
    | none => simp [ha] at h
    | some x =>
      have := h1 ⟨x.1, by rw [ha]; simp [ha] at h; rw [← h]⟩
      rw [isNumber_eq] at this
      exact hn this), List.nil_append] at hm
  rw [parseAlign_spec hv h1]
  simp only [bind, Except.bind]
  by_cases h2 : t.sign ≠ none → a.isNumeric = true ∧ (∀ n, a ≠ .uint n) ∧ ∀ n, a ≠ .ulong n
  case neg =>
    simp only [Classical.not_imp] at h2
    obtain ⟨hs, h2⟩ := h2
    obtain ⟨c, hc⟩ := Option.ne_none_iff_exists'.1 hs
    rw [hc] at hm
    simp only at hm
    have he : checkSign a c = .error (.format m) := by
      rw [checkSign_eq]
      rw [isNumber_eq] at h2
      cases hn : isNumber a with
      | false =>
        simp only [hn, Bool.false_eq_true, not_false_eq_true, if_true, List.cons_append, List.cons.injEq] at hm
        rw [← hm.1]; rfl
      | true =>
        have hu : isUnsigned a = true := by
          cases hu : isUnsigned a with
          | true => rfl
          | false =>
            refine absurd ⟨hn, ?_, ?_⟩ h2
            · rintro n rfl; simp [isUnsigned] at hu
            · rintro n rfl; simp [isUnsigned] at hu
        simp only [hn, hu, not_true_eq_false, if_false, if_true, List.cons_append, List.cons.injEq] at hm
        rw [← hm.1, hu]; rfl
    have : parseSign a (s1 t) (r1 t tail) = .error (.format m) := by
      unfold r1
      rw [hc]
      rcases hv.sign c hc with rfl | rfl | rfl <;> simp [parseSign, he, Except.map]
    rw [this]
  have hsign : (match t.sign with
    | none => []
    | some c => if ¬ isNumber a then [needsNumber c] else if isUnsigned a then [needsSigned c] else []) = [] := by
    cases hs : t.sign with
    | none => rfl
    | some c =>
      obtain ⟨e1, e2, e3⟩ := h2 (by simp [hs])
      rw [isNumber_eq] at e1
      have e4 : isUnsigned a = false := by
        cases a <;> first | rfl | exact absurd rfl (e2 _) | exact absurd rfl (e3 _)
      simp [e1, e4]
  rw [hsign, List.nil_append] at hm
  rw [parseSign_spec hv (fun h => (h2 h).1) (fun h => (h2 h).2)]
  simp only
  by_cases h3 : t.hash = true → a.isNumeric = true
  case neg =>
    simp only [Classical.not_imp] at h3
    rw [isNumber_eq] at h3
    rw [if_pos h3, List.cons_append, List.cons.injEq] at hm
    have : parseHash a (s2 t) (r2 t tail) = .error (.format m) := by
      unfold r2
      rw [h3.1, ← hm.1]
      simp [parseHash, requireNumeric_eq, h3.2, Except.map]
    rw [this]
  rw [if_neg (by rintro ⟨h, hn⟩; rw [← isNumber_eq] at hn; exact hn (h3 h)), List.nil_append] at hm
  rw [parseHash_spec hv h3]
  simp only
  by_cases h4 : t.zero = true → a.isNumeric = true
  case neg =>
    simp only [Classical.not_imp] at h4
    rw [isNumber_eq] at h4
    rw [if_pos h4, List.cons_append, List.cons.injEq] at hm
    have : parseZero a (s3 t) (r3 t tail) = .error (.format m) := by
      unfold r3
      rw [h4.1, ← hm.1]
      simp [parseZero, requireNumeric_eq, h4.2, Except.map]
    rw [this]
  rw [if_neg (by rintro ⟨h, hn⟩; rw [← isNumber_eq] at hn; exact hn (h4 h)), List.nil_append] at hm
  rw [parseZero_spec hv h4]
  simp only
  rw [parseWidth_text hv]
  simp only
  by_cases h5 : t.precision ≠ none
  · obtain ⟨p, hp⟩ := Option.ne_none_iff_exists'.1 h5
    rw [if_pos h5] at hm
    cases hno : noPrecision v with
    | none => rw [hno] at hm; cases hm
    | some e =>
      rw [hno] at hm
      simp only [Option.toList, List.cons.injEq] at hm
      have : parsePrecision l v next (s5 t) (r5 t tail) = .error (.format m) := by
        unfold r5
        rw [hp]
        simp only [List.cons_append]
        unfold parsePrecision
        simp only
        rw [if_pos (by rw [Fmt.peek_append _ Nat.toDigits_ne_nil]; exact Fmt.peek_toDigits p),
          Fmt.parseNonneg_spec p (hv.precision p hp) _ (Fmt.ok5_not_digit (by simp [Fmt.ok5, Fmt.peek_r6 hv tail]))]
        simp [Except.map, bind, Except.bind, hno, ← hm.1]
      rw [this]
  · rw [if_neg h5] at hm
    cases hm

theorem fits_of_complaints {t : SpecText} {v : Val} (h : complaints t v = []) : Fits t v := by
  cases v with
  | arg a => exact (Fmt.fits_iff t a).2 h
  | uchar c => exact (Fmt.fits_iff t _).2 h
  | custom text => exact (Fmt.fits_iff t (.str text ['\x00'])).2 h
  | ptr n =>
    simp only [complaints, List.append_eq_nil_iff] at h
    have hf := (Fmt.fits_iff t (.cstr [])).2 h.1
    refine ⟨?_, ?_, ?_, ?_, ?_⟩
    · intro f hf'; exact absurd (hf.numeric (.inl ⟨f, hf'⟩)) (by decide)
    · cases hs : t.sign with
      | none => rfl
      | some c => exact absurd (hf.numeric (.inr (.inl (by simp [hs])))) (by decide)
    · cases hs : t.hash with
      | false => rfl
      | true => exact absurd (hf.numeric (.inr (.inr (.inl hs)))) (by decide)
    · cases hs : t.zero with
      | false => rfl
      | true => exact absurd (hf.numeric (.inr (.inr (.inr hs)))) (by decide)
    · cases hp : t.precision with
      | none => rfl
      | some p => simp [hp] at h

theorem formatPlain_complaint (fd : Spec → Nat → Except Err Str) (l : ArgList) (v : Val) (hcu : ∀ text, v ≠ .custom text)
    (next : Next) (t : SpecText) (hv : t.Valid) {m : Str} {ms : List Str} (hm : complaints t v = m :: ms) (tail : Str) :
    formatPlain fd l v next (specTail (some t) tail) = .error (.format m) := by
  have : specTail (some t) tail = ':' :: (t.print ++ '}' :: tail) := rfl
  rw [this]
  unfold formatPlain
  rw [if_pos (show peek (':' :: (t.print ++ '}' :: tail)) = ':' from rfl), List.tail_cons, parseSpec_complaint hv hcu hm]

theorem formatField_present (fd : Spec → Nat → Except Err Str) (l : ArgList) (v : Val) (hr : v.InRange) (next : Next)
    (spec : Option SpecText) (hv : ∀ t, spec = some t → t.Valid) (tail : Str) :
    formatField fd l v next (specTail spec tail) =
      match present fd spec v with
      | .error e => .error e
      | .ok out => .ok (out, next, tail) := by
  cases spec with
  | none =>
    rw [formatField_text fd l v hr next none hv (by simp)]
    rfl
  | some t =>
    cases hc : complaints t v with
    | nil =>
      rw [formatField_text fd l v hr next (some t) hv (by rintro u ⟨⟩; exact fits_of_complaints hc)]
      simp only [present, hc, meaningOf]
      cases written fd t.meaning v <;> rfl
    | cons m ms =>
      simp only [present, hc]
      cases v with
      | custom text =>
        unfold formatField
        simp only
        rw [if_pos (show peek (specTail (some t) tail) = ':' from rfl)]
        exact formatPlain_complaint fd l (printed text) (by intro x h; cases h) next t (hv t rfl) (ms := ms) hc tail
      | arg a => exact formatPlain_complaint fd l _ (by simp) next t (hv t rfl) hc tail
      | uchar a => exact formatPlain_complaint fd l _ (by simp) next t (hv t rfl) hc tail
      | ptr a => exact formatPlain_complaint fd l _ (by simp) next t (hv t rfl) hc tail

theorem parseArg_select (args : List Passed) (n : Numbering) (ref : Ref) (hv : ref.Valid) (rest : Str)
    (hp : peek rest = ':' ∨ peek rest = '}') :
    parseArg (makeArgList args) n.next (ref.print ++ rest) =
      match select args n ref with
      | .ok (v, n) => .ok (v, n.next, rest)
      | .error m => .error (.format m) := by
  have h2 : isDigit (peek (rest)) = false := by rcases hp with h | h <;> rw [h] <;> rfl
  have h1 : isNameStart (peek (rest)) = false := by rcases hp with h | h <;> rw [h] <;> rfl
  have hkey : ∀ m : Str, (if peek (rest) ≠ '}' ∧ peek (rest) ≠ ':'
      then ch! "invalid format string" else m) = m := by
    intro m
    rw [if_neg]
    rintro ⟨h3, h4⟩
    rcases hp with h | h
    · exact h4 h
    · exact h3 h
  cases ref with
  | auto =>
    rw [show Ref.print .auto ++ rest = rest from rfl]
    cases n with
    | automatic n =>
      rw [show Numbering.next (.automatic n) = some n from rfl, parseArg_auto_at _ _ _ hp]
      simp only [select, Ref.find, Ref.find.at?]
      cases args[n]? <;> rfl
    | positions =>
      unfold parseArg
      rw [if_neg (by rw [h1]; decide)]
      unfold parseArgIndex
      simp only
      rw [if_pos (by rw [h2]; decide)]
      simp only [Numbering.next, select, hkey]
  | index i =>
    rw [show Ref.print (.index i) = Nat.toDigits 10 i from rfl]
    have good : ∀ next, next = some 0 ∨ next = none → parseArg (makeArgList args) next (Nat.toDigits 10 i ++ rest)
        = match ((Ref.index i).find args 0).map fun v => (v, Numbering.positions) with
          | .ok (v, n) => .ok (v, n.next, rest)
          | .error m => .error (.format m) := by
      intro next hn
      rw [parseArg_manual_at args next hn i hv _ hp]
      simp only [Ref.find, Ref.find.at?]
      cases args[i]? <;> rfl
    cases n with
    | positions => exact good none (.inr rfl)
    | automatic n =>
      cases n with
      | zero => exact good (some 0) (.inl rfl)
      | succ n =>
        have h3 := Fmt.peek_toDigits i
        unfold parseArg
        rw [Fmt.peek_append _ Nat.toDigits_ne_nil, if_neg (by rw [Fmt.digit_not_nameStart h3]; decide)]
        unfold parseArgIndex
        simp only
        rw [Fmt.peek_append _ Nat.toDigits_ne_nil, if_neg (by rw [h3]; decide), Fmt.parseNonneg_spec i hv _ h2]
        simp only [Numbering.next, select, cannotSwitch, hkey]
  | name s =>
    rw [show Ref.print (.name s) = s from rfl]
    have good : ∀ next, next = some 0 ∨ next = none → parseArg (makeArgList args) next (s ++ rest)
        = match ((Ref.name s).find args 0).map fun v => (v, Numbering.positions) with
          | .ok (v, n) => .ok (v, n.next, rest)
          | .error m => .error (.format m) := by
      intro next hn
      rw [parseArg_name_at args next hn s hv _ hp]
      simp only [Ref.find]
      cases firstNamed args s <;> rfl
    cases n with
    | positions => exact good none (.inr rfl)
    | automatic n =>
      cases n with
      | zero => exact good (some 0) (.inl rfl)
      | succ n =>
        obtain ⟨c, cs, rfl, h3, _⟩ := ident_cons hv
        unfold parseArg
        rw [if_pos (show isNameStart (peek (c :: cs ++ rest)) = true from h3)]
        rfl

theorem select_mem {args : List Passed} {n n' : Numbering} {ref : Ref} {v : Val} (h : select args n ref = .ok (v, n')) :
    ∃ a ∈ args, a.value = v := by
  have key : ∀ i (f : Numbering), (ref.find args i).map (fun v => (v, f)) = .ok (v, n') → ∃ a ∈ args, a.value = v := by
    intro i f h
    cases hf : ref.find args i with
    | error e => rw [hf] at h; cases h
    | ok w =>
      rw [hf] at h
      simp only [Except.map, Except.ok.injEq, Prod.mk.injEq] at h
      exact find_mem (h.1 ▸ hf)
  cases ref with
  | auto =>
    cases n with
    | automatic k => exact key _ _ h
    | positions => cases h
  | index i =>
    cases n with
    | automatic k =>
      cases k with
      | zero => exact key _ _ h
      | succ k => cases h
    | positions => exact key _ _ h
  | name i =>
    cases n with
    | automatic k =>
      cases k with
      | zero => exact key _ _ h
      | succ k => cases h
    | positions => exact key _ _ h

theorem formatLoop_outcome (fd : Spec → Nat → Except Err Str) (args : List Passed) (hr : ∀ a ∈ args, a.value.InRange)
    (ps : List Piece) : ∀ (n : Numbering), WellFormed ps → ∀ fuel, (printAll ps).length ≤ fuel →
      formatLoop fd (makeArgList args) fuel n.next (printAll ps) = outcome fd args n ps := by
  induction ps with
  | nil =>
    intro n _ fuel _
    simp [printAll, formatLoop, outcome]
  | cons p ps ih =>
    intro n hw fuel hf
    cases p with
    | text s =>
      rw [printAll, Piece.print] at hf ⊢
      rw [outcome]
      exact formatLoop_text fd _ n.next _ _ (fun k hk => ih n hw.2 k hk) s fuel hf
    | field ref spec =>
      obtain ⟨hw1, hw2, hw3⟩ := hw
      rw [printAll, print_field] at hf ⊢
      have hlen : (printAll ps).length ≤ (ref.print ++ specTail spec (printAll ps)).length := by
        unfold specTail
        simp only [List.length_append, List.length_cons]
        omega
      rw [List.length_cons] at hf
      obtain ⟨fuel, rfl⟩ : ∃ k, fuel = k + 1 := ⟨fuel - 1, by omega⟩
      rw [formatLoop, if_neg (by decide), if_neg (peek_ref hw1 _ _), if_neg (by decide), outcome]
      unfold field
      rw [parseArg_select args n ref hw1 _ (Fmt.peek_specTail _ _)]
      cases hs : select args n ref with
      | error m => rfl
      | ok x =>
        obtain ⟨v, n'⟩ := x
        obtain ⟨a, ha1, ha2⟩ := select_mem hs
        simp only
        rw [formatField_present fd _ v (ha2 ▸ hr a ha1) n'.next spec hw2]
        cases present fd spec v with
        | error x => rfl
        | ok out =>
          simp only
          rw [ih n' hw3 fuel (by omega)]

/-! ## The property -/

/-- Whatever well formed pieces a format string is made of, with positions and names in any mixture and specifications
that suit their arguments or not, and whatever the arguments are: it prints what the pieces say, or it is refused with
the message that belongs to its first fault. -/
theorem C75_outcome (fd : Spec → Nat → Except Err Str) (args : List Passed) (hr : ∀ a ∈ args, a.value.InRange)
    (ps : List Piece) (hw : WellFormed ps) : format fd (printAll ps) args = outcome fd args (.automatic 0) ps := by
  unfold format
  rw [Config.cstr_plain (printAll_no_nul ps hw)]
  exact formatLoop_outcome fd args hr ps (.automatic 0) hw _ (Nat.le_refl _)

example (fd : Spec → Nat → Except Err Str) :
    format fd (ch! "{x:.3}") [.named (ch! "x") (.ptr 255)]
      = .error (.format (ch! "precision not allowed in pointer format specifier"))
    ∧ format fd (ch! "{x:#}") [.named (ch! "x") (.ptr 255)]
      = .error (.format (ch! "format specifier '#' requires numeric argument"))
    ∧ format fd (ch! "{x:+}{") [.named (ch! "x") (.custom (ch! "bob"))]
      = .error (.format (ch! "format specifier '+' requires numeric argument"))
    ∧ format fd (ch! "{:.3}{x}") [.named (ch! "x") (.custom (ch! "alice")), .val (.uchar 'c')]
      = .error (.format (ch! "cannot switch from automatic to manual argument indexing"))
    ∧ format fd (ch! "{x:.3}{1}{}") [.named (ch! "x") (.custom (ch! "alice")), .val (.uchar 'c')]
      = .error (.format (ch! "cannot switch from manual to automatic argument indexing"))
    ∧ format fd (ch! "{x:.3}{1:d}{0}") [.named (ch! "x") (.custom (ch! "alice")), .val (.uchar 'c')]
      = .ok (ch! "ali99alice") := ⟨rfl, rfl, rfl, rfl, rfl, rfl⟩

end Blackhole.FmtArgs
