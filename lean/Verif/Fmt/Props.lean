import Verif.Fmt.Lemmas
import Verif.Fmt.Parse

/-! # Formatting: properties -/

namespace Blackhole.Fmt

/-! ## C45 Integer rendering and padding -/

/-- Integer arguments with their values. -/
inductive IsInt : Arg → Int → Prop
  | int {z : Int} (h1 : -2 ^ 31 ≤ z) (h2 : z < 2 ^ 31) : IsInt (.int z) z
  | uint {n : Nat} (h : n < 2 ^ 32) : IsInt (.uint n) n
  | long {z : Int} (h1 : -2 ^ 63 ≤ z) (h2 : z < 2 ^ 63) : IsInt (.long z) z
  | ulong {n : Nat} (h : n < 2 ^ 64) : IsInt (.ulong n) n

/-- With a type letter, booleans are the numbers 1 and 0. -/
theorem C45_bool (fd : Spec → Nat → Except Err Str) (spec : Spec) (b : Bool) (h : spec.type ≠ none) :
    writeArg fd spec (.bool b) =
      match intDigits spec (if b then 1 else 0) with
      | some (pre, ds) => .ok (layout spec (signText spec 0 ++ pre) ds)
      | none => .error (refusal (spec.type.getD ' ') (ch! "integer")) := by
  obtain ⟨c, hc⟩ := Option.ne_none_iff_exists'.1 h
  simp only [writeArg, hc]
  cases b with
  | true =>
    rw [if_pos rfl, writeInt_eq 32 false (.inl rfl) spec 1 (by decide) (by decide), hc]
    rfl
  | false =>
    rw [if_neg (by decide), writeInt_eq 32 false (.inl rfl) spec 0 (by decide) (by decide), hc]
    rfl

/-- With another type letter than `c`, characters are the numbers of their codes, which are signed. -/
theorem C45_char (fd : Spec → Nat → Except Err Str) (spec : Spec) (c t : Char) (h : spec.type = some t) (ht : t ≠ 'c') :
    writeArg fd spec (.char c) =
      match intDigits spec (codeOf c).natAbs with
      | some (pre, ds) => .ok (layout spec (signText spec (codeOf c) ++ pre) ds)
      | none => .error (refusal t (ch! "char")) := by
  have hc : c.toNat < 2 ^ 32 := c.val.toNat_lt
  have hv : charValue c = codeOf c := by
    have : c < '\x80' ↔ c.toNat < 128 := Iff.rfl
    simp only [charValue, codeOf, this]
    split <;> omega
  have hlo : -2 ^ 32 < codeOf c := by rw [← hv]; simp only [charValue]; split <;> omega
  have hhi : codeOf c < 2 ^ 32 := by rw [← hv]; simp only [charValue]; split <;> omega
  simp only [writeArg, h, if_pos ht]
  rw [hv, writeInt_eq 32 true (.inl rfl) spec (codeOf c) hlo hhi, h]
  cases intDigits spec (codeOf c).natAbs <;> rfl

example (fd : Spec → Nat → Except Err Str) : writeArg fd { type := some 'd', width := 3 } (.bool true) = .ok (ch! "  1")
    ∧ writeArg fd { type := some 'x', hash := true } (.char 'a') = .ok (ch! "0x61")
    ∧ writeArg fd { type := some 'd' } (.char (Char.ofNat 255)) = .ok (ch! "-1") := by
  refine ⟨?_, ?_, ?_⟩
  · rw [C45_bool fd _ _ (by decide)]; rfl
  · rw [C45_char fd _ _ 'x' rfl (by decide)]; rfl
  · rw [C45_char fd _ _ 'd' rfl (by decide)]; rfl


/-- Every integer argument is rendered as sign, prefix and digits of its value in the base that the type letter names,
laid out in the field; an unknown letter is an error. No part of the output is left unwritten and nothing is written
outside of it. -/
theorem C45_text (fd : Spec → Nat → Except Err Str) (spec : Spec) (a : Arg) (z : Int) (h : IsInt a z) :
    writeArg fd spec a =
      match intDigits spec z.natAbs with
      | some (pre, ds) => .ok (layout spec (signText spec z ++ pre) ds)
      | none => .error (refusal (spec.type.getD ' ') (ch! "integer")) := by
  cases h with
  | int h1 h2 => exact writeInt_eq 32 false (.inl rfl) spec z (by omega) (by omega)
  | @uint n h => exact writeInt_eq 32 false (.inl rfl) spec (n : Int) (by omega) (by omega)
  | long h1 h2 => exact writeInt_eq 64 false (.inr rfl) spec z (by omega) (by omega)
  | @ulong n h => exact writeInt_eq 64 false (.inr rfl) spec (n : Int) (by omega) (by omega)

theorem digitValue_digitChar : ∀ d : Fin 16, digitValue (Nat.digitChar d.val) = some d.val
    ∧ digitValue (Char.toUpper (Nat.digitChar d.val)) = some d.val := by decide

theorem readDigits_append (base : Nat) (b : Str) (a : Str) : ∀ acc,
    readDigits base acc (a ++ b) = (readDigits base acc a).bind fun v => readDigits base v b := by
  induction a with
  | nil => intro acc; rfl
  | cons c a ih =>
    intro acc
    simp only [List.cons_append, readDigits]
    cases digitValue c with
    | none => rfl
    | some d =>
      simp only
      split
      · exact ih _
      · rfl

theorem readDigits_toDigits (base : Nat) (h1 : 1 < base) (h2 : base ≤ 16) (f : Char → Char)
    (hf : ∀ d, d < 16 → digitValue (f (Nat.digitChar d)) = some d) (n : Nat) :
    readDigits base 0 ((Nat.toDigits base n).map f) = some n := by
  induction n using Nat.strongRecOn with
  | _ n ih =>
    rcases Nat.lt_or_ge n base with h | h
    · rw [Nat.toDigits_of_lt_base h]
      simp [readDigits, hf n (by omega), h]
    · rw [Nat.toDigits_of_base_le h1 h, List.map_append, readDigits_append,
        ih _ (Nat.div_lt_self (by omega) h1)]
      have hm : n % base < base := Nat.mod_lt _ (by omega)
      simp only [Option.bind_some, List.map_cons, List.map_nil, readDigits, hf _ (by omega : n % base < 16), hm, if_true]
      rw [Nat.mul_comm, Nat.div_add_mod]

/-- Reading the output of a plain field back gives the integer. -/
theorem C45_decimal_read_back (fd : Spec → Nat → Except Err Str) (a : Arg) (z : Int) (h : IsInt a z) :
    ∃ s, writeArg fd {} a = .ok s ∧ readInt 10 s = some z := by
  rw [C45_text fd {} a z h]
  refine ⟨_, rfl, ?_⟩
  have hr := readDigits_toDigits 10 (by omega) (by omega) id (fun d hd => (digitValue_digitChar ⟨d, hd⟩).1) z.natAbs
  rw [List.map_id] at hr
  have hne : Nat.toDigits 10 z.natAbs ≠ [] := Nat.toDigits_ne_nil
  have hlay : layout {} (signText {} z ++ []) (Nat.toDigits 10 z.natAbs) = signText {} z ++ Nat.toDigits 10 z.natAbs := by
    simp [layout]
  rw [hlay]
  have hd := peek_toDigits z.natAbs
  generalize Nat.toDigits 10 z.natAbs = ds at *
  have hc : ds.head? ≠ some '-' := by
    intro e
    cases ds with
    | nil => exact hne rfl
    | cons c cs =>
      simp only [List.head?_cons, Option.some.injEq] at e
      rw [e] at hd
      simp only [peek] at hd
      exact absurd hd (by decide)
  by_cases hz : z < 0
  · have e : signText {} z = ['-'] := by unfold signText; rw [if_pos hz]
    rw [e]
    unfold readInt
    simp only [List.cons_append, List.nil_append, List.head?_cons, List.tail_cons, if_true]
    rw [if_neg hne, hr, Option.map_some]
    congr 1
    omega
  · have e : signText {} z = [] := by unfold signText; rw [if_neg hz]; rfl
    rw [e]
    unfold readInt
    simp only [List.nil_append, if_neg hc]
    rw [if_neg hne, hr, Option.map_some]
    congr 1
    omega

/-- The digits in every base denote the absolute value, and the first of them is zero only for zero. -/
theorem C45_digits (spec : Spec) (n : Nat) (pre ds : Str) (h : intDigits spec n = some (pre, ds)) :
    (∃ base, (base = 10 ∨ base = 16 ∨ base = 8 ∨ base = 2) ∧ readDigits base 0 ds = some n)
      ∧ ((∃ ds', ds = '0' :: ds') → n = 0 ∧ ds = ['0']) := by
  have low := fun base h1 h2 => readDigits_toDigits base h1 h2 id (fun d hd => (digitValue_digitChar ⟨d, hd⟩).1) n
  have lead (base : Nat) (h1 : 1 < base) (h2 : base ≤ 16) (f : Char → Char) (hf : ∀ d, d < 16 → (f (Nat.digitChar d) = '0' → d = 0))
      (hz : f '0' = '0') : ∀ n, (∃ ds', (Nat.toDigits base n).map f = '0' :: ds') → n = 0 ∧ (Nat.toDigits base n).map f = ['0'] := by
    intro n
    induction n using Nat.strongRecOn with
    | _ n ih =>
      rcases Nat.lt_or_ge n base with hn | hn
      · rw [Nat.toDigits_of_lt_base hn]
        rintro ⟨ds', e⟩
        simp only [List.map_cons, List.map_nil, List.cons.injEq] at e
        have := hf n (by omega) e.1
        subst this
        exact ⟨rfl, by simp [Nat.digitChar, hz]⟩
      · rw [Nat.toDigits_of_base_le h1 hn]
        rintro ⟨ds', e⟩
        have hd : 0 < n / base := Nat.div_pos hn (by omega)
        have : ∃ ds', (Nat.toDigits base (n / base)).map f = '0' :: ds' := by
          rw [List.map_append] at e
          cases hq : (Nat.toDigits base (n / base)).map f with
          | nil =>
            have : Nat.toDigits base (n / base) ≠ [] := Nat.toDigits_ne_nil
            rw [List.map_eq_nil_iff] at hq
            exact absurd hq this
          | cons c cs =>
            rw [hq, List.cons_append] at e
            simp only [List.cons.injEq] at e
            exact ⟨cs, by rw [e.1]⟩
        have := ih _ (Nat.div_lt_self (by omega) h1) this
        omega
  have lowz : ∀ d, d < 16 → (id (Nat.digitChar d) = '0' → d = 0) := by
    intro d hd
    have : ∀ d : Fin 16, Nat.digitChar d.val = '0' → d.val = 0 := by decide
    exact this ⟨d, hd⟩
  have upz : ∀ d, d < 16 → (Char.toUpper (Nat.digitChar d) = '0' → d = 0) := by
    intro d hd
    have : ∀ d : Fin 16, Char.toUpper (Nat.digitChar d.val) = '0' → d.val = 0 := by decide
    exact this ⟨d, hd⟩
  have lead' := fun base h1 h2 => lead base h1 h2 id lowz rfl n
  simp only [List.map_id] at low lead'
  unfold intDigits at h
  simp only at h
  split at h <;> simp only [Option.some.injEq, Prod.mk.injEq, reduceCtorEq] at h
  all_goals obtain ⟨_, rfl⟩ := h
  · exact ⟨⟨10, .inl rfl, low 10 (by omega) (by omega)⟩, lead' 10 (by omega) (by omega)⟩
  · exact ⟨⟨10, .inl rfl, low 10 (by omega) (by omega)⟩, lead' 10 (by omega) (by omega)⟩
  · exact ⟨⟨16, .inr (.inl rfl), low 16 (by omega) (by omega)⟩, lead' 16 (by omega) (by omega)⟩
  · exact ⟨⟨16, .inr (.inl rfl), readDigits_toDigits 16 (by omega) (by omega) Char.toUpper
      (fun d hd => (digitValue_digitChar ⟨d, hd⟩).2) n⟩, lead 16 (by omega) (by omega) Char.toUpper upz rfl n⟩
  · exact ⟨⟨2, .inr (.inr (.inr rfl)), low 2 (by omega) (by omega)⟩, lead' 2 (by omega) (by omega)⟩
  · exact ⟨⟨2, .inr (.inr (.inr rfl)), low 2 (by omega) (by omega)⟩, lead' 2 (by omega) (by omega)⟩
  · exact ⟨⟨8, .inr (.inr (.inl rfl)), low 8 (by omega) (by omega)⟩, lead' 8 (by omega) (by omega)⟩

/-- A width only adds fill characters: as many as are missing, on the side given by the alignment, or between sign and
digits. The result is exactly as long as the width, or as the text without a width if that is longer. -/
theorem C45_width (fd : Spec → Nat → Except Err Str) (spec : Spec) (a : Arg) (z : Int) (h : IsInt a z) (s : Str)
    (hs : writeArg fd spec a = .ok s) :
    ∃ sign digits, writeArg fd { spec with width := 0 } a = .ok (sign ++ digits)
      ∧ s.length = max spec.width (sign ++ digits).length
      ∧ ∃ l m r, s = List.replicate l spec.fill ++ sign ++ List.replicate m spec.fill ++ digits
            ++ List.replicate r spec.fill
          ∧ (spec.align = .left → l = 0 ∧ m = 0)
          ∧ (spec.align = .right ∨ spec.align = .default → m = 0 ∧ r = 0)
          ∧ (spec.align = .center → m = 0 ∧ l ≤ r ∧ r ≤ l + 1)
          ∧ (spec.align = .numeric → l = 0 ∧ r = 0) := by
  rw [C45_text fd _ a z h] at hs ⊢
  have e1 : intDigits { spec with width := 0 } z.natAbs = intDigits spec z.natAbs := rfl
  have e2 : signText { spec with width := 0 } z = signText spec z := rfl
  rw [e1, e2]
  cases hd : intDigits spec z.natAbs with
  | none => rw [hd] at hs; simp at hs
  | some x =>
    obtain ⟨pre, ds⟩ := x
    rw [hd] at hs
    simp only [Except.ok.injEq] at hs ⊢
    subst hs
    generalize signText spec z ++ pre = sg
    refine ⟨sg, ds, ?_, ?_, ?_⟩
    · unfold layout
      cases spec.align <;> simp
    · unfold layout
      cases spec.align <;> simp only [List.length_append, List.length_replicate] <;> omega
    · unfold layout
      generalize spec.width - (sg.length + ds.length) = gap
      cases hal : spec.align
      · exact ⟨gap, 0, 0, by simp, by simp, by simp, by simp, by simp⟩
      · exact ⟨0, 0, gap, by simp, by simp, by simp, by simp, by simp⟩
      · exact ⟨gap, 0, 0, by simp, by simp, by simp, by simp, by simp⟩
      · exact ⟨gap / 2, 0, gap - gap / 2, by simp, by simp, by simp, (fun _ => ⟨rfl, by omega, by omega⟩), by simp⟩
      · exact ⟨0, gap, 0, by simp, by simp, by simp, by simp, by simp⟩

example (fd : Spec → Nat → Except Err Str) : IsInt (.long (-9223372036854775808)) (-9223372036854775808)
    ∧ writeArg fd {} (.long (-9223372036854775808)) = .ok (ch! "-9223372036854775808")
    ∧ writeArg fd { width := 6, fill := '0', align := .numeric } (.ulong 42) = .ok (ch! "000042")
    ∧ writeArg fd { hash := true, type := some 'x' } (.ulong 48879) = .ok (ch! "0xbeef")
    ∧ writeArg fd { width := 7, align := .center, fill := '*' } (.int (-42)) = .ok (ch! "**-42**") :=
  ⟨.long (by decide) (by decide), rfl, rfl, rfl, rfl⟩

/-! ## C49 Format strings -/

/-- A format string, made of literal text with doubled braces and of replacement fields with documented
specifications, expands to its pieces in order: text unchanged, each field rendered from its own argument or from the
next one. A missing argument is an error. -/
theorem C49_expand (fd : Spec → Nat → Except Err Str) (args : List Arg) (ps : List Piece) (manual : Bool)
    (hw : WellFormed ps) (hs : Suits args 0 ps) (hm : Numbered manual ps) :
    format fd (printAll ps) args = expand fd args 0 ps := by
  unfold format
  rw [Config.cstr_plain (printAll_no_nul ps hw)]
  refine formatLoop_spec fd args manual ps 0 (some 0) hw hs hm ?_ _ (Nat.le_refl _)
  unfold NextAt
  cases manual <;> simp

example (fd : Spec → Nat → Except Err Str) :
    let t : SpecText := { zero := true, width := some 6, type := some 'd' }
    let ps := [Piece.text (ch! "{a}"), .field none (some t), .text (ch! "}"), .field none none]
    printAll ps = ch! "{{a}}{:06d}}}{}" ∧ WellFormed ps ∧ Suits [.ulong 42, .cstr (ch! "x")] 0 ps ∧ Numbered false ps
      ∧ format fd (printAll ps) [.ulong 42, .cstr (ch! "x")] = .ok (ch! "{a}000042}x") := by
  intro t ps
  refine ⟨rfl, ?_, ?_, ?_, rfl⟩
  · refine ⟨by decide, by simp, ?_, by decide, by simp, by simp, trivial⟩
    intro u hu
    have : u = t := by simpa using hu.symm
    subst this
    constructor <;> simp [t, letter, SpecText.print]
  · refine ⟨?_, by simp, trivial⟩
    intro a u ha hu
    have h1 : u = t := by simpa using hu.symm
    have h2 : a = .ulong 42 := by simpa using ha.symm
    subst h1 h2
    constructor <;> simp [t, Arg.isNumeric, Arg.isInteger]
  · exact ⟨rfl, rfl, trivial⟩

/-- Text whose braces are doubled is reproduced whatever the arguments are. -/
theorem C49_literal (fd : Spec → Nat → Except Err Str) (args : List Arg) (s : Str) (h : '\x00' ∉ s) :
    format fd (escapeText s) args = .ok s := by
  have := C49_expand fd args [.text s] false ⟨h, trivial⟩ trivial trivial
  simpa [printAll, Piece.print, expand, Except.map] using this

/-- A closing brace that is not doubled is an error. -/
theorem C49_lone_close (fd : Spec → Nat → Except Err Str) (args : List Arg) (s rest : Str) (hs : '\x00' ∉ s)
    (h : peek rest ≠ '}') :
    format fd (escapeText s ++ '}' :: rest) args = .error (.format (ch! "unmatched '}' in format string")) := by
  have key : ∀ rest : Str, peek rest ≠ '}' → ∀ fuel, (('}' :: rest).length ≤ fuel) →
      formatLoop fd args fuel (some 0) ('}' :: rest) = .error (.format (ch! "unmatched '}' in format string")) := by
    intro rest h fuel hf
    obtain ⟨fuel, rfl⟩ : ∃ k, fuel = k + 1 := ⟨fuel - 1, by simp at hf; omega⟩
    rw [formatLoop, if_neg (by decide), if_neg h, if_pos rfl]
  have hc : Config.cstr (escapeText s ++ '}' :: rest) = escapeText s ++ '}' :: Config.cstr rest := by
    have hn : ∀ c ∈ escapeText s, (c ≠ '\x00') := by
      intro c hc e
      subst e
      have := printAll_no_nul [.text s] ⟨hs, trivial⟩
      exact this (by simp [printAll, Piece.print, hc])
    unfold Config.cstr
    rw [List.takeWhile_append_of_pos (by simpa using hn), List.takeWhile_cons_of_pos (by decide)]
  have hr : peek (Config.cstr rest) ≠ '}' := by
    cases rest with
    | nil => decide
    | cons c r =>
      unfold Config.cstr
      by_cases e : c = '\x00'
      · subst e
        rw [List.takeWhile_cons_of_neg (by decide)]
        decide
      · rw [List.takeWhile_cons_of_pos (by simpa using e)]
        exact h
  unfold format
  rw [hc]
  have := formatLoop_text fd args (some 0) ('}' :: Config.cstr rest) _ (key _ hr) s _ (Nat.le_refl _)
  simpa [Except.map] using this

/-- An opening brace at the end is an error. -/
theorem C49_lone_open (fd : Spec → Nat → Except Err Str) (args : List Arg) (s : Str) (hs : '\x00' ∉ s) :
    ∃ m, format fd (escapeText s ++ ['{']) args = .error (.format m) := by
  have hc : Config.cstr (escapeText s ++ ['{']) = escapeText s ++ ['{'] := by
    apply Config.cstr_plain
    have := printAll_no_nul [.text s] ⟨hs, trivial⟩
    simp only [printAll, Piece.print, List.append_nil] at this
    simp [this]
  have key : ∃ m, ∀ fuel, (['{'].length ≤ fuel) → formatLoop fd args fuel (some 0) ['{'] = .error (.format m) := by
    cases ha : args[0]? with
    | none =>
      refine ⟨ch! "invalid format string", ?_⟩
      intro fuel hf
      obtain ⟨fuel, rfl⟩ : ∃ k, fuel = k + 1 := ⟨fuel - 1, by simp at hf; omega⟩
      rw [formatLoop, if_neg (by decide), if_neg (by decide), if_neg (by decide)]
      have : field fd args (some 0) [] = .error (.format (ch! "invalid format string")) := by
        simp [field, parseArg, parseArgIndex, peek, isNameStart, isDigit, doGetArg, ha]
      rw [this]
    | some a =>
      refine ⟨ch! "missing '}' in format string", ?_⟩
      intro fuel hf
      obtain ⟨fuel, rfl⟩ : ∃ k, fuel = k + 1 := ⟨fuel - 1, by simp at hf; omega⟩
      rw [formatLoop, if_neg (by decide), if_neg (by decide), if_neg (by decide)]
      have : field fd args (some 0) [] = .error (.format (ch! "missing '}' in format string")) := by
        simp [field, parseArg, parseArgIndex, peek, isNameStart, isDigit, doGetArg, ha, formatField]
      rw [this]
  obtain ⟨m, hm⟩ := key
  refine ⟨m, ?_⟩
  unfold format
  rw [hc]
  have := formatLoop_text fd args (some 0) ['{'] _ hm s _ (Nat.le_refl _)
  simpa [Except.map] using this

/-- A specification that does not suit its argument is an error and nothing is printed. -/
theorem C49_unsuitable (fd : Spec → Nat → Except Err Str) (a : Arg) (args : List Arg) (t : SpecText) (hv : t.Valid)
    (hf : ¬ t.Fits a) (rest : Str) :
    ∃ m, format fd ('{' :: ':' :: (t.print ++ '}' :: rest)) (a :: args) = .error (.format m) := by
  obtain ⟨m, hm⟩ := parseSpec_rejects hv hf (a :: args) (some 1) (Config.cstr rest)
  refine ⟨m, ?_⟩
  have hc : Config.cstr ('{' :: ':' :: (t.print ++ '}' :: rest)) = '{' :: ':' :: (t.print ++ '}' :: Config.cstr rest) := by
    have hn : ∀ c ∈ t.print, c ≠ '\x00' := fun c hc e => print_no_nul hv (e ▸ hc)
    unfold Config.cstr
    rw [List.takeWhile_cons_of_pos (by decide), List.takeWhile_cons_of_pos (by decide),
      List.takeWhile_append_of_pos (by simpa using hn), List.takeWhile_cons_of_pos (by decide)]
  unfold format
  rw [hc, List.length_cons, formatLoop, if_neg (by decide), if_neg (by simp [peek]), if_neg (by decide)]
  have : field fd (a :: args) (some 0) (':' :: (t.print ++ '}' :: Config.cstr rest)) = .error (.format m) := by
    have hp : parseArg (a :: args) (some 0) (':' :: (t.print ++ '}' :: Config.cstr rest))
        = .ok (a, some 1, ':' :: (t.print ++ '}' :: Config.cstr rest)) := by
      simp [parseArg, parseArgIndex, peek, isNameStart, isDigit, doGetArg]
    unfold field
    rw [hp]
    simp only
    unfold formatField
    rw [if_pos (show peek (':' :: _) = ':' from rfl), List.tail_cons, hm]
  rw [this]

example : (⟨none, some '+', false, false, none, none, none⟩ : SpecText).Valid
    ∧ ¬ (⟨none, some '+', false, false, none, none, none⟩ : SpecText).Fits (.cstr (ch! "x")) := by
  constructor
  · constructor <;> simp [SpecText.print]
  · intro h
    have := h.numeric (by simp)
    exact absurd this (by decide)

/-- Automatic and numbered fields do not mix. -/
theorem C49_no_mixing (fd : Spec → Nat → Except Err Str) (a : Arg) (args : List Arg) (i : Nat) (hi : i < 2 ^ 31)
    (out : Str) (ho : writeArg fd {} a = .ok out) (rest : Str) (hr : '\x00' ∉ rest) :
    format fd ('{' :: '}' :: '{' :: (Nat.toDigits 10 i ++ '}' :: rest)) (a :: args)
        = .error (.format (ch! "cannot switch from automatic to manual argument indexing"))
      ∧ ∀ b, (a :: args)[i]? = some b → writeArg fd {} b = .ok out →
        format fd ('{' :: (Nat.toDigits 10 i ++ '}' :: '{' :: '}' :: rest)) (a :: args)
        = .error (.format (ch! "cannot switch from manual to automatic argument indexing")) := by
  have hd := peek_toDigits i
  constructor
  · have hc : '\x00' ∉ '{' :: '}' :: '{' :: (Nat.toDigits 10 i ++ '}' :: rest) := by
      simp [toDigits_no_nul, hr]
    unfold format
    rw [Config.cstr_plain hc, List.length_cons, formatLoop, if_neg (by decide), if_neg (by simp [peek]), if_neg (by decide)]
    have h1 := parseArg_auto (a :: args) 0 none ('{' :: (Nat.toDigits 10 i ++ '}' :: rest))
    have h2 := formatField_spec fd (a :: args) a (some 1) none (by simp) (by simp) ('{' :: (Nat.toDigits 10 i ++ '}' :: rest))
    have h3 : field fd (a :: args) (some 0) ('}' :: '{' :: (Nat.toDigits 10 i ++ '}' :: rest))
        = .ok (out, some 1, '{' :: (Nat.toDigits 10 i ++ '}' :: rest)) := by
      unfold field
      have : ('}' :: '{' :: (Nat.toDigits 10 i ++ '}' :: rest)) = specTail none ('{' :: (Nat.toDigits 10 i ++ '}' :: rest)) := rfl
      rw [this, h1]
      simp only [List.getElem?_cons_zero]
      rw [h2]
      simp only [meaningOf, ho]
    rw [h3]
    simp only [List.length_cons]
    rw [formatLoop, if_neg (by decide), if_neg, if_neg (by decide)]
    · have h4 : field fd (a :: args) (some 1) (Nat.toDigits 10 i ++ '}' :: rest)
          = .error (.format (ch! "cannot switch from automatic to manual argument indexing")) := by
        unfold field parseArg
        rw [peek_append _ Nat.toDigits_ne_nil, if_neg (by rw [digit_not_nameStart hd]; decide)]
        unfold parseArgIndex
        simp only
        rw [peek_append _ Nat.toDigits_ne_nil, if_neg (by rw [hd]; decide), parseNonneg_spec i hi _ rfl]
        simp [peek]
      rw [h4]
      rfl
    · rw [peek_append _ Nat.toDigits_ne_nil]
      intro e
      rw [e] at hd
      exact absurd hd (by decide)
  · intro b hb hob
    have hc : '\x00' ∉ '{' :: (Nat.toDigits 10 i ++ '}' :: '{' :: '}' :: rest) := by
      simp [toDigits_no_nul, hr]
    unfold format
    rw [Config.cstr_plain hc, List.length_cons, formatLoop, if_neg (by decide), if_neg, if_neg (by decide)]
    · have h1 := parseArg_manual (a :: args) (some 0) (.inl rfl) i hi none ('{' :: '}' :: rest)
      have h2 := formatField_spec fd (a :: args) b none none (by simp) (by simp) ('{' :: '}' :: rest)
      have h3 : field fd (a :: args) (some 0) (Nat.toDigits 10 i ++ '}' :: '{' :: '}' :: rest)
          = .ok (out, none, '{' :: '}' :: rest) := by
        unfold field
        have : '}' :: '{' :: '}' :: rest = specTail none ('{' :: '}' :: rest) := rfl
        rw [this, h1, hb]
        simp only
        rw [h2]
        simp only [meaningOf, hob]
      rw [h3]
      simp only
      obtain ⟨k, hk⟩ : ∃ k, (Nat.toDigits 10 i ++ '}' :: '{' :: '}' :: rest).length = k + 1 := by
        simp only [List.length_append, List.length_cons]
        exact ⟨_, rfl⟩
      rw [hk, formatLoop, if_neg (by decide), if_neg (by simp [peek]), if_neg (by decide)]
      have h4 : field fd (a :: args) none ('}' :: rest)
          = .error (.format (ch! "cannot switch from manual to automatic argument indexing")) := by
        simp [field, parseArg, parseArgIndex, peek, isNameStart, isDigit]
      rw [h4]
      rfl
    · rw [peek_append _ Nat.toDigits_ne_nil]
      intro e
      rw [e] at hd
      exact absurd hd (by decide)

/-- Numbers that do not fit an `int` should be rejected. Those that fit an `unsigned` are. -/
theorem C49_number_too_big_partial (n : Nat) (h1 : 2 ^ 31 ≤ n) (h2 : n < 2 ^ 32) (rest : Str)
    (hr : isDigit (peek rest) = false) :
    parseNonneg (Nat.toDigits 10 n ++ rest) = .error (.format (ch! "number is too big")) := by
  have hval : Nat.ofDigitChars 10 (Nat.toDigits 10 n) 0 = n := Nat.ofDigitChars_ten_toDigits
  unfold parseNonneg
  rw [parseDigits_spec _ _ hr 0 (toDigits_isDigit n) (by rw [hval]; omega), hval]
  simp only
  rw [if_pos (by omega)]

/-- So are those whose last digit makes the `unsigned` wrap around to a smaller number. -/
theorem C49_number_wraps_detected_partial (n : Nat) (h1 : n / 10 < 2 ^ 32) (h2 : n % 2 ^ 32 < n / 10) (rest : Str) :
    parseNonneg (Nat.toDigits 10 n ++ rest) = .error (.format (ch! "number is too big")) := by
  have hb : 10 ≤ n := by omega
  have hval : Nat.ofDigitChars 10 (Nat.toDigits 10 (n / 10)) 0 = n / 10 := Nat.ofDigitChars_ten_toDigits
  have key : ∀ (ds : Str) (v : Nat), (∀ c ∈ ds, isDigit c = true) → Nat.ofDigitChars 10 ds v < 2 ^ 32 →
      ∀ rest, parseDigits v (ds ++ rest) = parseDigits (Nat.ofDigitChars 10 ds v) rest := by
    intro ds
    induction ds with
    | nil => intro v _ _ rest; rfl
    | cons c cs ih =>
      intro v hd hlt rest
      rw [ofDigitChars_cons] at hlt ⊢
      have hle := le_ofDigitChars cs (v * 10 + (c.toNat - 48))
      have e : (v * 10 + (c.toNat - 48)) % 2 ^ 32 = v * 10 + (c.toNat - 48) := Nat.mod_eq_of_lt (by omega)
      rw [List.cons_append, parseDigits, if_pos (hd c (by simp))]
      simp only
      rw [e, if_neg (by omega)]
      exact ih _ (fun x hx => hd x (by simp [hx])) hlt rest
  have hdig : ∀ d : Fin 10, isDigit (Nat.digitChar d.val) = true ∧ (Nat.digitChar d.val).toNat - 48 = d.val := by decide
  unfold parseNonneg
  rw [Nat.toDigits_of_base_le (by omega) hb, List.append_assoc,
    key _ 0 (toDigits_isDigit _) (by rw [hval]; omega), hval, List.singleton_append, parseDigits,
    if_pos (hdig ⟨n % 10, by omega⟩).1]
  simp only
  rw [(hdig ⟨n % 10, by omega⟩).2]
  have e : n / 10 * 10 + n % 10 = n := by omega
  simp only [e]
  rw [if_pos h2]
  simp

example : 5000000000 / 10 < 2 ^ 32 ∧ ¬ 5000000000 % 2 ^ 32 < 5000000000 / 10
    ∧ 4294967296 / 10 < 2 ^ 32 ∧ 4294967296 % 2 ^ 32 < 4294967296 / 10 := by decide

theorem pad_length (spec : Spec) (s : Str) : (pad spec s).length = max spec.width s.length := by
  unfold pad
  split
  · cases spec.align <;> simp only [List.length_append, List.length_replicate] <;> omega
  · omega

theorem format_digits (fd : Spec → Nat → Except Err Str) (w : Nat)
    (hp : parseNonneg (ch! "6000000000}") = .ok (w, ['}'])) :
    format fd (ch! "{:6000000000}") [.cstr (ch! "x")] = .ok (pad { width := w } (ch! "x")) := by
  have hw : parseWidth [.cstr (ch! "x")] (some 1) {} (ch! "6000000000}") = .ok ({ width := w }, some 1, ['}']) := by
    unfold parseWidth
    rw [if_pos (by decide), hp]
    rfl
  have hspec : parseSpec [.cstr (ch! "x")] (.cstr (ch! "x")) (some 1) (ch! "6000000000}")
      = .ok ({ width := w }, some 1, ['}']) := by
    have h1 : parseAlign (.cstr (ch! "x")) {} (ch! "6000000000}") = .ok ({}, ch! "6000000000}") := rfl
    have h2 : parseSign (.cstr (ch! "x")) {} (ch! "6000000000}") = .ok ({}, ch! "6000000000}") := rfl
    have h3 : parseHash (.cstr (ch! "x")) {} (ch! "6000000000}") = .ok ({}, ch! "6000000000}") := rfl
    have h4 : parseZero (.cstr (ch! "x")) {} (ch! "6000000000}") = .ok ({}, ch! "6000000000}") := rfl
    unfold parseSpec
    rw [h1]
    simp only [bind, Except.bind]
    rw [h2]
    simp only
    rw [h3]
    simp only
    rw [h4]
    simp only
    rw [hw]
    rfl
  have hf : field fd [.cstr (ch! "x")] (some 0) (ch! ":6000000000}")
      = .ok (pad { width := w } (ch! "x"), some 1, []) := by
    have h5 : parseArg [.cstr (ch! "x")] (some 0) (ch! ":6000000000}")
        = .ok (.cstr (ch! "x"), some 1, ch! ":6000000000}") := rfl
    unfold field
    rw [h5]
    simp only
    unfold formatField
    rw [if_pos (show peek (':' :: _) = ':' from rfl), List.tail_cons, hspec]
    simp only
    rw [if_pos (show peek ['}'] = '}' from rfl)]
    simp [writeArg, writeStr, writeStr.go, Config.cstr]
  unfold format
  rw [show Config.cstr (ch! "{:6000000000}") = ch! "{:6000000000}" from rfl, List.length_cons, formatLoop,
    if_neg (by decide), if_neg (by decide), if_neg (by decide), hf]
  simp only
  rw [formatLoop]
  simp [Except.map]

/-- Beyond that the check can be passed: a width of 6000000000 acts as 1705032704. -/
theorem C49_fails_number_wraps (fd : Spec → Nat → Except Err Str) :
    ∃ s, format fd (ch! "{:6000000000}") [.cstr (ch! "x")] = .ok s ∧ s.length = 1705032704 := by
  refine ⟨_, format_digits fd 1705032704 rfl, ?_⟩
  rw [pad_length]
  exact Nat.max_eq_left (by simp)

/-- An empty specification looks at the character after the field: before an `=`, a character argument is refused. -/
theorem C49_fails_empty_specification (fd : Spec → Nat → Except Err Str) :
    format fd (ch! "{:}=1") [.char 'x'] = .error (.format (ch! "invalid format specifier for char"))
      ∧ format fd (ch! "{:}-1") [.char 'x'] = .ok (ch! "x-1") := ⟨rfl, rfl⟩

/-! ## C50 Empty strings -/

/-- A string argument that is not empty is printed exactly, whatever follows it in memory, padded to its width. -/
theorem C50_not_empty (fd : Spec → Nat → Except Err Str) (spec : Spec) (s behind : Str) (hs : s ≠ [])
    (ht : spec.type = none ∨ spec.type = some 's') (hp : spec.precision = none) :
    writeArg fd spec (.str s behind) = .ok (pad spec s)
      ∧ (spec.width ≤ s.length → pad spec s = s)
      ∧ (pad spec s).length = max spec.width s.length
      ∧ ∃ l r, pad spec s = List.replicate l spec.fill ++ s ++ List.replicate r spec.fill
          ∧ (spec.align = .right → r = 0) ∧ (spec.align = .center → l ≤ r ∧ r ≤ l + 1)
          ∧ (spec.align ≠ .right → spec.align ≠ .center → l = 0) := by
  refine ⟨?_, ?_, ?_, ?_⟩
  · cases s with
    | nil => exact absurd rfl hs
    | cons c cs =>
      unfold writeArg writeStr writeStr.go
      rcases ht with h | h <;> simp [h, hp]
  · intro h
    unfold pad
    rw [if_neg (by omega)]
  · exact pad_length spec s
  · unfold pad
    split
    · simp only
      generalize spec.width - s.length = gap
      cases hal : spec.align
      · exact ⟨0, gap, by simp⟩
      · exact ⟨0, gap, by simp⟩
      · exact ⟨gap, 0, by simp⟩
      · exact ⟨gap / 2, gap - gap / 2, by simp, by simp, fun _ => ⟨by omega, by omega⟩, by simp⟩
      · exact ⟨0, gap, by simp⟩
    · exact ⟨0, 0, by simp, by simp, by simp, by simp⟩

example (fd : Spec → Nat → Except Err Str) :
    format fd (ch! "[{:>5}]") [.str (ch! "ab") (ch! "cd")] = .ok (ch! "[   ab]") := rfl

/-- An empty string should print nothing. It does if a NUL follows it, as in every `std::string`. -/
theorem C50_empty_partial (fd : Spec → Nat → Except Err Str) (behind : Str) :
    writeArg fd {} (.str [] ('\x00' :: behind)) = .ok [] := by
  simp [writeArg, writeStr, writeStr.go, Config.cstr, pad]

/-- In general it does not: an empty part of a longer text prints what follows it, -/
theorem C50_fails_reads_behind (fd : Spec → Nat → Except Err Str) (behind rest : Str) (h : '\x00' ∉ behind) :
    writeArg fd {} (.str [] (behind ++ '\x00' :: rest)) = .ok behind := by
  have hc : Config.cstr (behind ++ '\x00' :: rest) = behind := by
    unfold Config.cstr
    rw [List.takeWhile_append_of_pos]
    · simp
    · intro c hc
      simp only [decide_not, Bool.not_eq_eq_eq_not, Bool.not_true, decide_eq_false_iff_not]
      exact fun e => h (e ▸ hc)
  unfold writeArg writeStr writeStr.go
  simp only
  cases hb : behind with
  | nil => simp [Config.cstr, pad]
  | cons c cs =>
    rw [hb] at hc
    simp only [List.cons_append] at hc ⊢
    rw [if_pos (by simp), hc]
    simp [pad]

/-- it reads past the end of memory that has no NUL, -/
theorem C50_fails_past_end (fd : Spec → Nat → Except Err Str) (behind : Str) (h : '\x00' ∉ behind) :
    writeArg fd {} (.str [] behind) = .error (.ub .outOfBounds) := by
  unfold writeArg writeStr writeStr.go
  cases behind with
  | nil => rfl
  | cons c cs =>
    simp only
    rw [if_neg h]

/-- and a default-constructed view is an error. -/
theorem C50_fails_null (fd : Spec → Nat → Except Err Str) :
    writeArg fd {} .strNull = .error (.format (ch! "string pointer is null")) := rfl

end Blackhole.Fmt
