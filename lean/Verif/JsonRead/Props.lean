import Verif.JsonRead.Errors
import Verif.Essentials.Props

/-! # Properties of configuration texts: C100 -/

namespace Blackhole.JsonRead

open Config (Json)

variable (toDouble : Str → Option Nat)

/-! ## NUL -/

theorem gap_nul {g : Str} (h : Gap g) : '\x00' ∉ g := by
  induction h with
  | none => simp
  | space hc _ ih =>
    simp only [List.mem_cons, List.not_mem_nil, or_false] at hc
    rcases hc with rfl | rfl | rfl | rfl <;> simpa using ih
  | line _ h0 _ ih => simp [h0, ih]
  | block _ h0 _ ih => simp [h0, ih]

theorem tail_nul {g : Str} (h : Tail g) : '\x00' ∉ g := by
  cases h with
  | gap h => exact gap_nul h
  | line h _ h0 => simp [h0, gap_nul h]

theorem hex_nul {h : Str} {u : Nat} (hu : Hex h u) : '\x00' ∉ h := by
  have key : ∀ {i : Nat}, ¬ HexDigit '\x00' i := fun hd => by
    have := (hexVal_digit hd).1
    exact absurd this (by rw [show hexVal '\x00' = none from rfl]; simp)
  cases hu with
  | digits h1 h2 h3 h4 =>
    intro hm
    simp only [List.mem_cons, List.not_mem_nil, or_false] at hm
    rcases hm with rfl | rfl | rfl | rfl
    · exact key h1
    · exact key h2
    · exact key h3
    · exact key h4

theorem chars_nul {s t : Str} (h : Chars s t) : '\x00' ∉ t := by
  induction h with
  | nil => simp
  | plain _ _ h3 _ ih =>
    intro hm
    rcases List.mem_cons.1 hm with rfl | hm
    · exact absurd h3 (by decide)
    · exact ih hm
  | short he _ ih =>
    intro hm
    simp only [List.mem_cons, List.not_mem_nil, or_false, Prod.mk.injEq] at he hm
    rcases hm with hm | hm | hm
    · exact absurd hm (by decide)
    · subst hm
      revert he
      simp
    · exact ih hm
  | unit hu _ _ ih => simp [hex_nul hu, ih]
  | pair hu hv _ _ _ ih => simp [hex_nul hu, hex_nul hv, ih]
  | half hu _ _ ih => simp [hex_nul hu, ih]

theorem digits_nul {s : Str} (h : ∀ c ∈ s, Digit c) : '\x00' ∉ s := fun hm =>
  absurd rfl (digit_not (h _ hm) (by decide))

variable {toDouble}

theorem reads_nul {p : Part} {t : Str} (h : Reads toDouble p t) : '\x00' ∉ t := by
  induction h with
  | null => decide
  | true => decide
  | false => decide
  | @int neg ds hw _ =>
    have := digits_nul hw.1.2
    cases neg <;> simp [this]
  | @double neg ds f e _ hw hf he _ _ =>
    have h1 := digits_nul hw.1.2
    have h2 : '\x00' ∉ f := by
      cases hf with
      | none => simp
      | some h => simp [digits_nul h.2]
    have h3 : '\x00' ∉ e := by
      cases he with
      | none => simp
      | some hc hs h =>
        simp only [List.mem_cons, List.not_mem_nil, or_false] at hc hs
        rcases hc with rfl | rfl <;> rcases hs with rfl | rfl | rfl <;> simp [digits_nul h.2]
    cases neg <;> simp [h1, h2, h3]
  | str h => simp [chars_nul h]
  | noElements hg => simp [gap_nul hg]
  | arr hg _ ih => simp [gap_nul hg, ih]
  | noMembers hg => simp [gap_nul hg]
  | obj hg _ ih => simp [gap_nul hg, ih]
  | lastElement _ hg ih => simp [gap_nul hg, ih]
  | lastElementComma _ hg hg' ih => simp [gap_nul hg, gap_nul hg', ih]
  | element _ hg hg' _ ih ihs => simp [gap_nul hg, gap_nul hg', ih, ihs]
  | lastMember hk h1 h2 _ hg ih => simp [chars_nul hk, gap_nul h1, gap_nul h2, gap_nul hg, ih]
  | lastMemberComma hk h1 h2 _ hg hg' ih => simp [chars_nul hk, gap_nul h1, gap_nul h2, gap_nul hg, gap_nul hg', ih]
  | member hk h1 h2 _ hg hg' _ ih ihs =>
    simp [chars_nul hk, gap_nul h1, gap_nul h2, gap_nul hg, gap_nul hg', ih, ihs]

theorem text_nul {v : Json} {text : Str} (h : Text toDouble v text) : '\x00' ∉ text := by
  obtain ⟨g, t, g', rfl, hg, ht, hg'⟩ := h
  simp [gap_nul hg, reads_nul ht, tail_nul hg']

theorem parse_text {v : Json} {text rest : Str} (h : Text toDouble v text) (hr : peek rest = '\x00') :
    parse toDouble (text ++ rest) = .ok v := by
  obtain ⟨g, t, g', rfl, hg, ht, hg'⟩ := h
  unfold parse
  rw [show g ++ t ++ g' ++ rest = g ++ (t ++ (g' ++ rest)) by simp only [List.append_assoc], skip_gap hg (start_reads ht _)]
  simp only
  rw [if_neg (peek_reads ht _), parses ht _ _ (by simp only [List.length_append]; omega) (stop_tail hg' hr)]
  simp only
  rw [skip_tail hg' hr]
  simp only
  rw [if_pos hr]

theorem text_parse {v : Json} {text : Str} (h : parse toDouble text = .ok v) :
    ∃ before rest, text = before ++ rest ∧ Text toDouble v before ∧ peek rest = '\x00' := by
  unfold parse at h
  split at h
  · cases h
  · rename_i s hs
    split at h
    · cases h
    · split at h
      · cases h
      · rename_i v' r hv
        obtain ⟨t, rfl, ht⟩ := (sound _).1 _ _ _ hv
        obtain ⟨g, hg, rfl⟩ := skip_part hs ht rfl
        split at h
        · cases h
        · rename_i q hq
          obtain ⟨g', rfl, hg', _⟩ := skip_ok hq
          split at h
          · rename_i h0
            cases h
            refine ⟨g ++ t ++ g', q, by simp only [List.append_assoc], ⟨g, t, g', rfl, hg, ht, ?_⟩, h0⟩
            rcases hg' with hg' | ⟨hg', _⟩
            · exact .gap hg'
            · exact hg'
          · cases h

theorem before_nul {before rest : Str} (h : '\x00' ∉ before) (hr : peek rest = '\x00') :
    (before ++ rest).takeWhile (· ≠ '\x00') = before := by
  induction before with
  | nil =>
    cases rest with
    | nil => rfl
    | cons c r =>
      rw [show c = '\x00' from hr]
      rfl
  | cons c b ih =>
    rw [List.cons_append, List.takeWhile_cons_of_pos (by simpa using fun hc => h (by rw [hc]; exact .head _)),
      ih (fun hm => h (.tail _ hm))]

theorem split_nul (text : Str) : ∃ rest, text = text.takeWhile (· ≠ '\x00') ++ rest ∧ peek rest = '\x00' := by
  induction text with
  | nil => exact ⟨[], rfl, rfl⟩
  | cons c s ih =>
    by_cases hc : c = '\x00'
    · subst hc
      exact ⟨'\x00' :: s, rfl, rfl⟩
    · obtain ⟨rest, h, hr⟩ := ih
      refine ⟨rest, ?_, hr⟩
      rw [List.takeWhile_cons_of_pos (by simpa using hc), List.cons_append, ← h]

theorem initialize_ok {text : Str} {v : Json} : initialize_ toDouble text = .ok v ↔ parse toDouble text = .ok v := by
  unfold initialize_
  split
  · rename_i v' h
    rw [h]
    simp
  · rename_i h
    rw [h]
    simp

/-! ## The properties -/

variable (toDouble)

/-- **C100.** A text that has the form of JSON, with comments and commas at ends allowed, gives the document that it stands
for. -/
theorem C100_reads (text : Str) (v : Json) (h : Text toDouble v text) : initialize_ toDouble text = .ok v := by
  have := parse_text h (rest := []) rfl
  rw [List.append_nil] at this
  exact initialize_ok.2 this

/-- **C100, and nothing else is accepted.** Of a text without NUL, a document is read exactly if the text stands for it. -/
theorem C100_iff_partial (text : Str) (hnul : '\x00' ∉ text) (v : Json) :
    initialize_ toDouble text = .ok v ↔ Text toDouble v text := by
  refine ⟨fun h => ?_, C100_reads toDouble text v⟩
  obtain ⟨b, rest, rfl, ht, hr⟩ := text_parse (initialize_ok.1 h)
  cases rest with
  | nil => rwa [List.append_nil]
  | cons c r =>
    rw [show c = '\x00' from hr] at hnul
    exact absurd (by simp) hnul

/-- **C100, every text.** What is read of any text is what the part before the first NUL stands for. -/
theorem C100_exact (text : Str) (v : Json) :
    initialize_ toDouble text = .ok v ↔ Text toDouble v (text.takeWhile (· ≠ '\x00')) := by
  rw [initialize_ok]
  constructor
  · intro h
    obtain ⟨b, rest, rfl, ht, hr⟩ := text_parse h
    rwa [before_nul (text_nul ht) hr]
  · intro h
    obtain ⟨rest, he, hr⟩ := split_nul text
    have := parse_text h hr
    rwa [← he] at this

/-- **C100 fails for texts with NUL.** The stream is not read to its end: whatever follows a NUL is ignored. -/
theorem C100_fails_nul (text junk : Str) (v : Json) (h : Text toDouble v text) :
    initialize_ toDouble (text ++ '\x00' :: junk) = .ok v ∧ ¬ Text toDouble v (text ++ '\x00' :: junk) :=
  ⟨initialize_ok.2 (parse_text h rfl), fun ht => text_nul ht (by simp)⟩

/-- **C100, no text is ambiguous.** -/
theorem C100_one (text : Str) (v w : Json) (hv : Text toDouble v text) (hw : Text toDouble w text) : v = w := by
  have h1 := C100_reads toDouble text v hv
  rw [C100_reads toDouble text w hw] at h1
  cases h1
  rfl

/-- The model of the parser never stops too early. -/
theorem C100_total (text rest : Str) : parse toDouble text ≠ .error (.fuel, rest) := fun h => (parse_error h).2 rfl

/-- **C100, other texts are refused.** The exception names a place in the text, at its end at most, and one of these
reasons. -/
theorem C100_refuses (text : Str) (h : ∀ v, ¬ Text toDouble v (text.takeWhile (· ≠ '\x00'))) :
    ∃ offset why, offset ≤ text.length ∧
      why ∈ [ch! "The document is empty.", ch! "The document root must not be followed by other values.",
        ch! "Invalid value.", ch! "Missing a name for object member.", ch! "Missing a colon after a name of object member.",
        ch! "Missing a comma or } after an object member.", ch! "Missing a comma or ] after an array element.",
        ch! "Incorrect hex digit after \\u escape in string.", ch! "The surrogate pair in string is invalid.",
        ch! "Invalid escape character in string.", ch! "Missing a closing quotation mark in string.",
        ch! "Number too big to be stored in double.", ch! "Miss fraction part in number.", ch! "Miss exponent in number.",
        ch! "Unspecific syntax error."] ∧
      initialize_ toDouble text =
        .error (ch! "parse error at offset " ++ Nat.toDigits 10 offset ++ ch! ": " ++ why) := by
  cases hp : parse toDouble text with
  | ok v => exact absurd ((C100_exact toDouble text v).1 (initialize_ok.2 hp)) (h v)
  | error e =>
    obtain ⟨code, rest⟩ := e
    obtain ⟨-, hc⟩ := parse_error hp
    refine ⟨text.length - rest.length, code.message, by omega, ?_, by rw [initialize_, hp]⟩
    cases code with
    | fuel => exact absurd rfl hc
    | _ => simp [Code.message]

/-- **C100, from the text to the handlers.** If a text stands for a document that describes handlers under a name (C64),
building from the text gives these handlers. -/
theorem C100_build (env : Rec.Env) (cd : Str → Option Nat) (text : Str) (doc : Json) (name : Str)
    (ht : Text toDouble doc text) (hname : '\x00' ∉ name) (hvs : List Json)
    (hs : List (Essentials.Formatter × List Essentials.Sink)) (hd : Config.HasAt doc [.key name] (.arr hvs))
    (h : Both (fun v p => Essentials.DescribesHandler env cd v p.1 p.2) hvs hs) :
    build toDouble (Essentials.configured env cd) text name = .ok (hs.map fun p => .blocking p.1 p.2) := by
  unfold build
  rw [C100_reads toDouble text doc ht]
  simp only
  rw [Essentials.C64_build env cd doc name hname hvs hs hd h]

/-- **C100, a refused text builds nothing.** -/
theorem C100_build_refused {S F M H : Type} (r : Registry.Registry S F M H) (text name : Str)
    (h : ∀ v, ¬ Text toDouble v (text.takeWhile (· ≠ '\x00'))) :
    ∃ what, build toDouble r text name = .error (.inl what) := by
  obtain ⟨offset, why, -, -, he⟩ := C100_refuses toDouble text h
  exact ⟨_, by rw [build, he]⟩

/-! ## Examples -/

/-- A configuration with comments of both kinds and commas at ends. -/
def sample : Str := ch! "// Loggers.\n{\"root\": [{\"sinks\": [{\"type\": \"null\"},], \"n\": -12 /* ** */}, ] , }\n// The end"

set_option maxRecDepth 100000 in
example : initialize_ (fun _ => none) sample =
    .ok (.obj [(ch! "root", .arr [.obj [(ch! "sinks", .arr [.obj [(ch! "type", .str (ch! "null"))]]), (ch! "n", .int (-12))]])]) :=
  rfl

set_option maxRecDepth 100000 in
/-- It has the form that `C100_reads` asks for. -/
example : ∃ v, Text (fun _ => none) v sample :=
  ⟨_, (C100_iff_partial _ _ (by decide) _).1 (show initialize_ (fun _ => none) sample = .ok _ from rfl)⟩

/-- The values of numbers, strings and words. -/
example (bits : Nat) : initialize_ (fun s => if s = ch! "1.5e3" then some bits else none)
    (ch! "[18446744073709551615, -9223372036854775808, 1.5e3, null, true, false, \"\\u00e9\\ud83d\\ude00\\n\"]") =
    .ok (.arr [.int 18446744073709551615, .int (-9223372036854775808), .double bits, .null, .bool true, .bool false,
      .str [Char.ofNat 0xC3, Char.ofNat 0xA9, Char.ofNat 0xF0, Char.ofNat 0x9F, Char.ofNat 0x98, Char.ofNat 0x80, '\n']]) :=
  rfl

/-- One more than the largest integer becomes a double. -/
example : initialize_ (fun s => if s = ch! "18446744073709551616" then some 7 else none) (ch! "18446744073709551616") =
    .ok (.double 7) := rfl

/-- Refused texts and what is said about them. -/
example : initialize_ (fun _ => none) (ch! " // nothing") =
    .error (ch! "parse error at offset 11: The document is empty.") := rfl
example : initialize_ (fun _ => none) (ch! "{} {}") =
    .error (ch! "parse error at offset 3: The document root must not be followed by other values.") := rfl
example : initialize_ (fun _ => none) (ch! "[1, nul]") = .error (ch! "parse error at offset 7: Invalid value.") := rfl
example : initialize_ (fun _ => none) (ch! "[01]") =
    .error (ch! "parse error at offset 2: Missing a comma or ] after an array element.") := rfl
example : initialize_ (fun _ => none) (ch! "{a: 1}") =
    .error (ch! "parse error at offset 1: Missing a name for object member.") := rfl
example : initialize_ (fun _ => none) (ch! "{\"a\" 1}") =
    .error (ch! "parse error at offset 5: Missing a colon after a name of object member.") := rfl
example : initialize_ (fun _ => none) (ch! "{\"a\":1 \"b\":2}") =
    .error (ch! "parse error at offset 7: Missing a comma or } after an object member.") := rfl
example : initialize_ (fun _ => none) (ch! "[\"ab\\x\"]") =
    .error (ch! "parse error at offset 4: Invalid escape character in string.") := rfl
example : initialize_ (fun _ => none) (ch! "[\"\\u00g0\"]") =
    .error (ch! "parse error at offset 2: Incorrect hex digit after \\u escape in string.") := rfl
example : initialize_ (fun _ => none) (ch! "[\"\\ud83d\"]") =
    .error (ch! "parse error at offset 2: The surrogate pair in string is invalid.") := rfl
example : initialize_ (fun _ => none) (ch! "[\"ab") =
    .error (ch! "parse error at offset 4: Missing a closing quotation mark in string.") := rfl
example : initialize_ (fun _ => none) (ch! "[1.]") =
    .error (ch! "parse error at offset 3: Miss fraction part in number.") := rfl
example : initialize_ (fun _ => none) (ch! "[1e+]") =
    .error (ch! "parse error at offset 4: Miss exponent in number.") := rfl
example : initialize_ (fun _ => none) (ch! "[1e999]") =
    .error (ch! "parse error at offset 1: Number too big to be stored in double.") := rfl
example : initialize_ (fun _ => none) (ch! "[1 /* ") =
    .error (ch! "parse error at offset 6: Unspecific syntax error.") := rfl

/-- No document stands behind such a text, so `C100_refuses` applies. -/
example : ∀ v, ¬ Text (fun _ => none) v ((ch! "{} {}").takeWhile (· ≠ '\x00')) := fun v h => by
  have := (C100_exact (fun _ => none) (ch! "{} {}") v).2 h
  rw [show initialize_ (fun _ => none) (ch! "{} {}") =
    .error (ch! "parse error at offset 3: The document root must not be followed by other values.") from rfl] at this
  cases this

/-- Whatever follows a NUL is ignored. -/
example : initialize_ (fun _ => none) (ch! "[]\x00]]]") = .ok (.arr []) := rfl

end Blackhole.JsonRead
