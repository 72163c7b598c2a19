import Verif.StringFmt.Fields

/-! # Severities with any format specification (C44) -/

namespace Blackhole.StringFmt

open Rec Pattern

/-! ## Specification -/

/-- What is formatted for a severity: its name, if it has one and is not to be a number; otherwise a number. With names, a
negative severity without the type `d` is taken modulo 2^64. -/
def severityArg (names : List Str) (severity : Int) (type : Option Char) : Fmt.Arg :=
  if type = some 'd' then .int severity
  else if severity < 0 then .ulong (2 ^ 64 - severity.natAbs)
  else match names[severity.natAbs]? with
    | some name => .str name ['\x00']
    | none => .ulong severity.natAbs

/-! ## Proofs -/

/-- What is not in a specification. -/
theorem not_mem_print {t : Fmt.SpecText} {c : Char} (hd : Fmt.isDigit c = false) (hs : c ∉ ch! "<>^=+- #0.")
    (sign : ∀ c, t.sign = some c → c = '+' ∨ c = '-' ∨ c = ' ') (fill : ∀ f al, t.align = some (some f, al) → f ≠ c)
    (type : t.type ≠ some c) : c ∉ t.print := by
  intro h
  simp only [List.mem_cons, List.not_mem_nil, or_false, not_or] at hs
  have digits : ∀ n, c ∉ Nat.toDigits 10 n := fun n h => by
    have := Fmt.toDigits_isDigit n c h
    simp [this] at hd
  unfold Fmt.SpecText.print at h
  simp only [List.mem_append, Option.mem_toList] at h
  rcases h with h | h | h | h | h | h | h
  · split at h
    · cases h
    · rename_i f al e
      rw [List.mem_append, Option.mem_toList] at h
      rcases h with h | h
      · have h' : f = some c := h
        subst h'
        exact fill _ al e rfl
      · cases al <;> simp [Fmt.alignChar] at h <;> simp [h] at hs
  · rcases sign _ h with h | h | h <;> simp [h] at hs
  · split at h <;> simp at h; simp [h] at hs
  · split at h <;> simp at h; simp [h] at hs
  · split at h
    · cases h
    · exact digits _ h
  · split at h
    · cases h
    · rw [List.mem_cons] at h
      rcases h with h | h
      · simp [h] at hs
      · exact digits _ h
  · exact type h

/-- The last character is a `d` only if it is the type. -/
theorem print_last {t : Fmt.SpecText} (h : t.Valid) :
    ∃ (b : Str) (c : Char), t.print = b ++ [c] ∧ (c = 'd' ↔ t.type = some 'd') := by
  cases ht : t.type with
  | some c =>
    unfold Fmt.SpecText.print
    rw [ht]
    simp only [Option.toList, ← List.append_assoc]
    exact ⟨_, c, rfl, by simp⟩
  | none =>
    rcases List.eq_nil_or_concat t.print with e | ⟨b, c, e⟩
    · exact absurd e h.nonempty
    · rw [List.concat_eq_append] at e
      refine ⟨b, c, e, ?_⟩
      simp only [reduceCtorEq, iff_false]
      rintro rfl
      have hr : 'd' ∉ Fmt.SpecText.print { t with align := none } :=
        not_mem_print (by decide) (by decide) h.sign (by simp) (by simp [ht])
      have hp : ∀ l, t.print = l ++ Fmt.SpecText.print { t with align := none } → l.getLast? ≠ some 'd' → False := by
        intro l hl hn
        have := congrArg List.getLast? (hl.symm.trans e)
        rw [List.getLast?_append, List.getLast?_concat] at this
        cases hq : (Fmt.SpecText.print { t with align := none }).getLast? with
        | none => rw [hq] at this; exact hn (by simpa using this)
        | some x =>
          rw [hq] at this
          simp only [Option.some_or, Option.some.injEq] at this
          subst this
          exact hr (List.mem_of_getLast? hq)
      cases ha : t.align with
      | none => exact hp [] (by simp [Fmt.SpecText.print, ha]) (by simp)
      | some x =>
        obtain ⟨f, al⟩ := x
        refine hp (f.toList ++ [Fmt.alignChar al]) (by simp [Fmt.SpecText.print, ha]) ?_
        simp only [List.getLast?_concat, ne_eq, Option.some.injEq]
        cases al <;> decide

/-! ## The property -/

/-- **C44.** For every severity, every list of names and every format specification that fits: `{severity:…}` prints the
name or the number, as the specification says. (The hypotheses on the severity and the names are the ranges of the types.) -/
theorem C44_exact (cd : Str → Option Nat) (env : Env) (clock : Clock) (r : Record) (names : List Str)
    (h1 : -2 ^ 31 ≤ r.severity) (h2 : r.severity < 2 ^ 31) (hl : names.length < 2 ^ 63) (t : Fmt.SpecText) (hv : t.Valid)
    (hf : t.Fits (severityArg names r.severity t.type)) :
    Prints cd (mappedSeverity env names) env clock (ch! "{severity:" ++ t.print ++ ch! "}") r
      (outcome (Fmt.writeArg env.fd t.meaning (severityArg names r.severity t.type))) := by
  obtain ⟨b, c, hp, hc⟩ := print_last hv
  obtain ⟨_, _, _, tok⟩ := C20_typed cd b c (hp ▸ spec_balanced hv)
  rw [show ch! "{severity:" ++ t.print ++ ch! "}" = ch! "{severity:" ++ (b ++ [c] ++ ch! "}") by rw [hp]; simp]
  refine prints_token tok ?_
  rw [← hp, ← write_spec env hv hf]
  by_cases hd : c = 'd'
  · have ht := hc.1 hd
    simp only [if_pos hd, render, severityArg, if_pos ht]
  · have ht : ¬ t.type = some 'd' := fun e => hd (hc.2 e)
    simp only [if_neg hd, render, mappedSeverity, severityArg, if_neg ht]
    by_cases hn : r.severity < 0
    · have hi : (r.severity % 2 ^ 64).toNat = 2 ^ 64 - r.severity.natAbs := by omega
      rw [hi, List.getElem?_eq_none (by omega), if_pos hn]
    · have hi : (r.severity % 2 ^ 64).toNat = r.severity.natAbs := by omega
      rw [hi, if_neg hn]
      cases names[r.severity.natAbs]? <;> rfl

/-- Without names it is always the number. -/
theorem C44_unnamed_exact (cd : Str → Option Nat) (env : Env) (clock : Clock) (r : Record) (t : Fmt.SpecText) (hv : t.Valid)
    (hf : t.Fits (.int r.severity)) :
    Prints cd (plainSeverity env) env clock (ch! "{severity:" ++ t.print ++ ch! "}") r
      (outcome (Fmt.writeArg env.fd t.meaning (.int r.severity))) := by
  obtain ⟨b, c, hp, hc⟩ := print_last hv
  obtain ⟨_, _, _, tok⟩ := C20_typed cd b c (hp ▸ spec_balanced hv)
  rw [show ch! "{severity:" ++ t.print ++ ch! "}" = ch! "{severity:" ++ (b ++ [c] ++ ch! "}") by rw [hp]; simp]
  refine prints_token tok ?_
  rw [← hp, ← write_spec env hv hf]
  by_cases hd : c = 'd' <;> simp only [hd, if_true, if_false, render, plainSeverity]

/-! A name, a number and a negative severity, right-aligned. -/

private def wide : Fmt.SpecText := { align := some (some '.', .right), width := some 7 }

example : wide.print = ch! ".>7" ∧ wide.Valid ∧ ∀ a, wide.Fits a := by
  refine ⟨by decide, ⟨?_, ?_, ?_, ?_, ?_, ?_, by decide⟩, fun a => ⟨?_, ?_, ?_⟩⟩ <;> simp [wide]

example (env : Env) :
    outcome (Fmt.writeArg env.fd wide.meaning (severityArg [ch! "I", ch! "W"] 1 wide.type)) = .ok (ch! "......W")
    ∧ outcome (Fmt.writeArg env.fd wide.meaning (severityArg [ch! "I", ch! "W"] 22 wide.type)) = .ok (ch! ".....22")
    ∧ outcome (Fmt.writeArg env.fd wide.meaning (severityArg [ch! "I", ch! "W"] (-1) wide.type)) = .ok (ch! "18446744073709551615") := by
  refine ⟨rfl, rfl, ?_⟩
  rfl

end Blackhole.StringFmt
