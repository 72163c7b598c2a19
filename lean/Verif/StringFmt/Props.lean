import Verif.StringFmt.Lemmas
import Verif.StringFmt.Spec

/-! # Properties of the string formatter (C19, C20, C22-C24, C44, C50) -/

namespace Blackhole.StringFmt

open Rec Pattern

/-! ## Values -/

theorem cstr_nul {s : Str} (h : '\x00' ∉ s) (rest : Str) : Config.cstr (s ++ '\x00' :: rest) = s := by
  unfold Config.cstr
  rw [List.takeWhile_append_of_pos]
  · simp
  · intro c hc
    simp only [decide_not, Bool.not_eq_eq_eq_not, Bool.not_true, decide_eq_false_iff_not]
    exact fun e => h (e ▸ hc)

/-- A C string. -/
theorem writeArg_data (fd : Fmt.Spec → Nat → Except Fmt.Err Str) (spec : Fmt.Spec)
    (ht : spec.type = none ∨ spec.type = some 's') (hp : spec.precision = none) {s : Str} (h : '\x00' ∉ s) (rest : Str) :
    Fmt.writeArg fd spec (.str [] (s ++ '\x00' :: rest)) = .ok (Fmt.pad spec s) := by
  have hc := cstr_nul h rest
  unfold Fmt.writeArg Fmt.writeStr Fmt.writeStr.go
  cases hs : s ++ '\x00' :: rest with
  | nil => simp at hs
  | cons c cs =>
    rw [hs] at hc
    have hm : '\x00' ∈ c :: cs := by rw [← hs]; simp
    rcases ht with ht | ht <;> simp only [ht, hp, if_true, if_pos hm, hc]

theorem writeArg_cstr (fd : Fmt.Spec → Nat → Except Fmt.Err Str) (spec : Fmt.Spec)
    (ht : spec.type = none ∨ spec.type = some 's') (hp : spec.precision = none) {s : Str} (h : '\x00' ∉ s) :
    Fmt.writeArg fd spec (.cstr s) = .ok (Fmt.pad spec s) := writeArg_data fd spec ht hp h []

theorem pad_none (s : Str) : Fmt.pad {} s = s := by
  unfold Fmt.pad
  rw [if_neg (by simp)]

theorem writeArg_int (fd : Fmt.Spec → Nat → Except Fmt.Err Str) (spec : Fmt.Spec) {a : Fmt.Arg} {z : Int}
    (h : Fmt.IsInt a z) (ht : spec = {} ∨ spec = { type := some 'd' }) : Fmt.writeArg fd spec a = .ok (decimalText z) := by
  rw [Fmt.C45_text fd spec a z h]
  rcases ht with rfl | rfl <;>
    simp [Fmt.intDigits, Fmt.layout, Fmt.signText, decimalText]

theorem decimal_nat (n : Nat) : decimalText (n : Int) = Nat.toDigits 10 n := by
  unfold decimalText
  rw [if_neg (by omega)]
  rfl

/-- What `{}` and `{:}` print. -/
theorem writeValue_shows {env : Env} {v : Value} {s : Str} (h : Shows env v s) :
    writeValue env (ch! "{}") v = .ok s ∧ writeValue env (ch! "{:}") v = .ok s := by
  have both : ∀ a : Fmt.Arg, Fmt.writeArg env.fd {} a = .ok s →
      env.write (ch! "{}") a = .ok s ∧ env.write (ch! "{:}") a = .ok s :=
    fun a h => ⟨write_plain env a h, write_colon env a h⟩
  cases h with
  | null => exact both (.cstr (ch! "none")) rfl
  | true => exact both (.bool true) rfl
  | false => exact both (.bool false) rfl
  | sint h1 h2 => exact both (.long _) (writeArg_int env.fd {} (.long h1 h2) (.inl rfl))
  | uint h =>
    refine both (.ulong _) ?_
    rw [writeArg_int env.fd {} (.ulong h) (.inl rfl), decimal_nat]
  | double h => exact both (.double _) h
  | string h =>
    obtain ⟨hn, rest, rfl⟩ := h
    refine both (.str [] (s ++ '\x00' :: rest)) ?_
    rw [writeArg_data env.fd {} (.inl rfl) rfl hn, pad_none]
  | function => exact ⟨rfl, rfl⟩

/-! ## C19 Literals -/

/-- **C19.** A text with its braces doubled is a pattern that prints that text for every record. -/
theorem C19_literal (cd : Str → Option Nat) (sm : SevMap) (env : Env) (clock : Clock) (s : Str) (r : Record) :
    Prints cd sm env clock (Fmt.escapeText s) r (.ok s) := by
  by_cases h : s = []
  · subst h
    exact ⟨⟨sm, []⟩, rfl, rfl⟩
  · refine ⟨⟨sm, [.literal s]⟩, make_ok (C20_text cd s h), ?_⟩
    rw [format_one]
    rfl

example : Fmt.escapeText (ch! "{a} }{") = ch! "{{a}} }}{{" := rfl

/-! ## C20 Sequences -/

theorem inOrder_of_both {cd : Str → Option Nat} {sm : SevMap} {env : Env} {clock : Clock} {r : Record}
    {ps : List Piece} {outs : List (Except Exc Str)}
    (h : Both (fun p out => Prints cd sm env clock (Piece.print p) r out) ps outs) :
    ∃ ts, inOrder (ps.map fun p => tokenize cd p.print) = .ok ts
      ∧ concat (ts.map (render env clock sm r)) = concat outs := by
  induction h with
  | nil => exact ⟨[], rfl, rfl⟩
  | @cons p out ps outs h1 h2 ih =>
    obtain ⟨ts, e1, e2⟩ := ih
    obtain ⟨f, hf, ho⟩ := h1
    simp only [Formatter.make] at hf
    cases ht : tokenize cd p.print with
    | error e => rw [ht] at hf; cases hf
    | ok us =>
      rw [ht] at hf
      simp only [Except.ok.injEq] at hf
      subst hf
      refine ⟨us ++ ts, ?_, ?_⟩
      · simp only [List.map_cons, ht, inOrder, e1]
      · rw [List.map_append, concat_append, e2]
        simp only [Formatter.format] at ho
        rw [ho]
        cases out <;> rfl

/-- **C20.** The output is the concatenation, in pattern order, of what the pieces print on their own; the first
exception ends it. -/
theorem C20_output (cd : Str → Option Nat) (sm : SevMap) (env : Env) (clock : Clock) (r : Record) (ps : List Piece)
    (hn : Normal ps) (outs : List (Except Exc Str))
    (h : Both (fun p out => Prints cd sm env clock (Piece.print p) r out) ps outs) :
    Prints cd sm env clock (printAll ps) r (concat outs) := by
  obtain ⟨ts, e1, e2⟩ := inOrder_of_both h
  exact ⟨⟨sm, ts⟩, make_ok ((C20_sequence cd ps hn).trans e1), e2⟩

/-- Tokens of a single piece. -/
theorem prints_token {cd : Str → Option Nat} {sm : SevMap} {env : Env} {clock : Clock} {pattern : Str} {r : Record}
    {t : Token} {out : Except Exc Str} (h : tokenize cd pattern = .ok [t]) (ho : render env clock sm r t = out) :
    Prints cd sm env clock pattern r out :=
  ⟨⟨sm, [t]⟩, make_ok h, by rw [format_one, ho]⟩

/-- A letter as the only specification. -/
theorem write_letter (env : Env) (a : Fmt.Arg) (c : Char) (hc : Fmt.letter c) :
    env.write (ch! "{:" ++ [c] ++ ch! "}") a = match Fmt.writeArg env.fd { type := some c } a with
      | .ok s => .ok s
      | .error e => .error (.fmt e) := by
  have hv : (⟨none, none, false, false, none, none, some c⟩ : Fmt.SpecText).Valid :=
    ⟨by simp, by simp, by simp, by simp, by simp, by simpa using hc, by simp [Fmt.SpecText.print]⟩
  have := Fmt.format_spec env.fd a ⟨none, none, false, false, none, none, some c⟩ hv ⟨by simp, by simp, by simp⟩
  have e : (⟨none, none, false, false, none, none, some c⟩ : Fmt.SpecText).print = [c] := by simp [Fmt.SpecText.print]
  rw [e] at this
  simp only [Env.write, this]
  rfl

theorem tdiv_bounds {z : Int} (h1 : -2 ^ 63 ≤ z) (h2 : z < 2 ^ 63) :
    -2 ^ 63 ≤ z.tdiv 1000 ∧ z.tdiv 1000 < 2 ^ 63 := by
  rcases Int.le_total 0 z with h | h
  · rw [Int.tdiv_eq_ediv_of_nonneg h]
    omega
  · obtain ⟨y, rfl⟩ : ∃ y, z = -y := ⟨-z, by omega⟩
    rw [Int.neg_tdiv, Int.tdiv_eq_ediv_of_nonneg (by omega)]
    omega

/-- **C20.** What the built-in placeholders print: the message; the process by number and name; the thread that formats
by number, the thread that logged as a hexadecimal handle and by its name; the time in microseconds and as text. (The
severity is C44.) -/
theorem C20_fields (cd : Str → Option Nat) (sm : SevMap) (env : Env) (clock : Clock) (r : Record)
    (hpid : env.pid < 2 ^ 64) (hlwp : env.lwp < 2 ^ 64) (htid : r.tid < 2 ^ 64) (hproc : '\x00' ∉ env.procname)
    (hname : ∀ s, env.threadName r.tid = some s → '\x00' ∉ s)
    (ht1 : -2 ^ 63 ≤ r.timestamp) (ht2 : r.timestamp < 2 ^ 63) :
    (∀ m behind, r.message = .at m behind → m ≠ [] → Prints cd sm env clock (ch! "{message}") r (.ok m))
    ∧ Prints cd sm env clock (ch! "{process}") r (.ok (Nat.toDigits 10 env.pid))
    ∧ Prints cd sm env clock (ch! "{process:d}") r (.ok (Nat.toDigits 10 env.pid))
    ∧ Prints cd sm env clock (ch! "{process:s}") r (.ok env.procname)
    ∧ Prints cd sm env clock (ch! "{thread:d}") r (.ok (Nat.toDigits 10 env.lwp))
    ∧ Prints cd sm env clock (ch! "{thread}") r (.ok (ch! "0x" ++ Nat.toDigits 16 r.tid))
    ∧ Prints cd sm env clock (ch! "{thread:s}") r (.ok ((env.threadName r.tid).getD (ch! "<unnamed>")))
    ∧ Prints cd sm env clock (ch! "{timestamp:d}") r (.ok (decimalText (r.timestamp.tdiv 1000)))
    ∧ ∀ (usec : Nat) s, (usec : Int) = (r.timestamp.tdiv 1000).tmod 1000000 → s ≠ [] →
      clock (ch! "%Y-%m-%d %H:%M:%S.%f") true (r.timestamp.tdiv 1000000000) usec = .ok s →
      Prints cd sm env clock (ch! "{timestamp}") r (.ok s) := by
  have hb : ∀ c : Char, c = 'd' ∨ c = 's' → Balanced ([] ++ [c]) := by
    rintro c (rfl | rfl) <;> exact balanced_plain (by decide) (by decide)
  obtain ⟨p1, p2, p3, _, p5, _, _⟩ := C20_plain cd
  obtain ⟨_, d2, d3, _⟩ := C20_typed cd [] 'd' (hb _ (.inl rfl))
  obtain ⟨_, s2, s3, _⟩ := C20_typed cd [] 's' (hb _ (.inr rfl))
  refine ⟨?_, ?_, ?_, ?_, ?_, ?_, ?_, ?_, ?_⟩
  · intro m behind hm hne
    refine prints_token p1 ?_
    simp only [render, hm, View.ref]
    refine write_plain env _ ?_
    rw [(Fmt.C50_not_empty env.fd {} m behind hne (.inl rfl) rfl).1, pad_none]
  · refine prints_token p2 (write_plain env _ ?_)
    rw [writeArg_int env.fd {} (.ulong hpid) (.inl rfl), decimal_nat]
  · refine prints_token d2 ?_
    simp only [render, show ¬ ('d' = 's') from by decide, if_false]
    refine (write_letter env (.ulong env.pid) 'd' (by decide)).trans ?_
    rw [writeArg_int env.fd _ (.ulong hpid) (.inr rfl), decimal_nat]
  · refine prints_token s2 ?_
    simp only [render, if_true]
    refine (write_letter env (.cstr env.procname) 's' (by decide)).trans ?_
    rw [writeArg_cstr env.fd _ (.inr rfl) rfl hproc]
    rfl
  · refine prints_token d3 ?_
    simp only [render, if_true]
    refine (write_letter env (.ulong env.lwp) 'd' (by decide)).trans ?_
    rw [writeArg_int env.fd _ (.ulong hlwp) (.inr rfl), decimal_nat]
  · refine prints_token p3 ?_
    simp only [render]
    have hv : (⟨none, none, true, false, none, none, some 'x'⟩ : Fmt.SpecText).Valid :=
      ⟨by simp, by simp, by simp, by simp, by simp, by simp; decide, by simp [Fmt.SpecText.print]⟩
    have := Fmt.format_spec env.fd (.ulong r.tid) ⟨none, none, true, false, none, none, some 'x'⟩ hv
      ⟨by simp [Fmt.Arg.isNumeric, Fmt.Arg.isInteger], by simp, by simp⟩
    rw [Fmt.C45_text env.fd _ _ _ (.ulong htid)] at this
    simp only [Env.write]
    rw [show ch! "{:#x}" = ch! "{:" ++ (⟨none, none, true, false, none, none, some 'x'⟩ : Fmt.SpecText).print ++ ch! "}"
      from rfl, this]
    simp [Fmt.intDigits, Fmt.layout, Fmt.signText, Fmt.SpecText.meaning]
  · refine prints_token s3 ?_
    simp only [render, show ¬ ('s' = 'd') from by decide, if_false, if_true]
    cases hn : env.threadName r.tid with
    | none =>
      refine (write_letter env (.cstr (ch! "<unnamed>")) 's' (by decide)).trans ?_
      rw [writeArg_cstr env.fd _ (.inr rfl) rfl (by decide)]
      rfl
    | some s =>
      refine (write_letter env (.cstr s) 's' (by decide)).trans ?_
      rw [writeArg_cstr env.fd _ (.inr rfl) rfl (hname s hn)]
      rfl
  · refine prints_token (C20_time_plain cd [] (balanced_plain (by simp) (by simp)) (by simp)).1 ?_
    simp only [render]
    refine (write_letter env (.long (r.timestamp.tdiv 1000)) 'd' (by decide)).trans ?_
    have hd := tdiv_bounds ht1 ht2
    rw [writeArg_int env.fd _ (.long hd.1 hd.2) (.inr rfl)]
  · intro usec s hu hne hc
    refine prints_token p5 ?_
    have hu' : (((r.timestamp.tdiv 1000).tmod 1000000) % 2 ^ 64).toNat = usec := by
      have : (r.timestamp.tdiv 1000).tmod 1000000 < 1000000 := Int.tmod_lt_of_pos _ (by decide)
      omega
    simp only [render, hu', hc]
    cases s with
    | nil => exact absurd rfl hne
    | cons c s =>
      refine write_plain env _ ?_
      rw [(Fmt.C50_not_empty env.fd {} (c :: s) [] (by simp) (.inl rfl) rfl).1, pad_none]

/-! ## C22 Attributes by name -/

/-- **C22.** A placeholder with a name of its own prints the first attribute of that name in record order; there must be
one. -/
theorem C22_required (cd : Str → Option Nat) (sm : SevMap) (env : Env) (clock : Clock) (r : Record) (name : Str)
    (h : ∀ c ∈ name, NameChar c) (hn : name ∉ builtin) :
    (∀ a s, r.pack.flatten.find? (fun a => decide (a.1.text = name)) = some a → Shows env a.2 s →
      Prints cd sm env clock ('{' :: (name ++ ['}'])) r (.ok s))
    ∧ ((∀ a ∈ r.pack.flatten, a.1.text ≠ name) →
      Prints cd sm env clock ('{' :: (name ++ ['}'])) r
        (.error (.logic (ch! "required attribute '" ++ name ++ ch! "' not found")))) := by
  obtain ⟨_, _, _, _, _, _, p7⟩ := C20_plain cd
  refine ⟨?_, ?_⟩
  · intro a s hf hs
    refine prints_token (p7 name h hn) ?_
    simp only [render, find_eq, hf, Option.map_some]
    exact (writeValue_shows hs).1
  · intro hno
    refine prints_token (p7 name h hn) ?_
    have : r.pack.flatten.find? (fun a => decide (a.1.text = name)) = none := by
      rw [List.find?_eq_none]
      intro a ha
      simpa using hno a ha
    simp only [render, find_eq, this, Option.map_none]

/-- Two attributes of the same name: the first is printed. -/
example : ([[(View.at (ch! "id") [], Value.sint 1)], [(View.at (ch! "id") [], Value.sint 2)]] : Pack).flatten.find?
    (fun a => decide (a.1.text = ch! "id")) = some (View.at (ch! "id") [], Value.sint 1) := by
  simp [View.text]

/-- **C22.** If a required attribute is missing, the whole pattern fails, whatever else it contains, and no sink receives
anything. -/
theorem C22_missing (cd : Str → Option Nat) (sm : SevMap) (env : Env) (clock : Clock) (r : Record) (ps : List Piece)
    (hn : Normal ps) (name : Str) (spec : Option Str) (hm : .hole name spec ∈ ps) (hb : name ∉ builtin)
    (hs : ∀ b, spec = some b → b.head? ≠ some '{') (hno : ∀ a ∈ r.pack.flatten, a.1.text ≠ name)
    (f : Formatter) (hf : Formatter.make cd (printAll ps) sm = .ok f)
    (sinks : List (Registry.Snk Record Exc)) (tr : List (Registry.Ev Record)) :
    ∃ e, f.format env clock r = .error e
      ∧ Registry.handle (fun _ r => f.format env clock r) sinks r tr = (tr ++ [.rendered r], some e) := by
  have key : ∃ e, f.format env clock r = .error e := by
    simp only [Formatter.make] at hf
    cases ht : tokenize cd (printAll ps) with
    | error e => rw [ht] at hf; cases hf
    | ok ts =>
      rw [ht] at hf
      simp only [Except.ok.injEq] at hf
      subst hf
      rw [C20_sequence cd ps hn] at ht
      have hv := hn.all _ hm
      have htok : ∃ sp, tokenize cd (Piece.print (.hole name spec)) = .ok [.required name sp] := by
        cases spec with
        | none =>
          obtain ⟨_, _, _, _, _, _, p7⟩ := C20_plain cd
          exact ⟨_, by simpa [Piece.print] using p7 name hv.1 hb⟩
        | some b =>
          exact ⟨_, by simpa [Piece.print] using C20_required cd name b hv.1 hb (hv.2 b rfl) (hs b rfl)⟩
      obtain ⟨sp, htok⟩ := htok
      have hin : ∀ (qs : List Piece) (us : List Token), .hole name spec ∈ qs →
          inOrder (qs.map fun p => tokenize cd p.print) = .ok us → .required name sp ∈ us := by
        intro qs
        induction qs with
        | nil => intro us h _; cases h
        | cons q qs ih =>
          intro us h e
          simp only [List.map_cons] at e
          cases hq : tokenize cd q.print with
          | error x => rw [hq] at e; simp [inOrder] at e
          | ok vs =>
            rw [hq] at e
            simp only [inOrder] at e
            cases hr : inOrder (qs.map fun p => tokenize cd p.print) with
            | error x => rw [hr] at e; cases e
            | ok ws =>
              rw [hr] at e
              simp only [Except.ok.injEq] at e
              subst e
              rcases List.mem_cons.1 h with rfl | h
              · rw [htok] at hq
                simp only [Except.ok.injEq] at hq
                subst hq
                simp
              · exact List.mem_append_right _ (ih ws h hr)
      have hmem := hin ps ts hm ht
      have hnone : r.pack.flatten.find? (fun a => decide (a.1.text = name)) = none := by
        rw [List.find?_eq_none]
        intro a ha
        simpa using hno a ha
      refine concat_error (e := .logic (ch! "required attribute '" ++ name ++ ch! "' not found")) ?_
      refine List.mem_map.2 ⟨_, hmem, ?_⟩
      simp only [render, find_eq, hnone, Option.map_none]
  obtain ⟨e, he⟩ := key
  refine ⟨e, he, ?_⟩
  simp only [Registry.handle, he]

/-- **C22.** A placeholder with a default formats the first attribute of its name with its specification, or else the
default: an integer if it is one, else a floating point number if it is one, else a text. -/
theorem C22_optional (cd : Str → Option Nat) (sm : SevMap) (env : Env) (clock : Clock) (r : Record) (name d : Str)
    (t : Fmt.SpecText) (h : ∀ c ∈ name, NameChar c) (hn : name ∉ builtin) (ht : DefaultSpec t)
    (hd : ¬ ch! ":default}" <:+: d) (hb : Balanced d) (hb' : Balanced t.print)
    (pattern : Str) (hpat : pattern = '{' :: (name ++ ch! ":{" ++ d ++ ch! ":default}" ++ t.print ++ ch! "}"))
    (arg : Fmt.Arg) (harg : DefaultArg cd d arg) :
    (∀ a v, r.pack.flatten.find? (fun a => decide (a.1.text = name)) = some a → ValueArg a.2 v → t.Fits v →
      Prints cd sm env clock pattern r (outcome (Fmt.writeArg env.fd t.meaning v)))
    ∧ ((∀ a ∈ r.pack.flatten, a.1.text ≠ name) → t.Fits arg →
      Prints cd sm env clock pattern r (outcome (Fmt.writeArg env.fd t.meaning arg))) := by
  have hw : ∀ v, t.Fits v → env.write (ch! "{:" ++ t.print ++ ch! "}") v = outcome (Fmt.writeArg env.fd t.meaning v) := by
    intro v hv
    simp only [Env.write, Fmt.format_spec env.fd v t ht.valid hv]
    cases Fmt.writeArg env.fd t.meaning v <;> rfl
  have htok : ∃ o, tokenize cd pattern = .ok [.optional name (ch! "{:" ++ t.print ++ ch! "}") o]
      ∧ ∀ spec, writeOtherwise env spec o = env.write spec arg := by
    obtain ⟨h1, h2, h3⟩ := C20_optional cd name d t h hn ht hd hb hb'
    rw [← hpat] at h1 h2 h3
    cases harg with
    | int n hn' e => exact ⟨_, h1 n hn' e, fun _ => rfl⟩
    | neg n hn' e => exact ⟨_, h2 n hn' e, fun _ => rfl⟩
    | double hd e => exact ⟨_, by rw [h3 hd, e], fun _ => rfl⟩
    | text hd e => exact ⟨_, by rw [h3 hd, e], fun _ => rfl⟩
  obtain ⟨o, htok, ho⟩ := htok
  refine ⟨?_, ?_⟩
  · intro a v hf hv hfit
    refine prints_token htok ?_
    simp only [render, find_eq, hf, Option.map_some]
    have : ∀ spec, writeValue env spec a.2 = env.write spec v := by
      intro spec
      cases a with
      | mk k val => cases hv <;> rfl
    rw [this, hw v hfit]
  · intro hno hfit
    have : r.pack.flatten.find? (fun a => decide (a.1.text = name)) = none := by
      rw [List.find?_eq_none]
      intro a ha
      simpa using hno a ha
    refine prints_token htok ?_
    simp only [render, find_eq, this, Option.map_none, ho, hw arg hfit]

/-- `{code:{-1:default}>6d}`: a number or `    -1`. -/
example (cd : Str → Option Nat) : DefaultArg cd (ch! "-1") (.long (-1)) := .neg 1 (by decide) (by decide)

/-- **C22.** The same for texts, in full. -/
theorem C22_optional_text (cd : Str → Option Nat) (sm : SevMap) (env : Env) (clock : Clock) (r : Record) (name d : Str)
    (t : Fmt.SpecText) (h : ∀ c ∈ name, NameChar c) (hn : name ∉ builtin) (ht : DefaultSpec t)
    (hd : ¬ ch! ":default}" <:+: d) (hb : Balanced d) (hb' : Balanced t.print)
    (hnum : cd d = none) (htext : ∃ c ∈ d, Fmt.isDigit c = false ∧ c ≠ '-' ∧ c ≠ '+')
    (hty : t.type = some 's') (hp : t.precision = none) (hh : t.hash = false) (hz : t.zero = false)
    (pattern : Str) (hpat : pattern = '{' :: (name ++ ch! ":{" ++ d ++ ch! ":default}" ++ t.print ++ ch! "}")) :
    (∀ a v s, r.pack.flatten.find? (fun a => decide (a.1.text = name)) = some a → a.2 = .string v → Terminated v s →
      Prints cd sm env clock pattern r (.ok (Fmt.pad t.meaning s)))
    ∧ ((∀ a ∈ r.pack.flatten, a.1.text ≠ name) → Prints cd sm env clock pattern r (.ok (Fmt.pad t.meaning d))) := by
  obtain ⟨c, hc, c1, c2, c3⟩ := htext
  have htok := (C20_optional cd name d t h hn ht hd hb hb').2.2 (.inr ⟨c, hc, c1, c2, c3⟩)
  rw [← hpat, hnum] at htok
  have hfits : ∀ a : Fmt.Arg, a.isInteger = false → t.Fits a := by
    intro a ha
    refine ⟨?_, ?_, fun _ => ha⟩
    · rintro (⟨f, hf⟩ | hs | hx | hx)
      · exact absurd hf (ht.align f)
      · exact absurd ht.sign hs
      · rw [hh] at hx; cases hx
      · rw [hz] at hx; cases hx
    · intro hs; exact absurd ht.sign hs
  have hmt : t.meaning.type = none ∨ t.meaning.type = some 's' := .inr hty
  refine ⟨?_, ?_⟩
  · rintro a v s hf ha ⟨hs, rest, rfl⟩
    refine prints_token htok ?_
    simp only [render, find_eq, hf, Option.map_some, ha, writeValue, View.data, Env.write]
    rw [Fmt.format_spec env.fd _ t ht.valid (hfits _ rfl), writeArg_data env.fd _ hmt hp hs]
  · intro hno
    have : r.pack.flatten.find? (fun a => decide (a.1.text = name)) = none := by
      rw [List.find?_eq_none]
      intro a ha
      simpa using hno a ha
    refine prints_token htok ?_
    simp only [render, find_eq, this, Option.map_none, writeOtherwise, Env.write]
    rw [Fmt.format_spec env.fd _ t ht.valid (hfits _ rfl),
      (Fmt.C50_not_empty env.fd t.meaning d ['\x00'] (fun e => by rw [e] at hc; cases hc) hmt hp).1]

/-! ## C23 The leftover placeholder -/

/-- The documented form of a short specification. -/
def specText (t : ShortSpec) : Fmt.SpecText :=
  { align := t.align.map fun c => (none, if c = '<' then .left else if c = '>' then .right else .center)
    width := t.width
    type := some t.type }

theorem specText_print {t : ShortSpec} {types : List Char} (hv : t.Valid types) : (specText t).print = t.print := by
  have ha : ∀ c, t.align = some c → c = '<' ∨ c = '^' ∨ c = '>' := hv.1
  cases hal : t.align with
  | none => cases hw : t.width <;> simp [specText, Fmt.SpecText.print, ShortSpec.print, hal, hw, widthText]
  | some c =>
    rcases ha c hal with rfl | rfl | rfl <;> cases hw : t.width <;>
      simp [specText, Fmt.SpecText.print, ShortSpec.print, hal, hw, widthText, Fmt.alignChar]

theorem specText_valid {t : ShortSpec} {types : List Char} (hv : t.Valid types) (hl : ∀ c ∈ types, Fmt.letter c)
    (hw : WidthOk t) : (specText t).Valid := by
  refine ⟨?_, ?_, by simp [specText], hw, by simp [specText], ?_, ?_⟩
  · intro f al h
    simp only [specText, Option.map_eq_some_iff, Prod.mk.injEq] at h
    obtain ⟨c, _, _, rfl⟩ := h
    split
    · decide
    · split <;> decide
  · intro f al h
    simp [specText] at h
  · intro c h
    simp only [specText, Option.some.injEq] at h
    exact h ▸ hl _ hv.2
  · rw [specText_print hv]
    exact short_ne_nil t

theorem specText_fits {t : ShortSpec} (a : Fmt.Arg) : (specText t).Fits a := by
  refine ⟨?_, by simp [specText], by simp [specText]⟩
  rintro (⟨f, h⟩ | h | h | h)
  · simp only [specText, Option.map_eq_some_iff, Prod.mk.injEq] at h
    obtain ⟨c, _, _, h⟩ := h
    split at h
    · cases h
    · split at h <;> cases h
  · simp [specText] at h
  · simp [specText] at h
  · simp [specText] at h

theorem pad_field {t : ShortSpec} {types : List Char} (hv : t.Valid types) (s : Str) :
    Fmt.pad (specText t).meaning s = field t s := by
  have ha : ∀ c, t.align = some c → c = '<' ∨ c = '^' ∨ c = '>' := hv.1
  have hw : (specText t).meaning.width = t.width.getD 0 := by
    cases h : t.width <;> simp [specText, Fmt.SpecText.meaning, h]
  have hf : (specText t).meaning.fill = ' ' := by
    cases h : t.align <;> simp [specText, Fmt.SpecText.meaning, h]
  unfold Fmt.pad field
  rw [hw, hf]
  have hal : (specText t).meaning.align = match t.align with
      | none => .default
      | some c => if c = '<' then .left else if c = '>' then .right else .center := by
    cases h : t.align <;> simp [specText, Fmt.SpecText.meaning, h]
  rw [hal]
  by_cases hg : t.width.getD 0 > s.length
  · rw [if_pos hg]
    cases h : t.align with
    | none => rfl
    | some c => rcases ha c h with rfl | rfl | rfl <;> rfl
  · rw [if_neg hg]
    have : t.width.getD 0 - s.length = 0 := by omega
    rw [this]
    cases h : t.align with
    | none => simp
    | some c => rcases ha c h with rfl | rfl | rfl <;> simp

/-- Text that is not empty in a short specification. -/
theorem write_short (env : Env) {t : ShortSpec} (hv : t.Valid ['s']) (hw : WidthOk t) {a : Fmt.Arg} {s : Str}
    (ha : (∃ behind, a = .str s behind ∧ s ≠ []) ∨ ∃ rest, a = .str [] (s ++ '\x00' :: rest) ∧ '\x00' ∉ s) :
    env.write (ch! "{:" ++ t.print ++ ch! "}") a = .ok (field t s) := by
  have hty : (specText t).meaning.type = some 's' := by
    have : t.type = 's' := by simpa using hv.2
    simp [specText, Fmt.SpecText.meaning, this]
  have hvt := specText_valid hv (by decide) hw
  simp only [Env.write]
  rw [← specText_print hv, Fmt.format_spec env.fd a _ hvt (specText_fits a)]
  rcases ha with ⟨behind, rfl, hne⟩ | ⟨rest, rfl, hn⟩
  · rw [(Fmt.C50_not_empty env.fd _ s behind hne (.inr hty) rfl).1, pad_field hv]
  · rw [writeArg_data env.fd _ (.inr hty) rfl hn, pad_field hv]

theorem writeItem_shows {env : Env} {a : View × Value} {p : ItemPiece} {s : Str} (h : ItemShows env a p s) :
    writeItem env a p.item = .ok s := by
  have href : a.1.text ≠ [] → ∃ behind, a.1.ref = .str a.1.text behind := by
    intro hne
    cases hv : a.1 with
    | null => rw [hv] at hne; exact absurd rfl hne
    | «at» s b => exact ⟨b, rfl⟩
  cases h with
  | text s => rfl
  | name hne =>
    obtain ⟨b, hb⟩ := href hne
    show env.write (ch! "{:}") a.1.ref = _
    refine write_colon env _ ?_
    rw [hb, (Fmt.C50_not_empty env.fd {} a.1.text b hne (.inl rfl) rfl).1, pad_none]
  | value hs => exact (writeValue_shows hs).2
  | nameIn t hne hv hw =>
    obtain ⟨b, hb⟩ := href hne
    exact write_short env hv hw (.inl ⟨b, hb, hne⟩)
  | @valueIn t v s ha hs hv hw =>
    obtain ⟨hn, rest, rfl⟩ := hs
    show writeValue env _ a.2 = _
    rw [ha]
    exact write_short env hv hw (.inr ⟨rest, rfl, hn⟩)

/-- **C23.** The leftover placeholder prints every attribute once, in record order, as its item pattern says, with the
separator between them, and all of it in the field that its specification asks for; nothing if there is nothing to
print. -/
theorem C23_leftover (cd : Str → Option Nat) (sm : SevMap) (env : Env) (clock : Clock) (r : Record)
    (pattern : Option (List ItemPiece)) (separator : Option Str) (t : ShortSpec)
    (hp : ∀ ps, pattern = some ps → NormalItems ps) (hs : ∀ s, separator = some s → ¬ ch! ":s}" <:+: s)
    (hs' : pattern = none → ∀ s, separator = some s → ¬ ch! ":p}" <:+: s) (hv : t.Valid ['s']) (hw : WidthOk t)
    (hb : Balanced (printExt pattern separator)) (outs : List Str)
    (h : Both (fun a out => ∃ parts, Both (ItemShows env a) (pattern.getD [.name none, .text (ch! ": "), .value none]) parts
      ∧ out = parts.flatten) r.pack.flatten outs) :
    Prints cd sm env clock (ch! "{...:" ++ printExt pattern separator ++ t.print ++ ch! "}") r
      (.ok (if (separator.getD (ch! ", ")).intercalate outs = [] then []
        else field t ((separator.getD (ch! ", ")).intercalate outs))) := by
  refine prints_token (C51_pattern_first_partial cd pattern separator t hp hs hs' hv hb) ?_
  have items : ∀ (a : View × Value) (ps : List ItemPiece) (parts : List Str), Both (ItemShows env a) ps parts →
      concat ((ps.map ItemPiece.item).map (writeItem env a)) = .ok parts.flatten := by
    intro a ps parts hb
    refine concat_ok ?_
    induction hb with
    | nil => exact .nil
    | cons h1 _ ih => exact .cons (writeItem_shows h1) ih
  have he := eval_ok (env := env) (l := ⟨ch! "{:" ++ t.print ++ ch! "}", separator.getD (ch! ", "),
    (pattern.getD [.name none, .text (ch! ": "), .value none]).map ItemPiece.item⟩) (h.mono (by
      rintro a out ⟨parts, hb, rfl⟩
      exact items a _ parts hb))
  simp only [render, he]
  cases hj : (separator.getD (ch! ", ")).intercalate outs with
  | nil => rfl
  | cons c cs =>
    rw [if_neg (by simp)]
    exact write_short env hv hw (.inl ⟨[], rfl, by simp⟩)

/-- **C23.** By default an item is the name, a colon and the value, and items are separated by commas. -/
theorem C23_default (cd : Str → Option Nat) (sm : SevMap) (env : Env) (clock : Clock) (r : Record) (outs : List Str)
    (h : Both (fun a out => a.1.text ≠ [] ∧ ∃ s, Shows env a.2 s ∧ out = a.1.text ++ ch! ": " ++ s) r.pack.flatten outs) :
    Prints cd sm env clock (ch! "{...}") r (.ok ((ch! ", ").intercalate outs)) := by
  obtain ⟨_, _, _, _, _, p6, _⟩ := C20_plain cd
  refine prints_token p6 ?_
  have he := eval_ok (env := env) (l := ⟨ch! "{:}", ch! ", ", [.name [], .literal (ch! ": "), .value []]⟩) (h.mono (by
    rintro a out ⟨hne, s, hs, rfl⟩
    have hn := writeItem_shows (ItemShows.name (env := env) (a := a) hne)
    have hv := writeItem_shows (ItemShows.value (env := env) (a := a) hs)
    exact concat_ok (ss := [a.1.text, ch! ": ", s]) (.cons hn (.cons rfl (.cons hv .nil))) |>.trans (by simp)))
  simp only [render, he]
  cases hj : (ch! ", ").intercalate outs with
  | nil => rfl
  | cons c cs =>
    refine write_colon env _ ?_
    rw [(Fmt.C50_not_empty env.fd {} (c :: cs) [] (by simp) (.inl rfl) rfl).1, pad_none]

/-- **C23.** Without attributes nothing is printed. -/
theorem C23_none (cd : Str → Option Nat) (sm : SevMap) (env : Env) (clock : Clock) (r : Record)
    (h : r.pack.flatten = []) : Prints cd sm env clock (ch! "{...}") r (.ok []) := by
  have := C23_default cd sm env clock r [] (by rw [h]; exact .nil)
  simpa [List.intercalate] using this

/-- Two lists, three attributes: `id: 42, ok: true, user: none`. -/
example (env : Env) : Both (fun a out => a.1.text ≠ [] ∧ ∃ s, Shows env a.2 s ∧ out = a.1.text ++ ch! ": " ++ s)
    ([[(View.at (ch! "id") [], Value.uint 42), (View.at (ch! "ok") [], Value.bool true)],
      [(View.at (ch! "user") [], Value.null)]] : Pack).flatten [ch! "id: 42", ch! "ok: true", ch! "user: none"]
    ∧ (ch! ", ").intercalate [ch! "id: 42", ch! "ok: true", ch! "user: none"] = ch! "id: 42, ok: true, user: none" := by
  refine ⟨.cons ⟨by decide, _, .uint (by decide), by decide⟩ (.cons ⟨by decide, _, .true, rfl⟩
    (.cons ⟨by decide, _, .null, rfl⟩ .nil)), rfl⟩

/-! ## C24 String attributes -/

/-- **C24.** A string attribute should be printed in full, exactly. It is if it contains no NUL and is followed by one.
(Missing: everything else, see below.) -/
theorem C24_terminated_partial (cd : Str → Option Nat) (sm : SevMap) (env : Env) (clock : Clock) (r : Record)
    (name : Str) (h : ∀ c ∈ name, NameChar c) (hn : name ∉ builtin) (k : View) (s rest : Str) (hs : '\x00' ∉ s)
    (hf : r.pack.flatten.find? (fun a => decide (a.1.text = name)) = some (k, .string (.at s ('\x00' :: rest)))) :
    Prints cd sm env clock ('{' :: (name ++ ['}'])) r (.ok s) :=
  (C22_required cd sm env clock r name h hn).1 _ s hf (.string ⟨hs, rest, rfl⟩)

/-- The token of `{name}` and its value. -/
theorem prints_value {cd : Str → Option Nat} {sm : SevMap} {env : Env} {clock : Clock} {r : Record}
    {name : Str} (h : ∀ c ∈ name, NameChar c) (hn : name ∉ builtin) {k : View} {v : Value}
    (hf : r.pack.flatten.find? (fun a => decide (a.1.text = name)) = some (k, v)) {out : Except Exc Str}
    (ho : writeValue env (ch! "{}") v = out) : Prints cd sm env clock ('{' :: (name ++ ['}'])) r out := by
  obtain ⟨_, _, _, _, _, _, p7⟩ := C20_plain cd
  refine prints_token (p7 name h hn) ?_
  simp only [render, find_eq, hf, Option.map_some]
  exact ho

/-- **C24.** A NUL in the text ends it, -/
theorem C24_fails_nul (cd : Str → Option Nat) (sm : SevMap) (env : Env) (clock : Clock) (r : Record)
    (name : Str) (h : ∀ c ∈ name, NameChar c) (hn : name ∉ builtin) (k : View) (s t behind : Str) (hs : '\x00' ∉ s)
    (hf : r.pack.flatten.find? (fun a => decide (a.1.text = name)) = some (k, .string (.at (s ++ '\x00' :: t) behind))) :
    Prints cd sm env clock ('{' :: (name ++ ['}'])) r (.ok s) := by
  refine prints_value h hn hf ?_
  refine write_plain env _ ?_
  rw [show View.data (.at (s ++ '\x00' :: t) behind) = .str [] (s ++ '\x00' :: (t ++ behind)) from by simp [View.data],
    writeArg_data env.fd {} (.inl rfl) rfl hs, pad_none]

/-- **C24.** text behind the view is printed with it, -/
theorem C24_fails_reads_behind (cd : Str → Option Nat) (sm : SevMap) (env : Env) (clock : Clock) (r : Record)
    (name : Str) (h : ∀ c ∈ name, NameChar c) (hn : name ∉ builtin) (k : View) (s more rest : Str) (hs : '\x00' ∉ s)
    (hm : '\x00' ∉ more)
    (hf : r.pack.flatten.find? (fun a => decide (a.1.text = name)) = some (k, .string (.at s (more ++ '\x00' :: rest)))) :
    Prints cd sm env clock ('{' :: (name ++ ['}'])) r (.ok (s ++ more)) := by
  refine prints_value h hn hf ?_
  refine write_plain env _ ?_
  rw [show View.data (.at s (more ++ '\x00' :: rest)) = .str [] ((s ++ more) ++ '\x00' :: rest) from by simp [View.data],
    writeArg_data env.fd {} (.inl rfl) rfl (by simp [hs, hm]), pad_none]

/-- **C24.** memory without a NUL is read past its end, -/
theorem C24_fails_past_end (cd : Str → Option Nat) (sm : SevMap) (env : Env) (clock : Clock) (r : Record)
    (name : Str) (h : ∀ c ∈ name, NameChar c) (hn : name ∉ builtin) (k : View) (s behind : Str) (hs : '\x00' ∉ s)
    (hm : '\x00' ∉ behind)
    (hf : r.pack.flatten.find? (fun a => decide (a.1.text = name)) = some (k, .string (.at s behind))) :
    Prints cd sm env clock ('{' :: (name ++ ['}'])) r (.error (.fmt (.ub .outOfBounds))) := by
  refine prints_value h hn hf ?_
  simp only [writeValue, Env.write, Fmt.format_plain, View.data]
  rw [Fmt.C50_fails_past_end env.fd (s ++ behind) (by simp [hs, hm])]

/-- **C24.** and an empty view without memory is an error. -/
theorem C24_fails_null (cd : Str → Option Nat) (sm : SevMap) (env : Env) (clock : Clock) (r : Record)
    (name : Str) (h : ∀ c ∈ name, NameChar c) (hn : name ∉ builtin) (k : View)
    (hf : r.pack.flatten.find? (fun a => decide (a.1.text = name)) = some (k, .string .null)) :
    Prints cd sm env clock ('{' :: (name ++ ['}'])) r (.error (.fmt (.format (ch! "string pointer is null")))) := by
  refine prints_value h hn hf ?_
  simp only [writeValue, Env.write, Fmt.format_plain, View.data, Fmt.C50_fails_null]

/-- **C24.** Exactly those views are printed in full that contain no NUL and are followed by one. -/
theorem C24_exact (cd : Str → Option Nat) (sm : SevMap) (env : Env) (clock : Clock) (r : Record)
    (name : Str) (h : ∀ c ∈ name, NameChar c) (hn : name ∉ builtin) (k : View) (s behind : Str)
    (hf : r.pack.flatten.find? (fun a => decide (a.1.text = name)) = some (k, .string (.at s behind))) :
    Prints cd sm env clock ('{' :: (name ++ ['}'])) r (.ok s) ↔ '\x00' ∉ s ∧ ∃ rest, behind = '\x00' :: rest := by
  have once : ∀ {o o' : Except Exc Str}, Prints cd sm env clock ('{' :: (name ++ ['}'])) r o →
      Prints cd sm env clock ('{' :: (name ++ ['}'])) r o' → o = o' := by
    rintro o o' ⟨f, h1, h2⟩ ⟨f', h1', h2'⟩
    rw [h1] at h1'
    cases h1'
    rw [← h2, ← h2']
  have cut : ∀ {l : Str}, '\x00' ∈ l → ∃ a b, l = a ++ '\x00' :: b ∧ '\x00' ∉ a := by
    intro l
    induction l with
    | nil => simp
    | cons c l ih =>
      intro hl
      by_cases hc : c = '\x00'
      · exact ⟨[], l, by rw [hc]; rfl, by simp⟩
      · obtain ⟨a, b, rfl, ha⟩ := ih ((List.mem_cons.1 hl).resolve_left (Ne.symm hc))
        exact ⟨c :: a, b, rfl, by simp [ha, Ne.symm hc]⟩
  constructor
  · intro hp
    by_cases hs : '\x00' ∈ s
    · exfalso
      obtain ⟨a, b, rfl, ha⟩ := cut hs
      have := once hp (C24_fails_nul cd sm env clock r name h hn k a b behind ha hf)
      simp at this
    · refine ⟨hs, ?_⟩
      by_cases hb : '\x00' ∈ behind
      · obtain ⟨a, b, rfl, ha⟩ := cut hb
        have := once hp (C24_fails_reads_behind cd sm env clock r name h hn k s a b hs ha hf)
        simp only [Except.ok.injEq, List.self_eq_append_right] at this
        subst this
        exact ⟨b, rfl⟩
      · exact absurd (once hp (C24_fails_past_end cd sm env clock r name h hn k s behind hs hb hf)) (by simp)
  · rintro ⟨hs, rest, rfl⟩
    exact C24_terminated_partial cd sm env clock r name h hn k s rest hs hf

/-- The views `ab` of the memory `ab\0`, `a\0b`, `abcd\0`, `abcd`. -/
example : ([[(View.at (ch! "k") [], Value.string (.at (ch! "ab") (ch! "cd")))]] : Pack).flatten.find?
    (fun a => decide (a.1.text = ch! "k")) = some (View.at (ch! "k") [], .string (.at (ch! "ab") (ch! "cd"))) := by
  simp [View.text]

/-! ## C44 Severity -/

/-- **C44.** A numeric severity is printed as a signed decimal number, and so is a severity without a mapping. -/
theorem C44_number (cd : Str → Option Nat) (env : Env) (clock : Clock) (r : Record) (h1 : -2 ^ 31 ≤ r.severity)
    (h2 : r.severity < 2 ^ 31) :
    (∀ sm, Prints cd sm env clock (ch! "{severity:d}") r (.ok (decimalText r.severity)))
    ∧ Prints cd (plainSeverity env) env clock (ch! "{severity}") r (.ok (decimalText r.severity)) := by
  obtain ⟨_, _, _, p4, _, _, _⟩ := C20_plain cd
  obtain ⟨_, _, _, d4⟩ := C20_typed cd [] 'd' (balanced_plain (by decide) (by decide))
  refine ⟨?_, ?_⟩
  · intro sm
    refine prints_token d4 ?_
    simp only [render, if_true]
    refine (write_letter env (.int r.severity) 'd' (by decide)).trans ?_
    rw [writeArg_int env.fd _ (.int h1 h2) (.inr rfl)]
  · refine prints_token p4 ?_
    exact write_plain env _ (writeArg_int env.fd {} (.int h1 h2) (.inl rfl))

/-- **C44.** With the names of a configuration, `{severity}` prints the name of a severity that has one, and the number of
a higher one. (Missing: negative severities, `C44_fails_negative`, and the type `s`, `C44_fails_type_s`.) -/
theorem C44_mapped_partial (cd : Str → Option Nat) (env : Env) (clock : Clock) (r : Record) (names : List Str)
    (h1 : 0 ≤ r.severity) (h2 : r.severity < 2 ^ 31) :
    (∀ name, names[r.severity.toNat]? = some name →
      Prints cd (mappedSeverity env names) env clock (ch! "{severity}") r (.ok name)
      ∧ Prints cd (mappedSeverity env names) env clock (ch! "{severity:s}") r (.ok name))
    ∧ (names.length ≤ r.severity.toNat →
      Prints cd (mappedSeverity env names) env clock (ch! "{severity}") r (.ok (decimalText r.severity))) := by
  obtain ⟨_, _, _, p4, _, _, _⟩ := C20_plain cd
  obtain ⟨_, _, _, s4⟩ := C20_typed cd [] 's' (balanced_plain (by decide) (by decide))
  have hi : (r.severity % 2 ^ 64).toNat = r.severity.toNat := by omega
  have hname : ∀ (spec : Fmt.Spec) name, (spec = {} ∨ spec = { type := some 's' }) →
      Fmt.writeArg env.fd spec (.str name ['\x00']) = .ok name := by
    intro spec name hs
    have hp : spec.precision = none := by rcases hs with rfl | rfl <;> rfl
    have hw : ∀ s, Fmt.pad spec s = s := by
      intro s
      unfold Fmt.pad
      rcases hs with rfl | rfl <;> rw [if_neg (by simp)]
    have ht : spec.type = none ∨ spec.type = some 's' := by rcases hs with rfl | rfl <;> simp
    cases name with
    | nil => exact (writeArg_data env.fd spec ht hp (s := []) (by simp) []).trans (by rw [hw])
    | cons c cs => rw [(Fmt.C50_not_empty env.fd spec (c :: cs) _ (by simp) ht hp).1, hw]
  refine ⟨?_, ?_⟩
  · intro name hn
    refine ⟨prints_token p4 ?_, prints_token s4 ?_⟩
    · simp only [render, mappedSeverity, hi, hn]
      exact write_plain env _ (hname {} name (.inl rfl))
    · simp only [render, mappedSeverity, hi, hn, show ¬ ('s' = 'd') from by decide, if_false]
      refine (write_letter env (.str name ['\x00']) 's' (by decide)).trans ?_
      rw [hname _ name (.inr rfl)]
  · intro hl
    refine prints_token p4 ?_
    simp only [render, mappedSeverity, hi, List.getElem?_eq_none hl]
    refine write_plain env _ ?_
    rw [writeArg_int env.fd {} (.ulong (by omega)) (.inl rfl)]
    congr 2
    omega

/-- **C44.** A negative severity is printed as 2^64 more, -/
theorem C44_fails_negative (cd : Str → Option Nat) (env : Env) (clock : Clock) (r : Record) (names : List Str)
    (h1 : -2 ^ 31 ≤ r.severity) (h2 : r.severity < 0) (hl : names.length < 2 ^ 63) :
    Prints cd (mappedSeverity env names) env clock (ch! "{severity}") r
      (.ok (Nat.toDigits 10 (2 ^ 64 - r.severity.natAbs))) := by
  obtain ⟨_, _, _, p4, _, _, _⟩ := C20_plain cd
  have hi : (r.severity % 2 ^ 64).toNat = 2 ^ 64 - r.severity.natAbs := by omega
  refine prints_token p4 ?_
  have hn : names[2 ^ 64 - r.severity.natAbs]? = none := List.getElem?_eq_none (by omega)
  simp only [render, mappedSeverity, hi, hn]
  refine write_plain env _ ?_
  rw [writeArg_int env.fd {} (.ulong (by omega)) (.inl rfl), decimal_nat]

/-- **C44.** and a severity without a name cannot be printed with the documented type of names. -/
theorem C44_fails_type_s (cd : Str → Option Nat) (env : Env) (clock : Clock) (r : Record) (names : List Str)
    (h1 : names.length ≤ r.severity.toNat) (h2 : 0 ≤ r.severity) (h3 : r.severity < 2 ^ 31) :
    Prints cd (mappedSeverity env names) env clock (ch! "{severity:s}") r
      (.error (.fmt (.format (ch! "unknown format code 's' for integer")))) := by
  obtain ⟨_, _, _, s4⟩ := C20_typed cd [] 's' (balanced_plain (by decide) (by decide))
  have hi : (r.severity % 2 ^ 64).toNat = r.severity.toNat := by omega
  refine prints_token s4 ?_
  simp only [render, mappedSeverity, hi, List.getElem?_eq_none h1, show ¬ ('s' = 'd') from by decide, if_false]
  refine (write_letter env (.ulong r.severity.toNat) 's' (by decide)).trans ?_
  rw [Fmt.C45_text env.fd _ _ _ (.ulong (by omega))]
  rfl

example : decimalText (-3) = ch! "-3" ∧ Nat.toDigits 10 (2 ^ 64 - 3) = ch! "18446744073709551613" := ⟨rfl, by decide⟩

/-! ## C50 Empty messages -/

/-- **C50.** An empty message that is part of a longer text is printed as what follows it in memory. -/
theorem C50_fails_message (cd : Str → Option Nat) (sm : SevMap) (env : Env) (clock : Clock) (r : Record)
    (behind rest : Str) (h : '\x00' ∉ behind) (hm : r.message = .at [] (behind ++ '\x00' :: rest)) :
    Prints cd sm env clock (ch! "{message}") r (.ok behind) := by
  obtain ⟨p1, _⟩ := C20_plain cd
  refine prints_token p1 ?_
  simp only [render, hm, View.ref]
  exact write_plain env _ (Fmt.C50_fails_reads_behind env.fd behind rest h)

end Blackhole.StringFmt
