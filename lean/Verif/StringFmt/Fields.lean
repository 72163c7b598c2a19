import Verif.StringFmt.Props
import Verif.Fmt.Text

/-! # Placeholders with specifications, and the factory (C20, C22, C53) -/

namespace Blackhole.StringFmt

open Rec Pattern

/-! ## Specifications in patterns -/

theorem digits_nobrace (n : Nat) : '{' ∉ Nat.toDigits 10 n ∧ '}' ∉ Nat.toDigits 10 n := by
  have h := Fmt.toDigits_isDigit n
  exact ⟨fun hm => absurd (h _ hm) (by decide), fun hm => absurd (h _ hm) (by decide)⟩

theorem letter_nobrace {c : Char} (h : Fmt.letter c) : c ≠ '{' ∧ c ≠ '}' :=
  ⟨fun e => absurd (e ▸ h) (by decide), fun e => absurd (e ▸ h) (by decide)⟩

/-- A documented specification contains no braces. -/
theorem spec_nobrace {t : Fmt.SpecText} (hv : t.Valid) (b : Char) (hb : b = '{' ∨ b = '}') : b ∉ t.print := by
  have hdig : ∀ n, b ∉ Nat.toDigits 10 n := by
    intro n
    rcases hb with rfl | rfl
    · exact (digits_nobrace n).1
    · exact (digits_nobrace n).2
  have h1 : b ∉ (match t.align with
      | none => []
      | some (f, al) => f.toList ++ [Fmt.alignChar al] : Str) := by
    cases ha : t.align with
    | none => simp
    | some p =>
      obtain ⟨f, al⟩ := p
      have hal : b ≠ Fmt.alignChar al := by rcases hb with rfl | rfl <;> cases al <;> decide
      cases f with
      | none => simpa using hal
      | some f =>
        have hf := hv.fill f al ha
        have : b ≠ f := by
          rcases hb with rfl | rfl
          · exact fun e => hf.1 e.symm
          · exact fun e => hf.2.1 e.symm
        simp [hal, this]
  have h2 : b ∉ t.sign.toList := by
    cases hs : t.sign with
    | none => simp
    | some c =>
      rcases hv.sign c hs with rfl | rfl | rfl <;> rcases hb with rfl | rfl <;> decide
  have h3 : b ∉ (if t.hash then ['#'] else [] : Str) := by
    cases t.hash <;> rcases hb with rfl | rfl <;> decide
  have h4 : b ∉ (if t.zero then ['0'] else [] : Str) := by
    cases t.zero <;> rcases hb with rfl | rfl <;> decide
  have h5 : b ∉ (match t.width with
      | none => []
      | some w => Nat.toDigits 10 w : Str) := by
    cases t.width with
    | none => simp
    | some w => exact hdig w
  have h6 : b ∉ (match t.precision with
      | none => []
      | some p => '.' :: Nat.toDigits 10 p : Str) := by
    cases t.precision with
    | none => simp
    | some p =>
      simp only [List.mem_cons, not_or]
      exact ⟨by rcases hb with rfl | rfl <;> decide, hdig p⟩
  have h7 : b ∉ t.type.toList := by
    cases ht : t.type with
    | none => simp
    | some c =>
      have := letter_nobrace (hv.type c ht)
      rcases hb with rfl | rfl
      · simpa using fun e => this.1 e.symm
      · simpa using fun e => this.2 e.symm
  unfold Fmt.SpecText.print
  simp only [List.mem_append, not_or]
  exact ⟨h1, h2, h3, h4, h5, h6, h7⟩

theorem spec_balanced {t : Fmt.SpecText} (hv : t.Valid) : Balanced t.print :=
  balanced_plain (spec_nobrace hv _ (.inl rfl)) (spec_nobrace hv _ (.inr rfl))

theorem spec_head {t : Fmt.SpecText} (hv : t.Valid) : t.print.head? ≠ some '{' := by
  intro h
  exact spec_nobrace hv _ (.inl rfl) (List.mem_of_head? h)

/-- A documented specification with a type ends with it. -/
theorem spec_last {t : Fmt.SpecText} {c : Char} (h : t.type = some c) : ∃ b, t.print = b ++ [c] := by
  unfold Fmt.SpecText.print
  rw [h]
  exact ⟨_, by simp only [Option.toList_some, ← List.append_assoc]; rfl⟩

theorem write_spec (env : Env) {t : Fmt.SpecText} (hv : t.Valid) {a : Fmt.Arg} (hf : t.Fits a) :
    env.write (ch! "{:" ++ (t.print ++ ['}'])) a = outcome (Fmt.writeArg env.fd t.meaning a) := by
  have := Fmt.format_spec env.fd a t hv hf
  rw [List.append_assoc] at this
  simp only [Env.write]
  rw [this]
  cases Fmt.writeArg env.fd t.meaning a <;> rfl

/-! ## C20 Built-in placeholders -/

/-- The argument that a built-in placeholder formats, by its name and the type letter of its specification. -/
inductive FieldArg (env : Env) (r : Record) : Str → Char → Fmt.Arg → Prop
  | message {c : Char} : FieldArg env r (ch! "message") c r.message.ref
  | processName : FieldArg env r (ch! "process") 's' (.cstr env.procname)
  | processId {c : Char} : c ≠ 's' → FieldArg env r (ch! "process") c (.ulong env.pid)
  | threadId : FieldArg env r (ch! "thread") 'd' (.ulong env.lwp)
  | threadName : FieldArg env r (ch! "thread") 's' (.cstr ((env.threadName r.tid).getD (ch! "<unnamed>")))
  | threadHandle {c : Char} : c ≠ 'd' → c ≠ 's' → FieldArg env r (ch! "thread") c (.ulong r.tid)
  | severity : FieldArg env r (ch! "severity") 'd' (.int r.severity)
  | timestamp : FieldArg env r (ch! "timestamp") 'd' (.long (r.timestamp.tdiv 1000))

/-- **C20.** A built-in placeholder with a documented specification prints what formatting its value with that
specification gives. (What that is for numbers and texts: C45 and C52.) -/
theorem C20_fields_specified (cd : Str → Option Nat) (sm : SevMap) (env : Env) (clock : Clock) (r : Record)
    (name : Str) (c : Char) (a : Fmt.Arg) (h : FieldArg env r name c a) (t : Fmt.SpecText) (hv : t.Valid)
    (ht : t.type = some c) (hf : t.Fits a) :
    Prints cd sm env clock ('{' :: (name ++ ':' :: (t.print ++ ['}']))) r (outcome (Fmt.writeArg env.fd t.meaning a)) := by
  obtain ⟨b, hb⟩ := spec_last ht
  have hbal := spec_balanced hv
  have hw := write_spec env hv hf
  rw [hb] at hbal hw
  obtain ⟨k1, k2, k3, k4⟩ := C20_typed cd b c hbal
  rw [hb]
  cases h with
  | message => exact prints_token k1 hw
  | processName => exact prints_token k2 (by simpa only [if_true, render] using hw)
  | processId hc => exact prints_token k2 (by simpa only [if_neg hc, render] using hw)
  | threadId => exact prints_token k3 (by simpa only [if_true, render] using hw)
  | threadName =>
    refine prints_token k3 ?_
    simp only [show ¬ ('s' = 'd') from by decide, if_false, if_true, render]
    cases hn : env.threadName r.tid with
    | none => rw [hn] at hw; exact hw
    | some s => rw [hn] at hw; exact hw
  | threadHandle h1 h2 => exact prints_token k3 (by simpa only [if_neg h1, if_neg h2, render] using hw)
  | severity => exact prints_token k4 (by simpa only [if_true, render] using hw)
  | timestamp =>
    have hb' : Balanced b := by
      have h1 := spec_nobrace hv _ (.inl rfl)
      have h2 := spec_nobrace hv _ (.inr rfl)
      rw [hb] at h1 h2
      exact balanced_plain (fun h => h1 (List.mem_append_left _ h)) (fun h => h2 (List.mem_append_left _ h))
    have h0 : b.head? ≠ some '{' := by
      intro h
      have h1 := spec_nobrace hv _ (.inl rfl)
      rw [hb] at h1
      exact h1 (List.mem_append_left _ (List.mem_of_head? h))
    have := (C20_time_plain cd b hb' h0).1
    have e : b ++ ['d'] ++ ['}'] = b ++ ch! "d}" := by simp
    rw [e] at hw
    rw [e]
    exact prints_token this hw

/-- `{process:>8d}`. -/
example (cd : Str → Option Nat) (sm : SevMap) (env : Env) (clock : Clock) (r : Record) (hpid : env.pid = 4242) :
    Prints cd sm env clock (ch! "{process:>8d}") r (.ok (ch! "    4242")) := by
  have := C20_fields_specified cd sm env clock r (ch! "process") 'd' (.ulong env.pid) (.processId (by decide))
    ⟨some (none, .right), none, false, false, some 8, none, some 'd'⟩
    ⟨by simp, by simp, by simp, by simp, by simp, by simp; decide, by simp [Fmt.SpecText.print]⟩ rfl
    ⟨by simp, by simp, by simp⟩
  rw [hpid] at this
  exact this

/-! ## C22 Attributes -/

/-- **C22.** A required attribute is formatted with the specification of its placeholder, whatever its type; an attribute
that prints itself ignores the specification. -/
theorem C22_required_specified (cd : Str → Option Nat) (sm : SevMap) (env : Env) (clock : Clock) (r : Record) (name : Str)
    (h : ∀ c ∈ name, NameChar c) (hn : name ∉ builtin) (t : Fmt.SpecText) (hv : t.Valid) :
    (∀ a v, r.pack.flatten.find? (fun a => decide (a.1.text = name)) = some a → ValueArg a.2 v → t.Fits v →
      Prints cd sm env clock ('{' :: (name ++ ':' :: (t.print ++ ['}']))) r (outcome (Fmt.writeArg env.fd t.meaning v)))
    ∧ (∀ k s, r.pack.flatten.find? (fun a => decide (a.1.text = name)) = some (k, .function (.ok s)) →
      Prints cd sm env clock ('{' :: (name ++ ':' :: (t.print ++ ['}']))) r (.ok s)) := by
  have htok := C20_required cd name t.print h hn (spec_balanced hv) (spec_head hv)
  refine ⟨?_, ?_⟩
  · intro a v hf hval hfit
    refine prints_token htok ?_
    simp only [render, find_eq, hf, Option.map_some]
    have : ∀ spec, writeValue env spec a.2 = env.write spec v := by
      intro spec
      cases a with
      | mk k val => cases hval <;> rfl
    rw [this, write_spec env hv hfit]
  · intro k s hf
    refine prints_token htok ?_
    simp only [render, find_eq, hf, Option.map_some, writeValue]

/-- `{id:<6d}|` of an attribute 42. -/
example (cd : Str → Option Nat) (sm : SevMap) (env : Env) (clock : Clock) (r : Record)
    (hr : r.pack = [[(.at (ch! "id") [], .sint 42)]]) :
    Prints cd sm env clock (ch! "{id:<6d}") r (.ok (ch! "42    ")) := by
  have := (C22_required_specified cd sm env clock r (ch! "id") (by simp [NameChar]) (by decide)
    ⟨some (none, .left), none, false, false, some 6, none, some 'd'⟩
    ⟨by simp, by simp, by simp, by simp, by simp, by simp; decide, by simp [Fmt.SpecText.print]⟩).1
    (.at (ch! "id") [], .sint 42) (.long 42) (by simp [hr, View.text]) (.sint 42) ⟨by simp, by simp, by simp⟩
  exact this

/-! ## C53 The factory -/

open Config (Json Node)

theorem severityNames_ok (cursor : Str) (i : Nat) (ns : List Str) (hp : ∀ n ∈ ns, '\x00' ∉ n) :
    severityNames (Config.children cursor i (ns.map Json.str)) = .ok ns := by
  induction ns generalizing i with
  | nil => rfl
  | cons n ns ih =>
    have ih := ih (i + 1) fun n h => hp n (List.mem_cons_of_mem _ h)
    simp only [List.map_cons, Config.children, severityNames, Node.toString,
      Config.cstr_plain (hp n List.mem_cons_self), ih]

/-- What the configuration says: a pattern, and names of severities. -/
structure Configured (ms : List (Str × Json)) (pattern : Str) (names : Option (List Str)) : Prop where
  patternAt : Config.member (ch! "pattern") ms = some (.str pattern)
  namesAt : Config.member (ch! "sevmap") ms = names.map fun ns => .arr (ns.map .str)
  plain : '\x00' ∉ pattern ∧ ∀ ns, names = some ns → ∀ n ∈ ns, '\x00' ∉ n

/-- The texts of severities: their names if there are any. -/
def configuredSeverity (env : Env) : Option (List Str) → SevMap
  | none => plainSeverity env
  | some ns => mappedSeverity env ns

/-- **C53.** A formatter made from a configuration is the one made from its pattern, with the severities named as its
list says. -/
theorem C53_config (env : Env) (cd : Str → Option Nat) (cursor : Str) (ms : List (Str × Json)) (pattern : Str)
    (names : Option (List Str)) (h : Configured ms pattern names) (f : Formatter) :
    Formatter.fromConfig env cd { value := .obj ms, cursor := cursor } = .ok f
    ↔ Formatter.make cd pattern (configuredSeverity env names) = .ok f := by
  have hp := h.plain.1
  have k1 : (({ value := .obj ms, cursor := cursor } : Node).key (ch! "pattern")).toString = .ok (some pattern) := by
    simp only [Node.key, show Config.cstr (ch! "pattern") = ch! "pattern" from rfl, h.patternAt, Config.Opt.toString, Config.Opt.to, Except.map,
      Node.toString, Config.cstr_plain hp]
  unfold Formatter.fromConfig
  rw [k1]
  cases hn : names with
  | none =>
    have k2 : ({ value := .obj ms, cursor := cursor } : Node).key (ch! "sevmap") = none := by
      simp only [Node.key, show Config.cstr (ch! "sevmap") = ch! "sevmap" from rfl, h.namesAt, hn, Option.map_none]
    simp only [k2, configuredSeverity]
    cases Formatter.make cd pattern (plainSeverity env) <;> simp
  | some ns =>
    have k2 : ∃ c, ({ value := .obj ms, cursor := cursor } : Node).key (ch! "sevmap")
        = some { value := .arr (ns.map .str), cursor := c } := by
      simp only [Node.key, show Config.cstr (ch! "sevmap") = ch! "sevmap" from rfl, h.namesAt, hn, Option.map_some]
      exact ⟨_, rfl⟩
    obtain ⟨c, k2⟩ := k2
    simp only [k2, Node.each, configuredSeverity, severityNames_ok c 0 ns (h.plain.2 ns hn)]
    cases Formatter.make cd pattern (mappedSeverity env ns) <;> simp

/-- **C53.** Hence `{severity}` prints the configured name. -/
theorem C53_severity (env : Env) (cd : Str → Option Nat) (cursor : Str) (ms : List (Str × Json)) (names : List Str)
    (h : Configured ms (ch! "{severity}") (some names)) (clock : Clock) (r : Record) (h1 : 0 ≤ r.severity)
    (h2 : r.severity < 2 ^ 31) (name : Str) (hn : names[r.severity.toNat]? = some name) :
    ∃ f, Formatter.fromConfig env cd { value := .obj ms, cursor := cursor } = .ok f ∧ f.format env clock r = .ok name := by
  obtain ⟨f, hf, ho⟩ := ((C44_mapped_partial cd env clock r names h1 h2).1 name hn).1
  exact ⟨f, (C53_config env cd cursor ms _ _ h f).2 hf, ho⟩

/-- **C53.** A pattern that cannot be parsed is an error of the factory. -/
theorem C53_bad_pattern (env : Env) (cd : Str → Option Nat) (cursor : Str) (ms : List (Str × Json)) (pattern : Str)
    (names : Option (List Str)) (h : Configured ms pattern names) (e : Err) (he : tokenize cd pattern = .error e) :
    ∃ x, Formatter.fromConfig env cd { value := .obj ms, cursor := cursor } = .error x := by
  cases hf : Formatter.fromConfig env cd { value := .obj ms, cursor := cursor } with
  | error x => exact ⟨x, rfl⟩
  | ok f =>
    have := (C53_config env cd cursor ms _ _ h f).1 hf
    simp only [Formatter.make, he] at this
    cases this

/-- **C53.** A pattern of another type, and names that are not a list, are errors. (Missing: no pattern at all, see below.) -/
theorem C53_rejects_partial (env : Env) (cd : Str → Option Nat) (cursor : Str) (ms : List (Str × Json)) (pattern : Str) :
    (∀ v, Config.member (ch! "pattern") ms = some v → (∀ s, v ≠ .str s) →
      ∃ x, Formatter.fromConfig env cd { value := .obj ms, cursor := cursor } = .error (.mismatch x))
    ∧ (∀ v, Config.member (ch! "pattern") ms = some (.str pattern) → Config.member (ch! "sevmap") ms = some v →
      (∀ vs, v ≠ .arr vs) →
      ∃ x, Formatter.fromConfig env cd { value := .obj ms, cursor := cursor } = .error (.mismatch x)) := by
  refine ⟨?_, ?_⟩
  · intro v hv hs
    have k1 : ∃ x, (({ value := .obj ms, cursor := cursor } : Node).key (ch! "pattern")).toString = .error x := by
      simp only [Node.key, show Config.cstr (ch! "pattern") = ch! "pattern" from rfl, hv, Config.Opt.toString, Config.Opt.to, Except.map]
      cases v with
      | str s => exact absurd rfl (hs s)
      | _ => simp [Node.toString]
    obtain ⟨x, k1⟩ := k1
    exact ⟨x, by unfold Formatter.fromConfig; rw [k1]⟩
  · intro v hp hv hs
    have k1 : (({ value := .obj ms, cursor := cursor } : Node).key (ch! "pattern")).toString
        = .ok (some (Config.cstr pattern)) := by
      simp only [Node.key, show Config.cstr (ch! "pattern") = ch! "pattern" from rfl, hp, Config.Opt.toString, Config.Opt.to, Except.map,
        Node.toString]
    have k2 : ∃ n x, ({ value := .obj ms, cursor := cursor } : Node).key (ch! "sevmap") = some n ∧ n.each = .error x := by
      simp only [Node.key, show Config.cstr (ch! "sevmap") = ch! "sevmap" from rfl, hv]
      cases v with
      | arr vs => exact absurd rfl (hs vs)
      | _ => simp [Node.each]
    obtain ⟨n, x, k2, k3⟩ := k2
    exact ⟨x, by unfold Formatter.fromConfig; rw [k1]; simp only [k2, k3]⟩

/-- **C53.** A configuration without a pattern should be an error; it is undefined behaviour. -/
theorem C53_fails_no_pattern (env : Env) (cd : Str → Option Nat) (cursor : Str) (ms : List (Str × Json))
    (h : Config.member (ch! "pattern") ms = none) :
    Formatter.fromConfig env cd { value := .obj ms, cursor := cursor } = .error (.ub .assertion) := by
  unfold Formatter.fromConfig
  simp only [Node.key, show Config.cstr (ch! "pattern") = ch! "pattern" from rfl, h, Config.Opt.toString, Config.Opt.to]

example : Configured [(ch! "pattern", .str (ch! "{severity}")), (ch! "sevmap", .arr [.str (ch! "D"), .str (ch! "I")])]
    (ch! "{severity}") (some [ch! "D", ch! "I"]) := ⟨rfl, rfl, by decide, by simp⟩

end Blackhole.StringFmt
