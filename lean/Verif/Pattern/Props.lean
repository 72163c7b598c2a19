import Verif.Pattern.Grammar

/-! # Properties of pattern parsing (C20, C21, C51) -/

namespace Blackhole.Pattern

open Fmt (escapeText SpecText peek isDigit)

/-! ## Sequences -/

theorem tokenize_single (cd : Str → Option Nat) {p : Piece} (h : p.Valid) : tokenize cd p.print = pieceTokens cd p := by
  have := tokenize_done cd (ps := [p]) h
  rw [printAll, printAll, List.append_nil] at this
  rw [this, List.map_cons, List.map_nil, inOrder_cons]
  cases pieceTokens cd p with
  | error e => rfl
  | ok a => simp [andThen, inOrder]

theorem Normal.all {ps : List Piece} (h : Normal ps) : ∀ p ∈ ps, p.Valid := by
  induction ps with
  | nil => intro p hp; cases hp
  | cons q qs ih =>
    intro p hp
    rcases List.mem_cons.1 hp with rfl | hp
    · exact h.valid
    · exact ih h.tail p hp

theorem map_single (cd : Str → Option Nat) {ps : List Piece} (h : Normal ps) :
    ps.map (pieceTokens cd) = ps.map fun p => tokenize cd p.print :=
  List.map_congr_left fun p hp => (tokenize_single cd (h.all p hp)).symm

/-- **C20.** A pattern written as a sequence of texts and placeholders is parsed piece by piece: its tokens are those of
the pieces in order, and if pieces are in error, the first error is reported. -/
theorem C20_sequence (cd : Str → Option Nat) (ps : List Piece) (h : Normal ps) :
    tokenize cd (printAll ps) = inOrder (ps.map fun p => tokenize cd p.print) := by
  rw [tokenize_done cd h, map_single cd h]

/-- **C20.** A text, its braces doubled, is one literal. -/
theorem C20_text (cd : Str → Option Nat) (s : Str) (h : s ≠ []) : tokenize cd (escapeText s) = .ok [.literal s] :=
  tokenize_single cd (p := .text s) h

/-- **C20.** No pattern, no tokens. -/
theorem C20_empty (cd : Str → Option Nat) : tokenize cd [] = .ok [] := rfl

/-- `[{severity:d}] {{{message}}}{...}`. -/
example : Normal [.text (ch! "["), .hole (ch! "severity") (some (ch! "d")), .text (ch! "] {"),
      .hole (ch! "message") none, .text (ch! "}"), .hole (ch! "...") none]
    ∧ printAll [.text (ch! "["), .hole (ch! "severity") (some (ch! "d")), .text (ch! "] {"),
      .hole (ch! "message") none, .text (ch! "}"), .hole (ch! "...") none]
      = ch! "[{severity:d}] {{{message}}}{...}" := by
  refine ⟨?_, rfl⟩
  have hb : Balanced (ch! "d") := by
    refine ⟨?_, rfl⟩
    intro p hp
    have : '}' ∉ p := fun h => absurd (hp.subset h) (by decide)
    rw [List.count_eq_zero.2 this]
    omega
  refine ⟨by simp [Piece.Valid], by simp [Piece.isText], ⟨by simp [NameChar], ?_⟩, by simp [Piece.isText],
    by simp [Piece.Valid], by simp [Piece.isText], ⟨by simp [NameChar], by simp⟩, by simp [Piece.isText],
    by simp [Piece.Valid], by simp [Piece.isText], by simp [NameChar], by simp⟩
  intro b hb'
  simp only [Option.some.injEq] at hb'
  rw [← hb']
  exact hb

/-! ## Single placeholders -/

theorem token_plain (cd : Str → Option Nat) (name : Str) (h : ∀ c ∈ name, NameChar c) :
    tokenize cd ('{' :: (name ++ ['}'])) = (holeToken cd name none).map ([·]) := by
  have := tokenize_single cd (p := .hole name none) ⟨h, by simp⟩
  simpa [Piece.print, pieceTokens] using this

theorem token_spec (cd : Str → Option Nat) (name b : Str) (h : ∀ c ∈ name, NameChar c) (hb : Balanced b) :
    tokenize cd ('{' :: (name ++ ':' :: (b ++ ['}']))) = (holeToken cd name (some (b ++ ['}']))).map ([·]) := by
  have := tokenize_single cd (p := .hole name (some b)) ⟨h, by simpa using hb⟩
  simpa [Piece.print, pieceTokens] using this

/-- **C20.** Placeholders without a specification: the built-in ones, and required attributes for all other names. -/
theorem C20_plain (cd : Str → Option Nat) :
    tokenize cd (ch! "{message}") = .ok [.message (ch! "{}")]
    ∧ tokenize cd (ch! "{process}") = .ok [.processId (ch! "{}")]
    ∧ tokenize cd (ch! "{thread}") = .ok [.threadHex (ch! "{:#x}")]
    ∧ tokenize cd (ch! "{severity}") = .ok [.severityUser (ch! "{}")]
    ∧ tokenize cd (ch! "{timestamp}") = .ok [.timestampUser (ch! "%Y-%m-%d %H:%M:%S.%f") (ch! "{}") true]
    ∧ tokenize cd (ch! "{...}") = .ok [.leftover ⟨ch! "{:}", ch! ", ", [.name [], .literal (ch! ": "), .value []]⟩]
    ∧ ∀ name, (∀ c ∈ name, NameChar c) → name ∉ builtin →
      tokenize cd ('{' :: (name ++ ['}'])) = .ok [.required name (ch! "{}")] := by
  refine ⟨rfl, rfl, rfl, rfl, rfl, rfl, ?_⟩
  intro name h hn
  rw [token_plain cd name h]
  simp only [builtin, List.mem_cons, List.not_mem_nil, or_false, not_or] at hn
  simp only [holeToken, initToken, hn, if_false]
  rfl

example : (∀ c ∈ ch! "request_id", NameChar c) ∧ ch! "request_id" ∉ builtin := by
  refine ⟨by simp [NameChar], by decide⟩

theorem typeOf_last (b : Str) (t : Char) : typeOf (b ++ [t] ++ ['}']) = .ok t := by
  rw [typeOf, if_neg (by simp)]
  have e : (ch! "{:" ++ (b ++ [t] ++ ['}']))[(ch! "{:" ++ (b ++ [t] ++ ['}'])).length - 2]? = some t := by
    have h1 : ch! "{:" ++ (b ++ [t] ++ ['}']) = (ch! "{:" ++ b) ++ (t :: ['}']) := by simp
    rw [h1, List.getElem?_append_right (by simp)]
    simp
  rw [e]

/-- **C20.** Specifications of the built-in placeholders. The last character selects what is printed. -/
theorem C20_typed (cd : Str → Option Nat) (b : Str) (t : Char) (hb : Balanced (b ++ [t])) :
    tokenize cd (ch! "{message:" ++ (b ++ [t] ++ ch! "}")) = .ok [.message (ch! "{:" ++ (b ++ [t] ++ ch! "}"))]
    ∧ tokenize cd (ch! "{process:" ++ (b ++ [t] ++ ch! "}"))
      = .ok [if t = 's' then .processName (ch! "{:" ++ (b ++ [t] ++ ch! "}"))
          else .processId (ch! "{:" ++ (b ++ [t] ++ ch! "}"))]
    ∧ tokenize cd (ch! "{thread:" ++ (b ++ [t] ++ ch! "}"))
      = .ok [if t = 'd' then .threadId (ch! "{:" ++ (b ++ [t] ++ ch! "}"))
          else if t = 's' then .threadName (ch! "{:" ++ (b ++ [t] ++ ch! "}"))
          else .threadHex (ch! "{:" ++ (b ++ [t] ++ ch! "}"))]
    ∧ tokenize cd (ch! "{severity:" ++ (b ++ [t] ++ ch! "}"))
      = .ok [if t = 'd' then .severityNum (ch! "{:" ++ (b ++ [t] ++ ch! "}"))
          else .severityUser (ch! "{:" ++ (b ++ [t] ++ ch! "}"))] := by
  have ht := typeOf_last b t
  refine ⟨?_, ?_, ?_, ?_⟩
  · have := token_spec cd (ch! "message") (b ++ [t]) (by simp [NameChar]) hb
    exact this
  · have := token_spec cd (ch! "process") (b ++ [t]) (by simp [NameChar]) hb
    refine this.trans ?_
    simp only [holeToken, matchSpec]
    rw [if_neg (by decide), if_pos trivial, ht]
    rfl
  · have := token_spec cd (ch! "thread") (b ++ [t]) (by simp [NameChar]) hb
    refine this.trans ?_
    simp only [holeToken, matchSpec]
    rw [if_neg (by decide), if_neg (by decide), if_pos trivial, ht]
    rfl
  · have := token_spec cd (ch! "severity") (b ++ [t]) (by simp [NameChar]) hb
    refine this.trans ?_
    simp only [holeToken, matchSpec]
    rw [if_neg (by decide), if_neg (by decide), if_neg (by decide), if_pos trivial, ht]
    rfl

theorem balanced_plain {s : Str} (h1 : '{' ∉ s) (h2 : '}' ∉ s) : Balanced s := by
  refine ⟨?_, by rw [List.count_eq_zero.2 h1, List.count_eq_zero.2 h2]⟩
  intro p hp
  have : '}' ∉ p := fun h => h2 (hp.subset h)
  rw [List.count_eq_zero.2 this]
  omega

theorem balanced_append {s t : Str} (h1 : Balanced s) (h2 : Balanced t) : Balanced (s ++ t) := by
  refine ⟨?_, by rw [List.count_append, List.count_append, h1.2, h2.2]⟩
  intro p hp
  rcases Nat.le_total p.length s.length with hl | hl
  · exact h1.1 p (List.prefix_of_prefix_length_le hp ⟨t, rfl⟩ hl)
  · obtain ⟨q, rfl⟩ := List.prefix_of_prefix_length_le (l₁ := s) ⟨t, rfl⟩ hp hl
    have := h2.1 q ((List.prefix_append_right_inj s).1 hp)
    have := h1.2
    simp only [List.count_append]
    omega

theorem balanced_braces {s : Str} (h : Balanced s) : Balanced ('{' :: (s ++ ['}'])) := by
  refine ⟨?_, ?_⟩
  · intro p hp
    rcases prefix_cons_iff.1 hp with rfl | ⟨p, rfl, hq⟩
    · simp
    · rw [List.count_cons_of_ne (by decide), List.count_cons_self]
      rcases Nat.le_total p.length s.length with hl | hl
      · have := h.1 p (List.prefix_of_prefix_length_le hq ⟨['}'], rfl⟩ hl)
        omega
      · obtain ⟨q, rfl⟩ := List.prefix_of_prefix_length_le (l₁ := s) ⟨['}'], rfl⟩ hq hl
        have hq' := (List.prefix_append_right_inj s).1 hq
        have := h.2
        simp only [List.count_append]
        have h1 : q.count '}' ≤ 1 := by
          have := hq'.sublist.count_le '}'
          simpa using this
        omega
  · rw [List.count_cons_of_ne (by decide), List.count_cons_self, List.count_append, List.count_append, h.2]
    rfl

example : Balanced (ch! ">7" ++ ['s']) := balanced_plain (by decide) (by decide)

/-- **C20.** A time with a strftime pattern in braces: the pattern is taken from the braces (the default one if it is
empty); the rest is the specification of the text. It is UTC; with the type `l` it is local time, and the text is
formatted with type `s`. -/
theorem C20_time (cd : Str → Option Nat) (strftime spec : Str) (h1 : '{' ∉ strftime) (h2 : '}' ∉ strftime)
    (h3 : '{' ∉ spec) (h4 : '}' ∉ spec) :
    (spec.getLast? ≠ some 'd' → spec.getLast? ≠ some 'l' →
      tokenize cd (ch! "{timestamp:{" ++ (strftime ++ (ch! "}" ++ (spec ++ ch! "}"))))
        = .ok [.timestampUser (if strftime = [] then ch! "%Y-%m-%d %H:%M:%S.%f" else strftime)
            (ch! "{:" ++ (spec ++ ch! "}")) true])
    ∧ tokenize cd (ch! "{timestamp:{" ++ (strftime ++ (ch! "}" ++ (spec ++ ch! "l}"))))
        = .ok [.timestampUser (if strftime = [] then ch! "%Y-%m-%d %H:%M:%S.%f" else strftime)
            (ch! "{:" ++ (spec ++ ch! "s}")) false] := by
  have hne : ∀ c ∈ strftime, (c ≠ '}') = True := fun c hc => by
    simp only [ne_eq, eq_iff_iff, iff_true]
    rintro rfl
    exact h2 hc
  have hext : ∀ r gm, extract ('{' :: (strftime ++ ('}' :: r))) gm
      = .timestampUser (if strftime = [] then ch! "%Y-%m-%d %H:%M:%S.%f" else strftime) (ch! "{:" ++ r) gm := by
    intro r gm
    have e1 : (strftime ++ '}' :: r).takeWhile (fun c => decide (c ≠ '}')) = strftime := by
      rw [List.takeWhile_append_of_pos (by simpa using hne)]
      simp
    have e2 : (strftime ++ '}' :: r).dropWhile (fun c => decide (c ≠ '}')) = '}' :: r := by
      rw [List.dropWhile_append_of_pos (by simpa using hne)]
      simp
    simp only [extract, e1, e2]
    rfl
  have hbal : ∀ s, '{' ∉ s → '}' ∉ s → Balanced ('{' :: (strftime ++ ('}' :: s))) := by
    intro s a b
    have := balanced_append (balanced_braces (balanced_plain h1 h2)) (balanced_plain a b)
    simpa using this
  refine ⟨?_, ?_⟩
  · intro l1 l2
    have := token_spec cd (ch! "timestamp") ('{' :: (strftime ++ ('}' :: spec))) (by simp [NameChar]) (hbal spec h3 h4)
    rw [show ch! "{timestamp:{" ++ (strftime ++ (ch! "}" ++ (spec ++ ch! "}")))
      = '{' :: (ch! "timestamp" ++ ':' :: ('{' :: (strftime ++ ('}' :: spec)) ++ ['}'])) from by simp, this]
    have ht : ∃ c, typeOf ('{' :: (strftime ++ ('}' :: spec)) ++ ['}']) = .ok c ∧ c ≠ 'd' ∧ c ≠ 'l' := by
      rcases List.eq_nil_or_concat spec with rfl | ⟨s', c, rfl⟩
      · refine ⟨'}', ?_, by decide, by decide⟩
        have := typeOf_last ('{' :: strftime) '}'
        simpa using this
      · have := typeOf_last ('{' :: (strftime ++ ('}' :: s'))) c
        refine ⟨c, by simpa using this, ?_, ?_⟩
        · rintro rfl; simp at l1
        · rintro rfl; simp at l2
    obtain ⟨c, ht, c1, c2⟩ := ht
    simp only [holeToken, matchSpec]
    rw [if_neg (by decide), if_neg (by decide), if_neg (by decide), if_neg (by decide), if_pos trivial, ht]
    have e : '{' :: (strftime ++ '}' :: spec) ++ ['}'] = '{' :: (strftime ++ ('}' :: (spec ++ ['}']))) := by simp
    simp only [Except.map, if_neg c1, if_neg c2]
    rw [e, hext]
  · have := token_spec cd (ch! "timestamp") ('{' :: (strftime ++ ('}' :: (spec ++ ['l'])))) (by simp [NameChar])
      (hbal (spec ++ ['l']) (by simp [h3]) (by simp [h4]))
    rw [show ch! "{timestamp:{" ++ (strftime ++ (ch! "}" ++ (spec ++ ch! "l}")))
      = '{' :: (ch! "timestamp" ++ ':' :: ('{' :: (strftime ++ ('}' :: (spec ++ ['l']))) ++ ['}'])) from by simp, this]
    have ht := typeOf_last ('{' :: (strftime ++ ('}' :: spec))) 'l'
    have e0 : '{' :: (strftime ++ ('}' :: spec)) ++ ['l'] ++ ['}'] = '{' :: (strftime ++ ('}' :: (spec ++ ['l']))) ++ ['}'] := by
      simp
    rw [e0] at ht
    simp only [holeToken, matchSpec]
    rw [if_neg (by decide), if_neg (by decide), if_neg (by decide), if_neg (by decide), if_pos trivial, ht]
    have e : ((ch! "{:" ++ ('{' :: (strftime ++ ('}' :: (spec ++ ['l']))) ++ ['}'])).set
        ((ch! "{:" ++ ('{' :: (strftime ++ ('}' :: (spec ++ ['l']))) ++ ['}'])).length - 2) 's').drop 2
        = '{' :: (strftime ++ ('}' :: (spec ++ ch! "s}"))) := by
      have h1 : ch! "{:" ++ ('{' :: (strftime ++ ('}' :: (spec ++ ['l']))) ++ ['}'])
          = (ch! "{:{" ++ strftime ++ '}' :: spec) ++ ('l' :: ['}']) := by simp
      have h2 : ((ch! "{:{" ++ strftime ++ '}' :: spec) ++ ('l' :: ['}'])).length - 2
          = (ch! "{:{" ++ strftime ++ '}' :: spec).length := by
        rw [List.length_append]; rfl
      rw [h1, h2, List.set_append_right _ _ (Nat.le_refl _), Nat.sub_self]
      simp
    simp only [Except.map, if_neg (show ('l' : Char) ≠ 'd' from by decide), if_true]
    rw [e, hext]

example : '}' ∉ ch! "%H:%M" ∧ '{' ∉ ch! ">10s" ∧ (ch! ">10s").getLast? ≠ some 'd'
    ∧ (ch! ">10s").getLast? ≠ some 'l' := by decide

/-- **C20.** Times as numbers, and as texts with the default strftime pattern. -/
theorem C20_time_plain (cd : Str → Option Nat) (b : Str) (hb : Balanced b) (h0 : b.head? ≠ some '{') :
    tokenize cd (ch! "{timestamp:" ++ (b ++ ch! "d}")) = .ok [.timestampNum (ch! "{:" ++ (b ++ ch! "d}"))]
    ∧ tokenize cd (ch! "{timestamp:" ++ (b ++ ch! "s}"))
      = .ok [.timestampUser (ch! "%Y-%m-%d %H:%M:%S.%f") (ch! "{:" ++ (b ++ ch! "s}")) true] := by
  refine ⟨?_, ?_⟩
  · have := token_spec cd (ch! "timestamp") (b ++ ['d']) (by simp [NameChar])
      (balanced_append hb (balanced_plain (by decide) (by decide)))
    rw [show ch! "{timestamp:" ++ (b ++ ch! "d}") = '{' :: (ch! "timestamp" ++ ':' :: (b ++ ['d'] ++ ['}'])) from by simp,
      this]
    simp only [holeToken, matchSpec]
    rw [if_neg (by decide), if_neg (by decide), if_neg (by decide), if_neg (by decide), if_pos trivial, typeOf_last b 'd']
    simp [Except.map]
  · have := token_spec cd (ch! "timestamp") (b ++ ['s']) (by simp [NameChar])
      (balanced_append hb (balanced_plain (by decide) (by decide)))
    rw [show ch! "{timestamp:" ++ (b ++ ch! "s}") = '{' :: (ch! "timestamp" ++ ':' :: (b ++ ['s'] ++ ['}'])) from by simp,
      this]
    simp only [holeToken, matchSpec]
    rw [if_neg (by decide), if_neg (by decide), if_neg (by decide), if_neg (by decide), if_pos trivial, typeOf_last b 's']
    have e : extract (b ++ ['s'] ++ ['}']) true
        = .timestampUser (ch! "%Y-%m-%d %H:%M:%S.%f") (ch! "{:" ++ (b ++ ch! "s}")) true := by
      cases b with
      | nil => rfl
      | cons c b =>
        have hc : c ≠ '{' := fun e => h0 (by rw [e]; rfl)
        simp only [List.cons_append, extract]
        split
        · rename_i e; simp only [List.cons.injEq] at e; exact absurd e.1 hc
        · rename_i e
          simp only [mkTimestamp, if_true]
          simp [defaultTime]
    simp only [Except.map, if_neg (show ('s' : Char) ≠ 'd' from by decide), if_neg (show ('s' : Char) ≠ 'l' from by decide), e]

theorem matchSpec_other {name : Str} (h : name ∉ builtin) (body : Str) : matchSpec name body = none := by
  simp only [builtin, List.mem_cons, List.not_mem_nil, or_false, not_or] at h
  simp only [matchSpec, h, if_false]

/-- **C20.** An attribute with a specification that does not begin with a brace is required. -/
theorem C20_required (cd : Str → Option Nat) (name b : Str) (h : ∀ c ∈ name, NameChar c) (hn : name ∉ builtin)
    (hb : Balanced b) (h0 : b.head? ≠ some '{') :
    tokenize cd ('{' :: (name ++ ':' :: (b ++ ['}']))) = .ok [.required name (ch! "{:" ++ (b ++ ['}']))] := by
  rw [token_spec cd name b h hb]
  simp only [holeToken, matchSpec_other hn]
  have e : parseOptional cd name (b ++ ['}']) = none := by
    have : braced (ch! ":default}") (b ++ ['}']) = none := by
      cases b with
      | nil => rfl
      | cons c b =>
        have hc : c ≠ '{' := fun e => h0 (by rw [e]; rfl)
        unfold braced
        split
        · rename_i e; simp only [List.cons_append, List.cons.injEq] at e; exact absurd e.1 hc
        · rfl
    simp only [parseOptional, optionalGrammar, this]
  rw [e]
  rfl

/-- **C20.** An attribute with a default, `{name:{default:default}spec}`, is optional. -/
theorem C20_optional (cd : Str → Option Nat) (name d : Str) (t : SpecText) (h : ∀ c ∈ name, NameChar c)
    (hn : name ∉ builtin) (ht : DefaultSpec t) (hd : ¬ ch! ":default}" <:+: d) (hb : Balanced d)
    (hb' : Balanced t.print) :
    (∀ n : Nat, n < 2 ^ 63 → d = Nat.toDigits 10 n →
      tokenize cd ('{' :: (name ++ ch! ":{" ++ d ++ ch! ":default}" ++ t.print ++ ch! "}"))
        = .ok [.optional name (ch! "{:" ++ t.print ++ ch! "}") (.int n)])
    ∧ (∀ n : Nat, n ≤ 2 ^ 63 → d = '-' :: Nat.toDigits 10 n →
      tokenize cd ('{' :: (name ++ ch! ":{" ++ d ++ ch! ":default}" ++ t.print ++ ch! "}"))
        = .ok [.optional name (ch! "{:" ++ t.print ++ ch! "}") (.int (-n))])
    ∧ ((∃ n : Nat, 2 ^ 63 ≤ n ∧ d = Nat.toDigits 10 n ∨ 2 ^ 63 < n ∧ d = '-' :: Nat.toDigits 10 n)
        ∨ (∃ c ∈ d, isDigit c = false ∧ c ≠ '-' ∧ c ≠ '+') →
      tokenize cd ('{' :: (name ++ ch! ":{" ++ d ++ ch! ":default}" ++ t.print ++ ch! "}"))
        = .ok [.optional name (ch! "{:" ++ t.print ++ ch! "}") (match cd d with
          | some bits => .double bits
          | none => .string d)]) := by
  have hbal : Balanced (ch! "{" ++ (d ++ (ch! ":default}" ++ t.print))) := by
    have h1 : Balanced (d ++ ch! ":default") := balanced_append hb (balanced_plain (by decide) (by decide))
    have := balanced_append (balanced_braces h1) hb'
    simpa using this
  have hpeek : peek (t.print ++ ['}']) ≠ '}' := by
    have := print_no_close ht.valid
    obtain ⟨c, cs, hcs⟩ := List.exists_cons_of_ne_nil ht.valid.nonempty
    rw [hcs] at this ⊢
    intro e
    exact this (by rw [show c = '}' from e]; simp)
  have hu := untilMark_spec (m := ch! "default}") (by decide) hd hpeek
  have e : tokenize cd ('{' :: (name ++ ch! ":{" ++ d ++ ch! ":default}" ++ t.print ++ ch! "}"))
      = .ok [.optional name (ch! "{:" ++ t.print ++ ch! "}") (match castInt d with
        | some z => .int z
        | none =>
          match cd d with
          | some b => .double b
          | none => .string d)] := by
    have e1 := token_spec cd name _ h hbal
    rw [show '{' :: (name ++ ch! ":{" ++ d ++ ch! ":default}" ++ t.print ++ ch! "}")
      = '{' :: (name ++ ':' :: ((ch! "{" ++ (d ++ (ch! ":default}" ++ t.print))) ++ ['}'])) from by simp, e1]
    have e2 : braced (ch! ":default}") ((ch! "{" ++ (d ++ (ch! ":default}" ++ t.print))) ++ ['}'])
        = some (d, t.print ++ ['}']) := by
      rw [show (ch! "{" ++ (d ++ (ch! ":default}" ++ t.print))) ++ ['}']
        = '{' :: (d ++ ':' :: (ch! "default}" ++ (t.print ++ ['}']))) from by simp]
      exact hu
    simp only [holeToken, matchSpec_other hn, parseOptional, optionalGrammar, e2, optionalSpec_print ht, if_true]
    rfl
  rw [e]
  refine ⟨?_, ?_, ?_⟩
  · rintro n hn' rfl
    rw [castInt_nat n hn']
  · rintro n hn' rfl
    rw [castInt_neg n hn']
  · rintro (⟨n, ⟨hn', rfl⟩ | ⟨hn', rfl⟩⟩ | ⟨c, hc, c1, c2, c3⟩)
    · rw [castInt_big n hn']
    · rw [castInt_small n hn']
    · rw [castInt_text hc c1 c2 c3]

/-- `{status:{-:default}>5s}`, `{code:{-1:default}d}`. -/
example : DefaultSpec ⟨some (none, .right), none, false, false, some 5, none, some 's'⟩ ∧ ¬ ch! ":default}" <:+: ch! "-"
    ∧ Balanced (ch! "-") ∧ ch! "-1" = '-' :: Nat.toDigits 10 1 := by
  refine ⟨⟨⟨?_, ?_, ?_, ?_, ?_, ?_, ?_⟩, rfl, by simp, by simp⟩, ?_, balanced_plain (by decide) (by decide), by decide⟩
  · intro f al h; simp only [Option.some.injEq, Prod.mk.injEq] at h; rw [← h.2]; decide
  · intro f al h; simp at h
  · intro c h; simp at h
  · intro w h; simp only [Option.some.injEq] at h; omega
  · intro p h; simp at h
  · intro c h; simp only [Option.some.injEq] at h; rw [← h]; decide
  · simp [SpecText.print]
  · intro h; have := h.length_le; simp at this

/-! ## The leftover placeholder -/

/-- An optional pattern extension and an optional separator extension, in the order that works. -/
def printExt (pattern : Option (List ItemPiece)) (separator : Option Str) : Str :=
  (match pattern with
    | none => []
    | some ps => ['{'] ++ printItems ps ++ ch! ":p}")
  ++ (match separator with
    | none => []
    | some s => ['{'] ++ s ++ ch! ":s}")

theorem short_peek {t : ShortSpec} (hv : t.Valid ['s']) (r : Str) :
    peek (t.print ++ r) ≠ '}' ∧ peek (t.print ++ r) ≠ '{' ∧ ':' ∉ t.print := by
  have hf := short_facts hv s_facts
  obtain ⟨c, cs, hcs⟩ := List.exists_cons_of_ne_nil (short_ne_nil t)
  refine ⟨?_, ?_, fun h => (hf _ h).1 rfl⟩
  · rw [hcs] at hf ⊢; exact (hf c (by simp)).2.2.2
  · rw [hcs] at hf ⊢; exact (hf c (by simp)).2.2.1

theorem braced_none {mark s : Str} (h : peek s ≠ '{') : braced mark s = none := by
  unfold braced
  split
  · exact absurd rfl h
  · rfl

theorem permutation_print (pattern : Option (List ItemPiece)) (separator : Option Str) (t : ShortSpec)
    (hp : ∀ ps, pattern = some ps → NormalItems ps) (hs : ∀ s, separator = some s → ¬ ch! ":s}" <:+: s)
    (hs' : pattern = none → ∀ s, separator = some s → ¬ ch! ":p}" <:+: s) (hv : t.Valid ['s']) :
    permutation (printExt pattern separator ++ (t.print ++ ['}']))
      = (pattern.map printItems, separator, t.print ++ ['}']) := by
  obtain ⟨q1, q2, q3⟩ := short_peek hv ['}']
  have hnone : ∀ m, braced m (t.print ++ ['}']) = none := fun m => braced_none q2
  have hsep : ∀ s, ¬ ch! ":s}" <:+: s →
      braced (ch! ":s}") (['{'] ++ s ++ ch! ":s}" ++ (t.print ++ ['}'])) = some (s, t.print ++ ['}']) := by
    intro s h
    rw [show ['{'] ++ s ++ ch! ":s}" ++ (t.print ++ ['}']) = '{' :: (s ++ ':' :: (ch! "s}" ++ (t.print ++ ['}']))) from
      by simp]
    exact untilMark_spec (m := ch! "s}") (by decide) h q1
  have hpat : ∀ ps r, NormalItems ps → peek r ≠ '}' →
      braced (ch! ":p}") (['{'] ++ printItems ps ++ ch! ":p}" ++ r) = some (printItems ps, r) := by
    intro ps r h hr
    rw [show ['{'] ++ printItems ps ++ ch! ":p}" ++ r = '{' :: (printItems ps ++ (':' :: (ch! "p}" ++ r))) from by simp]
    show untilMark (ch! ":p}") (printItems ps ++ (':' :: (ch! "p}" ++ r))) = _
    rw [untilMark_items ps h _ (.inr rfl), untilMark_at hr]
    simp
  have hnopat : ∀ s, ¬ ch! ":p}" <:+: s →
      braced (ch! ":p}") (['{'] ++ s ++ ch! ":s}" ++ (t.print ++ ['}'])) = none := by
    intro s h
    rw [show ['{'] ++ s ++ ch! ":s}" ++ (t.print ++ ['}']) = '{' :: (s ++ ':' :: (ch! "s}" ++ (t.print ++ ['}']))) from
      by simp]
    show untilMark (ch! ":p}") (s ++ ':' :: (ch! "s}" ++ (t.print ++ ['}']))) = none
    rw [untilMark_skip (by decide) s _ h, untilMark_step, untilMark_none]
    · rfl
    · simp [q3]
    · rintro ⟨h1, _⟩
      simp [List.cons_prefix_cons] at h1
  cases pattern with
  | none =>
    cases separator with
    | none =>
      have e : printExt none none ++ (t.print ++ ['}']) = t.print ++ ['}'] := rfl
      simp only [e, permutation, permutation.once, hnone]
      rfl
    | some s =>
      have e : printExt none (some s) ++ (t.print ++ ['}']) = ['{'] ++ s ++ ch! ":s}" ++ (t.print ++ ['}']) := rfl
      simp only [e, permutation, permutation.once, hnopat s (hs' rfl s rfl), hsep s (hs s rfl), hnone]
      rfl
  | some ps =>
    cases separator with
    | none =>
      have e : printExt (some ps) none ++ (t.print ++ ['}']) = ['{'] ++ printItems ps ++ ch! ":p}" ++ (t.print ++ ['}']) := by
        simp [printExt]
      simp only [e, permutation, permutation.once, hpat ps _ (hp ps rfl) q1, hnone]
      rfl
    | some s =>
      have e : printExt (some ps) (some s) ++ (t.print ++ ['}'])
          = ['{'] ++ printItems ps ++ ch! ":p}" ++ (['{'] ++ s ++ ch! ":s}" ++ (t.print ++ ['}'])) := by
        simp [printExt]
      simp only [e, permutation, permutation.once, hpat ps (['{'] ++ s ++ ch! ":s}" ++ (t.print ++ ['}'])) (hp ps rfl)
        (by simp [peek]), hsep s (hs s rfl)]
      rfl

/-- **C20, C51.** The leftover placeholder with an item pattern, a separator or both, the pattern first. (C51 asks for
either order; the other one is `C51_fails_separator_first`.) -/
theorem C51_pattern_first_partial (cd : Str → Option Nat) (pattern : Option (List ItemPiece)) (separator : Option Str)
    (t : ShortSpec) (hp : ∀ ps, pattern = some ps → NormalItems ps)
    (hs : ∀ s, separator = some s → ¬ ch! ":s}" <:+: s)
    (hs' : pattern = none → ∀ s, separator = some s → ¬ ch! ":p}" <:+: s) (hv : t.Valid ['s'])
    (hb : Balanced (printExt pattern separator)) :
    tokenize cd (ch! "{...:" ++ printExt pattern separator ++ t.print ++ ch! "}")
      = .ok [.leftover {
          spec := ch! "{:" ++ t.print ++ ch! "}"
          separator := separator.getD (ch! ", ")
          items := (pattern.getD [.name none, .text (ch! ": "), .value none]).map ItemPiece.item }] := by
  have hf := short_facts hv s_facts
  have hbt : Balanced t.print := balanced_plain (fun h => (hf _ h).2.2.1 rfl) (fun h => (hf _ h).2.2.2 rfl)
  have := token_spec cd (ch! "...") (printExt pattern separator ++ t.print) (by simp [NameChar]) (balanced_append hb hbt)
  rw [show ch! "{...:" ++ printExt pattern separator ++ t.print ++ ch! "}"
    = '{' :: (ch! "..." ++ ':' :: (printExt pattern separator ++ t.print ++ ['}'])) from by simp, this]
  have e1 := permutation_print pattern separator t hp hs hs' hv
  rw [← List.append_assoc] at e1
  have e2 := typedSpec_print (types := ['s']) (by decide) hv (p := (· == 's')) (by decide) ['}']
  have e3 : parseLeftover (printExt pattern separator ++ t.print ++ ['}']) = .ok {
      spec := ch! "{:" ++ t.print ++ ch! "}"
      separator := separator.getD (ch! ", ")
      items := (pattern.getD [.name none, .text (ch! ": "), .value none]).map ItemPiece.item } := by
    simp only [parseLeftover, e1, e2, ne_eq, not_true, if_false]
    cases pattern with
    | none => cases separator <;> rfl
    | some ps =>
      have := items_print ps (hp ps rfl) ((printItems ps).length + 1)
        (Nat.le_succ_of_le (length_le_printItems ps (hp ps rfl)))
      simp only [Option.map_some, this]
      cases separator <;> rfl
  simp only [holeToken, matchSpec]
  rw [if_neg (by decide), if_neg (by decide), if_neg (by decide), if_neg (by decide), if_neg (by decide), if_pos trivial,
    e3]
  rfl

/-- `{...:{{name}={value:>5d}:p}{ | :s}>20s}`. -/
example : NormalItems [.name none, .text (ch! "="), .value (some (ch! ">5d"))]
    ∧ ¬ ch! ":s}" <:+: ch! " | " ∧ (⟨some '>', some 20, 's'⟩ : ShortSpec).Valid ['s']
    ∧ printExt (some [.name none, .text (ch! "="), .value (some (ch! ">5d"))]) (some (ch! " | "))
      = ch! "{{name}={value:>5d}:p}{ | :s}" := by
  refine ⟨⟨by simp [ItemPiece.Valid], by simp [ItemPiece.isText], by simp [ItemPiece.Valid], by simp [ItemPiece.isText],
    ?_⟩, ?_, ⟨by simp, by simp⟩, rfl⟩
  · intro s hs
    simp only [Option.some.injEq] at hs
    exact ⟨⟨some '>', some 5, 'd'⟩, ⟨by simp, by simp⟩, by rw [← hs]; decide⟩
  · rintro ⟨a, b, h⟩
    have : ':' ∈ ch! " | " := by rw [← h]; simp
    exact absurd this (by decide)

/-- **C51.** In the documented order, the separator before the pattern, the placeholder is rejected: the rule of the
pattern is tried first and takes the separator for its beginning. -/
theorem C51_fails_separator_first (cd : Str → Option Nat) (s : Str) (ps : List ItemPiece) (t : ShortSpec)
    (h1 : '{' ∉ s) (h2 : '}' ∉ s) (hn : NormalItems ps) (hv : t.Valid ['s']) (hb : Balanced (printItems ps)) :
    tokenize cd (ch! "{...:{" ++ s ++ ch! ":s}{" ++ printItems ps ++ ch! ":p}" ++ t.print ++ ch! "}") = .error .niy := by
  obtain ⟨q1, q2, q3⟩ := short_peek hv ['}']
  have hf := short_facts hv s_facts
  have hbt : Balanced t.print := balanced_plain (fun h => (hf _ h).2.2.1 rfl) (fun h => (hf _ h).2.2.2 rfl)
  have hs : ¬ ch! ":p}" <:+: s := by
    rintro ⟨a, b, h⟩
    exact h2 (by rw [← h]; simp)
  have hbal : Balanced ('{' :: ((s ++ ch! ":s") ++ ['}']) ++ ('{' :: ((printItems ps ++ ch! ":p") ++ ['}']) ++ t.print)) :=
    balanced_append (balanced_braces (balanced_append (balanced_plain h1 h2) (balanced_plain (by decide) (by decide))))
      (balanced_append (balanced_braces (balanced_append hb (balanced_plain (by decide) (by decide)))) hbt)
  have := token_spec cd (ch! "...") _ (by simp [NameChar]) hbal
  rw [show ch! "{...:{" ++ s ++ ch! ":s}{" ++ printItems ps ++ ch! ":p}" ++ t.print ++ ch! "}"
    = '{' :: (ch! "..." ++ ':' :: ('{' :: ((s ++ ch! ":s") ++ ['}']) ++ ('{' :: ((printItems ps ++ ch! ":p") ++ ['}'])
      ++ t.print) ++ ['}'])) from by simp, this]
  have e0 : '{' :: ((s ++ ch! ":s") ++ ['}']) ++ ('{' :: ((printItems ps ++ ch! ":p") ++ ['}']) ++ t.print) ++ ['}']
      = '{' :: (s ++ ':' :: (ch! "s}{" ++ (printItems ps ++ (':' :: (ch! "p}" ++ (t.print ++ ['}'])))))) := by simp
  have e1 : braced (ch! ":p}") ('{' :: (s ++ ':' :: (ch! "s}{" ++ (printItems ps ++ (':' :: (ch! "p}" ++ (t.print ++ ['}'])))))))
      = some (s ++ ch! ":s}{" ++ printItems ps, t.print ++ ['}']) := by
    show untilMark (ch! ":p}") (s ++ ':' :: (ch! "s}{" ++ (printItems ps ++ (':' :: (ch! "p}" ++ (t.print ++ ['}'])))))) = _
    rw [untilMark_skip (by decide) s _ hs, untilMark_step, untilMark_no_colon _ _ (by decide),
      untilMark_items ps hn _ (.inr rfl), untilMark_at q1]
    · simp
    · rintro ⟨h, _⟩
      simp [List.cons_prefix_cons] at h
  have hnone : ∀ m, braced m (t.print ++ ['}']) = none := fun m => braced_none q2
  have e2 := typedSpec_print (types := ['s']) (by decide) hv (p := (· == 's')) (by decide) ['}']
  have hesc : escapeText (s ++ ch! ":s") = s ++ ch! ":s" := by
    have : ∀ u : Str, '{' ∉ u → '}' ∉ u → escapeText u = u := by
      intro u
      induction u with
      | nil => intro _ _; rfl
      | cons c u ih =>
        intro a b
        simp only [List.mem_cons, not_or] at a b
        rw [escapeText_cons, if_neg (not_or.2 ⟨Ne.symm a.1, Ne.symm b.1⟩), ih a.2 b.2]
        rfl
    exact this _ (by simp [h1]) (by simp [h2])
  have e3 : items ((s ++ ch! ":s}{" ++ printItems ps).length + 1) (s ++ ch! ":s}{" ++ printItems ps) = none := by
    have hsplit : s ++ ch! ":s}{" ++ printItems ps = escapeText (s ++ ch! ":s") ++ ('}' :: '{' :: printItems ps) := by
      rw [hesc]; simp
    have hlen : (s ++ ch! ":s}{" ++ printItems ps).length = s.length + 2 + (printItems ps).length + 1 + 1 := by
      simp only [List.length_append, List.length_cons, List.length_nil]
      omega
    rw [hlen, hsplit, items_cons _ (escape_head (by simp) _).1,
      itemAttribute_other (not_prefix_escape (c := 'n') (by decide) (by simp) _),
      itemAttribute_other (not_prefix_escape (c := 'v') (by decide) (by simp) _), itemLiteral_escape]
    have hcl : itemLiteral ('}' :: '{' :: printItems ps) = ([], '}' :: '{' :: printItems ps) := by
      simp [itemLiteral]
    have hrest : items (s.length + 2 + (printItems ps).length + 1 + 1) ('}' :: '{' :: printItems ps) = none := by
      rw [items_cons _ (by simp), itemAttribute_other (by simp [List.cons_prefix_cons]),
        itemAttribute_other (by simp [List.cons_prefix_cons]), hcl]
    rw [hcl, List.append_nil]
    cases s with
    | nil => simp only [List.nil_append, hrest]; rfl
    | cons c s => simp only [List.cons_append, hrest]; rfl
  simp only [holeToken, matchSpec]
  rw [if_neg (by decide), if_neg (by decide), if_neg (by decide), if_neg (by decide), if_neg (by decide), if_pos trivial,
    e0]
  simp only [parseLeftover, permutation, permutation.once, e1, hnone, e2, ne_eq, not_true, if_false, e3]
  rfl

/-! ## Malformed patterns -/

/-- Every single placeholder among the pieces is accepted on its own. -/
def AllOk (cd : Str → Option Nat) (ps : List Piece) : Prop := ∀ p ∈ ps, ∃ ts, tokenize cd p.print = .ok ts

theorem inOrder_ok {cd : Str → Option Nat} {ps : List Piece} (hn : Normal ps) (h : AllOk cd ps) :
    ∃ ts, inOrder (ps.map (pieceTokens cd)) = .ok ts := by
  cases e : inOrder (ps.map (pieceTokens cd)) with
  | ok ts => exact ⟨ts, rfl⟩
  | error err =>
    obtain ⟨p, hp, he⟩ := List.mem_map.1 (inOrder_error e)
    obtain ⟨ts, ht⟩ := h p hp
    rw [tokenize_single cd (hn.all p hp), he] at ht
    cases ht

/-- **C21.** Every pattern is a sequence of texts and placeholders, or such a sequence up to a point where it is
malformed. -/
theorem C21_every_pattern (pattern : Str) :
    ∃ ps tail, Normal ps ∧ pattern = printAll ps ++ tail ∧ (tail = [] ∨ Bad tail) := shape pattern

/-- **C21.** A lone closing brace is rejected, at its position. -/
theorem C21_lone_close (cd : Str → Option Nat) (ps : List Piece) (hn : Normal ps) (ho : AllOk cd ps) (r : Str)
    (hr : r.head? ≠ some '}') :
    tokenize cd (printAll ps ++ '}' :: r)
      = .error (.parse (printAll ps).length (printAll ps ++ '}' :: r) .illformed) := by
  obtain ⟨ts, h⟩ := inOrder_ok hn ho
  rw [tokenize_close cd hn hr, h]
  rfl

/-- **C21.** A character that no name contains is rejected, at its position. -/
theorem C21_bad_name (cd : Str → Option Nat) (ps : List Piece) (hn : Normal ps) (ho : AllOk cd ps) (name r : Str)
    (c : Char) (hname : ∀ c ∈ name, NameChar c) (hc : ¬ NameChar c) (c1 : c ≠ ':') (c2 : c ≠ '}')
    (c3 : name = [] → c ≠ '{') :
    tokenize cd (printAll ps ++ '{' :: (name ++ c :: r))
      = .error (.parse ((printAll ps).length + 1 + name.length) (printAll ps ++ '{' :: (name ++ c :: r))
        .invalidPlaceholder) := by
  obtain ⟨ts, h⟩ := inOrder_ok hn ho
  rw [tokenize_badName cd hn hname hc c1 c2 c3, h]
  rfl

/-- **C21.** A placeholder that is not closed is rejected, at the end of the pattern, if it has at least one character.
(Missing: the brace alone, `C21_fails_lone_open`, and a specification that is not closed,
`C21_fails_unclosed_specification`.) -/
theorem C21_unclosed_partial (cd : Str → Option Nat) (ps : List Piece) (hn : Normal ps) (ho : AllOk cd ps) (name : Str)
    (hname : ∀ c ∈ name, NameChar c) (hne : name ≠ []) :
    tokenize cd (printAll ps ++ '{' :: name)
      = .error (.parse (printAll ps ++ '{' :: name).length (printAll ps ++ '{' :: name) .illformed) := by
  obtain ⟨ts, h⟩ := inOrder_ok hn ho
  rw [tokenize_unclosed cd hn hname hne, h]
  rfl

/-- `{message}: {severity`, `{message}: {sev erity}`, `{message} }`. -/
example (cd : Str → Option Nat) : AllOk cd [.hole (ch! "message") none, .text (ch! ": ")]
    ∧ Normal [.hole (ch! "message") none, .text (ch! ": ")] ∧ ¬ NameChar ' '
    ∧ (∀ c ∈ ch! "sev", NameChar c) := by
  refine ⟨?_, ⟨⟨by simp [NameChar], by simp⟩, by simp [Piece.isText], by simp [Normal, Piece.Valid]⟩, by simp [NameChar],
    by simp [NameChar]⟩
  intro p hp
  simp only [List.mem_cons, List.not_mem_nil, or_false] at hp
  rcases hp with rfl | rfl
  · exact ⟨_, rfl⟩
  · exact ⟨_, rfl⟩

/-- **C21.** A pattern that ends in a lone opening brace is accepted: the brace is dropped. -/
theorem C21_fails_lone_open (cd : Str → Option Nat) (ps : List Piece) (hn : Normal ps) :
    tokenize cd (printAll ps ++ ['{']) = tokenize cd (printAll ps) := by
  rw [tokenize_lone_open cd hn, tokenize_done cd hn]

/-- **C21.** A placeholder whose specification is not closed is accepted, as an attribute. -/
theorem C21_fails_unclosed_specification (cd : Str → Option Nat) (ps : List Piece) (hn : Normal ps) (name spec : Str)
    (hname : ∀ c ∈ name, NameChar c) (h : name ∉ builtin) (hs : ∀ p, p <+: spec → p.count '}' ≤ p.count '{')
    (h0 : spec.head? ≠ some '{') (ts : List Token) (ht : tokenize cd (printAll ps) = .ok ts) :
    tokenize cd (printAll ps ++ '{' :: (name ++ ':' :: spec)) = .ok (ts ++ [.required name (ch! "{:" ++ spec)]) := by
  rw [tokenize_done cd hn] at ht
  rw [tokenize_unclosedSpec cd hn hname hs, ht]
  have e : parseOptional cd name spec = none := by
    have : braced (ch! ":default}") spec = none := by
      unfold braced
      split
      · exact absurd rfl h0
      · rfl
    simp only [parseOptional, optionalGrammar, this]
  simp only [holeToken, matchSpec_other h, e]
  rfl

/-- `{message} {code:>5d`. -/
example : (∀ p, p <+: ch! ">5d" → p.count '}' ≤ p.count '{') ∧ ch! "code" ∉ builtin ∧ (ch! ">5d").head? ≠ some '{' := by
  refine ⟨?_, by decide, by decide⟩
  intro p hp
  exact (balanced_plain (s := ch! ">5d") (by decide) (by decide)).1 p hp

/-- **C21.** A built-in placeholder other than `message` and `...` that ends at its colon violates an assertion. -/
theorem C21_fails_assertion (cd : Str → Option Nat) (ps : List Piece) (hn : Normal ps) (ho : AllOk cd ps) (name : Str)
    (h : name ∈ [ch! "process", ch! "thread", ch! "severity", ch! "timestamp"]) :
    tokenize cd (printAll ps ++ '{' :: (name ++ [':'])) = .error (.ub .assertion) := by
  obtain ⟨ts, ht⟩ := inOrder_ok hn ho
  have hname : ∀ c ∈ name, NameChar c := by
    simp only [List.mem_cons, List.not_mem_nil, or_false] at h
    rcases h with rfl | rfl | rfl | rfl <;> simp [NameChar]
  rw [tokenize_unclosedSpec cd hn (spec := []) hname (by intro p hp; rw [List.prefix_nil.1 hp]; simp), ht]
  simp only [List.mem_cons, List.not_mem_nil, or_false] at h
  rcases h with rfl | rfl | rfl | rfl <;> rfl

/-- **C21.** Nothing else is accepted: an accepted pattern is well formed, or ends in one of these two ways. -/
theorem C21_accepted (cd : Str → Option Nat) (pattern : Str) (ts : List Token) (h : tokenize cd pattern = .ok ts) :
    ∃ ps tail, Normal ps ∧ pattern = printAll ps ++ tail ∧ (tail = [] ∨ tail = ['{'] ∨
      ∃ name spec, tail = '{' :: (name ++ ':' :: spec) ∧ ∀ p, p <+: spec → p.count '}' ≤ p.count '{') := by
  obtain ⟨ps, tail, hn, rfl, ht⟩ := shape pattern
  refine ⟨ps, tail, hn, rfl, ?_⟩
  have noerr : ∀ e, andThen (inOrder (ps.map (pieceTokens cd))) (.error e) ≠ .ok ts := by
    intro e
    cases inOrder (ps.map (pieceTokens cd)) <;> simp [andThen]
  rcases ht with rfl | hb
  · exact .inl rfl
  · cases hb with
    | loneClose r hr =>
      rw [tokenize_close cd hn hr] at h
      exact absurd h (noerr _)
    | unclosed name hname =>
      by_cases hne : name = []
      · subst hne; exact .inr (.inl rfl)
      · rw [tokenize_unclosed cd hn hname hne] at h
        exact absurd h (noerr _)
    | badName name c r hname hc c1 c2 c3 =>
      rw [tokenize_badName cd hn hname hc c1 c2 c3] at h
      exact absurd h (noerr _)
    | unclosedSpec name spec hname hs => exact .inr (.inr ⟨name, spec, rfl, hs⟩)

/-- **C21.** Whatever the pattern is, an error position lies within it (or just behind its last character), and the
reported text is the pattern, or for a malformed leftover specification that specification. The model never runs out of
rounds. -/
theorem C21_position (cd : Str → Option Nat) (pattern : Str) :
    (∀ position text reason, tokenize cd pattern = .error (.parse position text reason) →
      position ≤ pattern.length ∧ position ≤ text.length ∧ (text = pattern ∨ reason = .malformed))
    ∧ tokenize cd pattern ≠ .error .fuel := by
  obtain ⟨ps, tail, hn, rfl, ht⟩ := shape pattern
  -- errors of the pieces
  have pieces : ∀ e, inOrder (ps.map (pieceTokens cd)) = .error e → e ≠ .fuel ∧
      ∀ position text reason, e = .parse position text reason →
        position ≤ (printAll ps ++ tail).length ∧ position ≤ text.length ∧
          (text = printAll ps ++ tail ∨ reason = .malformed) := by
    intro e he
    obtain ⟨name, spec, hm, h2⟩ := pieces_error he
    have hl := print_le_printAll hm
    rcases h2 with rfl | rfl
    · exact ⟨by simp, by intro _ _ _ h; cases h⟩
    · refine ⟨by simp, ?_⟩
      intro position text reason h
      cases h
      refine ⟨?_, ?_, .inr rfl⟩
      · simp only [Piece.print, List.length_append, List.length_cons, List.length_nil] at hl ⊢
        omega
      · simp only [List.length_append, List.length_cons, List.length_nil]
        omega
  have combine : ∀ y : Except Err (List Token), (∀ e, y = .error e → e ≠ .fuel ∧
      ∀ position text reason, e = .parse position text reason →
        position ≤ (printAll ps ++ tail).length ∧ position ≤ text.length ∧
          (text = printAll ps ++ tail ∨ reason = .malformed)) →
      tokenize cd (printAll ps ++ tail) = andThen (inOrder (ps.map (pieceTokens cd))) y →
      ((∀ position text reason, tokenize cd (printAll ps ++ tail) = .error (.parse position text reason) →
        position ≤ (printAll ps ++ tail).length ∧ position ≤ text.length ∧
          (text = printAll ps ++ tail ∨ reason = .malformed))
      ∧ tokenize cd (printAll ps ++ tail) ≠ .error .fuel) := by
    intro y hy e
    rw [e]
    refine ⟨?_, ?_⟩
    · intro position text reason h
      rcases andThen_error h with h | h
      · exact (pieces _ h).2 _ _ _ rfl
      · exact (hy _ h).2 _ _ _ rfl
    · intro h
      rcases andThen_error h with h | h
      · exact (pieces _ h).1 rfl
      · exact (hy _ h).1 rfl
  have okNil : tokenize cd (printAll ps ++ tail) = inOrder (ps.map (pieceTokens cd)) →
      ((∀ position text reason, tokenize cd (printAll ps ++ tail) = .error (.parse position text reason) →
        position ≤ (printAll ps ++ tail).length ∧ position ≤ text.length ∧
          (text = printAll ps ++ tail ∨ reason = .malformed))
      ∧ tokenize cd (printAll ps ++ tail) ≠ .error .fuel) := by
    intro e
    refine combine (.ok []) (by intro e h; cases h) (e.trans ?_)
    cases inOrder (ps.map (pieceTokens cd)) with
    | error e => rfl
    | ok a => simp [andThen]
  rcases ht with rfl | hb
  · exact okNil (by rw [List.append_nil]; exact tokenize_done cd hn)
  · cases hb with
    | loneClose r hr =>
      refine combine _ ?_ (tokenize_close cd hn hr)
      intro e h
      cases h
      refine ⟨by simp, ?_⟩
      intro position text reason h
      cases h
      simp
    | unclosed name hname =>
      by_cases hne : name = []
      · subst hne
        exact okNil (tokenize_lone_open cd hn)
      · refine combine _ ?_ (tokenize_unclosed cd hn hname hne)
        intro e h
        cases h
        refine ⟨by simp, ?_⟩
        intro position text reason h
        cases h
        simp
    | badName name c r hname hc c1 c2 c3 =>
      refine combine _ ?_ (tokenize_badName cd hn hname hc c1 c2 c3)
      intro e h
      cases h
      refine ⟨by simp, ?_⟩
      intro position text reason h
      cases h
      simp only [List.length_append, List.length_cons]
      refine ⟨by omega, by omega, .inl trivial⟩
    | unclosedSpec name spec hname hs =>
      refine combine _ ?_ (tokenize_unclosedSpec cd hn hname hs)
      intro e h
      obtain ⟨body, hb, h2⟩ := holeToken_error (map_error h)
      simp only [Option.some.injEq] at hb
      subst hb
      rcases h2 with ⟨_, rfl⟩ | rfl | rfl
      · exact ⟨by simp, by intro _ _ _ h; cases h⟩
      · exact ⟨by simp, by intro _ _ _ h; cases h⟩
      · refine ⟨by simp, ?_⟩
        intro position text reason h
        cases h
        simp only [List.length_append, List.length_cons, List.length_nil]
        refine ⟨by omega, by omega, .inr trivial⟩

/-- **C21.** After an error of its own the parser yields nothing more: every further call reports that it is broken. -/
theorem C21_broken (cd : Str → Option Nat) (p p' : Parser) (pos : Nat) (text : Str) (reason : Reason)
    (h : p.next cd = (.error (.parse pos text reason), p')) (hr : reason ≠ .malformed) :
    p'.next cd = (.error (.parse pos p.pattern .broken), p') := by
  have key : ∀ (q : Parser) (rest : Str) (r : Reason), q.pattern = p.pattern →
      q.throw rest r = (.error (.parse pos text reason), p') → p'.next cd = (.error (.parse pos p.pattern .broken), p') := by
    intro q rest r hq e
    simp only [Parser.throw, Prod.mk.injEq, Except.error.injEq, Err.parse.injEq] at e
    obtain ⟨⟨e1, _, _⟩, e2⟩ := e
    subst e2
    rw [hq] at e1
    simp only [Parser.next, if_true, Parser.throw, hq, e1]
  have place : ∀ q : Parser, q.pattern = p.pattern →
      q.parsePlaceholder cd = (.error (.parse pos text reason), p') →
      p'.next cd = (.error (.parse pos p.pattern .broken), p') := by
    intro q hq e
    simp only [Parser.parsePlaceholder] at e
    split at e
    · exact key q _ _ hq e
    · split at e
      · split at e
        · simp at e
        · rename_i h2
          simp only [Prod.mk.injEq, Except.error.injEq] at e
          rw [e.1] at h2
          rcases matchSpec_error h2 with ⟨_, h3⟩ | h3 | h3
          · cases h3
          · cases h3
          · simp only [Err.parse.injEq] at h3
            exact absurd h3.2.2 hr
        · split at e
          · simp at e
          · simp at e
      · split at e
        · split at e
          · simp at e
          · simp at e
        · exact key q _ _ hq e
  have lit : ∀ q : Parser, q.pattern = p.pattern →
      q.parseLiteral = (.error (.parse pos text reason), p') →
      p'.next cd = (.error (.parse pos p.pattern .broken), p') := by
    intro q hq e
    simp only [Parser.parseLiteral] at e
    split at e
    · simp at e
    · simp at e
    · exact key q _ _ hq e
  have nextIn : ∀ q : Parser, q.pattern = p.pattern →
      q.nextIn cd = (.error (.parse pos text reason), p') →
      p'.next cd = (.error (.parse pos p.pattern .broken), p') := by
    intro q hq e
    simp only [Parser.nextIn] at e
    split at e
    · simp at e
    · split at e
      · exact lit q hq e
      · exact place q hq e
      · exact key q _ _ hq e
  simp only [Parser.next] at h
  split at h
  · exact key p _ _ rfl h
  · split at h
    · simp at h
    · split at h
      · split at h
        · split at h
          · exact nextIn _ (by rfl) h
          · exact nextIn _ (by rfl) h
        · exact nextIn _ (by rfl) h
      · exact nextIn _ (by rfl) h

example : (Parser.init (ch! "a}b")).next (fun _ => none)
    = (.error (.parse 1 (ch! "a}b") .illformed), ⟨ch! "a}b", .broken, ch! "}b"⟩) := rfl

end Blackhole.Pattern
