import Verif.Pattern.Lemmas

/-! # Every pattern is a sequence of pieces, up to the first point where it is malformed -/

namespace Blackhole.Pattern

open Fmt (escapeText SpecText peek)

theorem head_ne_of_peek {r : Str} {c : Char} (h : peek r ≠ c) : r.head? ≠ some c := by
  cases r with
  | nil => simp
  | cons d r => intro e; exact h (Option.some.inj e)

theorem peek_ne_of_head {r : Str} {c : Char} (h : r.head? ≠ some c) (hc : c ≠ '\x00') : peek r ≠ c := by
  cases r with
  | nil => exact fun e => hc e.symm
  | cons d r => intro e; exact h (by rw [show d = c from e]; rfl)

theorem takeWhile_dropWhile_name (r : Str) :
    r = r.takeWhile isNameChar ++ r.dropWhile isNameChar ∧ (∀ c ∈ r.takeWhile isNameChar, NameChar c) ∧
      isNameChar (peek (r.dropWhile isNameChar)) = false := by
  refine ⟨(List.takeWhile_append_dropWhile).symm, ?_, ?_⟩
  · intro c hc
    exact (isNameChar_iff c).1 (List.all_eq_true.1 List.all_takeWhile c hc)
  · induction r with
    | nil => decide
    | cons c r ih =>
      rw [List.dropWhile_cons]
      split
      · exact ih
      · rename_i h
        simpa [peek] using h

/-- What follows an opening brace that is not doubled: a placeholder, or something malformed. -/
theorem shape_open {r : Str} (hr : peek r ≠ '{') :
    (∃ name spec r', '{' :: r = (Piece.hole name spec).print ++ r' ∧ (Piece.hole name spec).Valid) ∨ Bad ('{' :: r) := by
  obtain ⟨h1, h2, h3⟩ := takeWhile_dropWhile_name r
  generalize r.takeWhile isNameChar = name at h1 h2
  generalize r.dropWhile isNameChar = rest at h1 h3
  subst h1
  cases rest with
  | nil => rw [List.append_nil]; exact .inr (.unclosed name h2)
  | cons c rest =>
    by_cases c1 : c = ':'
    · subst c1
      rcases parseSpec_inv rest 0 with ⟨b, _, e2, e3, e4⟩ | ⟨_, e2⟩
      · generalize (parseSpec 1 rest).2 = r' at e2
        subst e2
        refine .inl ⟨name, some b, r', by simp [Piece.print], h2, ?_⟩
        intro b' hb
        simp only [Option.some.injEq] at hb
        subst hb
        exact ⟨by simpa using e3, by simpa using e4⟩
      · exact .inr (.unclosedSpec name rest h2 (by simpa using e2))
    · by_cases c2 : c = '}'
      · subst c2
        exact .inl ⟨name, none, rest, by simp [Piece.print], h2, by intro b hb; exact absurd hb (by simp)⟩
      · refine .inr (.badName name c rest h2 ?_ c1 c2 ?_)
        · rw [← isNameChar_iff]
          have : isNameChar c = false := h3
          simp [this]
        · rintro rfl
          exact hr

theorem hole_print_length (name : Str) (spec : Option Str) : 0 < (Piece.hole name spec).print.length := by
  rw [print_hole]; simp

/-- Every pattern: pieces, and at the end possibly something malformed. -/
theorem shape (pattern : Str) : ∃ ps tail, Normal ps ∧ pattern = printAll ps ++ tail ∧ (tail = [] ∨ Bad tail) := by
  induction h : pattern.length using Nat.strongRecOn generalizing pattern with
  | _ n ih =>
    -- a pattern that begins with a single opening brace
    have opened : ∀ r : Str, peek r ≠ '{' → ('{' :: r).length ≤ n →
        ∃ ps tail, Normal ps ∧ '{' :: r = printAll ps ++ tail ∧ (tail = [] ∨ Bad tail) ∧
          ∀ p qs, ps = p :: qs → p.isText = false := by
      intro r hr hl
      rcases shape_open hr with ⟨name, spec, r', e, hv⟩ | hbad
      · have hlen : r'.length < n := by
          have := congrArg List.length e
          have hp := hole_print_length name spec
          rw [List.length_append] at this
          omega
        obtain ⟨ps, tail, i1, i2, i3⟩ := ih r'.length hlen r' rfl
        refine ⟨.hole name spec :: ps, tail, ?_, by rw [e, printAll, List.append_assoc, ← i2], i3, ?_⟩
        · cases ps with
          | nil => exact hv
          | cons q qs => exact ⟨hv, by simp [Piece.isText], i1⟩
        · intro p qs hp
          simp only [List.cons.injEq] at hp
          rw [← hp.1]; rfl
      · exact ⟨[], '{' :: r, trivial, rfl, .inr hbad, by intro p qs hp; exact absurd hp (by simp)⟩
    cases pattern with
    | nil => exact ⟨[], [], trivial, rfl, .inl rfl⟩
    | cons c s =>
      by_cases ho : c = '{' ∧ peek s ≠ '{'
      · obtain ⟨rfl, ho⟩ := ho
        obtain ⟨ps, tail, h1, h2, h3, _⟩ := opened s ho (by rw [h]; exact Nat.le_refl _)
        exact ⟨ps, tail, h1, h2, h3⟩
      · have hne : (literalLoop (c :: s)).1 = [] → ∃ r, c :: s = '}' :: r ∧ peek r ≠ '}' := by
          intro he
          rcases literalLoop_inv (c :: s) with ⟨_, e⟩ | ⟨r, _, e, hr⟩ | ⟨r, _, e, hr⟩
          · rw [he] at e; simp [escapeText] at e
          · rw [he] at e
            simp only [escapeText, List.flatMap_nil, List.nil_append, List.cons.injEq] at e
            obtain ⟨rfl, rfl⟩ := e
            exact absurd ⟨rfl, hr⟩ ho
          · rw [he] at e
            simp only [escapeText, List.flatMap_nil, List.nil_append] at e
            exact ⟨r, e, hr⟩
        by_cases he : (literalLoop (c :: s)).1 = []
        · obtain ⟨r, e, hr⟩ := hne he
          exact ⟨[], c :: s, trivial, rfl, .inr (by rw [e]; exact .loneClose r (head_ne_of_peek hr))⟩
        · rcases literalLoop_inv (c :: s) with ⟨_, e⟩ | ⟨r, _, e, hr⟩ | ⟨r, _, e, hr⟩
          · exact ⟨[.text (literalLoop (c :: s)).1], [], he, by simpa [printAll, Piece.print] using e, .inl rfl⟩
          · generalize (literalLoop (c :: s)).1 = t at *
            have hl : ('{' :: r).length ≤ n := by
              rw [← h, e, List.length_append]; omega
            obtain ⟨ps, tail, i1, i2, i3, i4⟩ := opened r hr hl
            refine ⟨.text t :: ps, tail, ?_, by rw [e, printAll, List.append_assoc, ← i2]; rfl, i3⟩
            cases ps with
            | nil => exact he
            | cons q qs => exact ⟨he, by simp [i4 q qs rfl], i1⟩
          · generalize (literalLoop (c :: s)).1 = t at *
            exact ⟨[.text t], '}' :: r, he, by simpa [printAll, Piece.print] using e,
              .inr (.loneClose r (head_ne_of_peek hr))⟩

/-! ## What the parser does with malformed ends -/

theorem escapeText_length (s : Str) : s.length ≤ (escapeText s).length := by
  induction s with
  | nil => simp
  | cons c s ih =>
    rw [escapeText_cons]
    split <;> simp only [List.length_append, List.length_cons, List.length_nil] <;> omega

theorem length_le_printAll (ps : List Piece) (hn : Normal ps) : ps.length ≤ (printAll ps).length := by
  induction ps with
  | nil => simp
  | cons p ps ih =>
    have := ih hn.tail
    have hv := hn.valid
    have : 0 < p.print.length := by
      cases p with
      | hole name spec => exact hole_print_length name spec
      | text s =>
        have := escapeText_length s
        have hs : s ≠ [] := hv
        have : 0 < s.length := List.length_pos_iff.2 hs
        show 0 < (escapeText s).length
        omega
    simp only [List.length_cons, printAll, List.length_append]
    omega

theorem next_open (cd : Str → Option Nat) (pattern : Str) {r : Str} (hr : peek r ≠ '{') :
    Parser.next cd ⟨pattern, .unknown, '{' :: r⟩ = Parser.next cd ⟨pattern, .placeholder, r⟩ := by
  simp only [Parser.next, reduceCtorEq, if_false, List.cons_ne_nil, if_true, if_neg hr, Parser.nextIn]
  by_cases h : r = []
  · simp only [if_pos h]
  · simp only [if_neg h]

theorem loop_open (cd : Str → Option Nat) (pattern : Str) {r : Str} (hr : peek r ≠ '{') (fuel : Nat) :
    tokenizeLoop cd fuel ⟨pattern, .unknown, '{' :: r⟩ = tokenizeLoop cd fuel ⟨pattern, .placeholder, r⟩ := by
  cases fuel with
  | zero => rfl
  | succ fuel =>
    rw [tokenizeLoop, tokenizeLoop, next_open cd pattern hr]

theorem names_peek {name r : Str} (h : ∀ c ∈ name, NameChar c) (hr : name = [] → peek r ≠ '{') :
    peek (name ++ r) ≠ '{' := by
  cases name with
  | nil => exact hr rfl
  | cons c n =>
    have := (isNameChar_iff c).2 (h c (List.mem_cons_self ..))
    intro e
    rw [show c = '{' from e] at this
    exact absurd this (by decide)

/-- What the parser makes of pieces followed by an end that begins with an opening brace. -/
theorem tokenize_open (cd : Str → Option Nat) {ps : List Piece} (hn : Normal ps) {r : Str} (hr : peek r ≠ '{')
    {result : Except Err (List Token)} (n : Nat) (hlen : n ≤ r.length + 1)
    (h : ∀ k, tokenizeLoop cd (n + k) ⟨printAll ps ++ '{' :: r, .placeholder, r⟩ = result) :
    tokenize cd (printAll ps ++ '{' :: r) = andThen (inOrder (ps.map (pieceTokens cd))) result := by
  have hl := length_le_printAll ps hn
  have := loop_pieces cd (printAll ps ++ '{' :: r) ('{' :: r) result n
    (fun k => by rw [loop_open cd _ hr, h])
    (fun k s hs => by rw [loop_text_hole cd (n + k) _ hs hr, h, map_cons_eq_andThen])
    ps hn ((printAll ps ++ '{' :: r).length + 1 - n - ps.length)
  rw [tokenize, Parser.init, ← this]
  congr 1
  rw [List.length_append, List.length_cons] at *
  omega

theorem tokenize_done (cd : Str → Option Nat) {ps : List Piece} (hn : Normal ps) :
    tokenize cd (printAll ps) = inOrder (ps.map (pieceTokens cd)) := by
  have hl := length_le_printAll ps hn
  have := loop_pieces cd (printAll ps) [] (.ok []) 1
    (fun k => by rw [Nat.add_comm, tokenizeLoop]; rfl)
    (fun k s hs => by
      rw [List.append_nil, show 1 + k + 1 = k + 2 from by omega, loop_text_end cd k _ hs]; rfl)
    ps hn ((printAll ps).length - ps.length)
  rw [List.append_nil] at this
  rw [tokenize, Parser.init, show (printAll ps).length + 1 = 1 + ((printAll ps).length - ps.length) + ps.length
    from by omega, this]
  cases inOrder (ps.map (pieceTokens cd)) with
  | error e => rfl
  | ok a => simp [andThen]

theorem tokenize_close (cd : Str → Option Nat) {ps : List Piece} (hn : Normal ps) {r : Str} (hr : r.head? ≠ some '}') :
    tokenize cd (printAll ps ++ '}' :: r) = andThen (inOrder (ps.map (pieceTokens cd)))
      (.error (.parse (printAll ps).length (printAll ps ++ '}' :: r) .illformed)) := by
  have hl := length_le_printAll ps hn
  have hr' := peek_ne_of_head hr (by decide)
  have hpos : (printAll ps ++ '}' :: r).length - ('}' :: r).length = (printAll ps).length := by
    rw [List.length_append]; omega
  have := loop_pieces cd (printAll ps ++ '}' :: r) ('}' :: r)
    (.error (.parse (printAll ps).length (printAll ps ++ '}' :: r) .illformed)) 1
    (fun k => by
      rw [Nat.add_comm, loop_literal_step cd k _ _ (by simp) (.inl (by simp [peek]))]
      simp only [Parser.parseLiteral, literalLoop_close hr', Parser.throw, hpos])
    (fun k s hs => by
      obtain ⟨h1, h2⟩ := escape_head hs ('}' :: r)
      rw [loop_literal_step cd _ _ _ h1 h2]
      simp only [Parser.parseLiteral, literalLoop_escape, literalLoop_close hr', Parser.throw, hpos]
      rfl)
    ps hn ((printAll ps ++ '}' :: r).length - ps.length)
  rw [tokenize, Parser.init, ← this]
  congr 1
  rw [List.length_append, List.length_cons] at *
  omega

theorem tokenize_unclosed (cd : Str → Option Nat) {ps : List Piece} (hn : Normal ps) {name : Str}
    (hname : ∀ c ∈ name, NameChar c) (hne : name ≠ []) :
    tokenize cd (printAll ps ++ '{' :: name) = andThen (inOrder (ps.map (pieceTokens cd)))
      (.error (.parse (printAll ps ++ '{' :: name).length (printAll ps ++ '{' :: name) .illformed)) := by
  have e := takeWhile_name (r := []) hname (by decide)
  rw [List.append_nil] at e
  have hp := names_peek (r := []) hname (fun h => absurd h hne)
  rw [List.append_nil] at hp
  refine tokenize_open cd hn hp 1 (by omega) ?_
  intro k
  rw [Nat.add_comm, tokenizeLoop]
  simp only [Parser.next, reduceCtorEq, if_false, if_neg hne, Parser.nextIn, Parser.parsePlaceholder, e.2,
    Parser.throw, List.length_nil, Nat.sub_zero]

theorem tokenize_lone_open (cd : Str → Option Nat) {ps : List Piece} (hn : Normal ps) :
    tokenize cd (printAll ps ++ ['{']) = inOrder (ps.map (pieceTokens cd)) := by
  have := tokenize_open cd hn (r := []) (by simp [peek]) (result := .ok []) 1 (by simp) (fun k => by
    rw [Nat.add_comm, tokenizeLoop]; rfl)
  rw [this]
  cases inOrder (ps.map (pieceTokens cd)) with
  | error e => rfl
  | ok a => simp [andThen]

theorem tokenize_badName (cd : Str → Option Nat) {ps : List Piece} (hn : Normal ps) {name r : Str} {c : Char}
    (hname : ∀ c ∈ name, NameChar c) (hc : ¬ NameChar c) (c1 : c ≠ ':') (c2 : c ≠ '}') (hne : name = [] → c ≠ '{') :
    tokenize cd (printAll ps ++ '{' :: (name ++ c :: r)) = andThen (inOrder (ps.map (pieceTokens cd)))
      (.error (.parse ((printAll ps).length + 1 + name.length) (printAll ps ++ '{' :: (name ++ c :: r))
        .invalidPlaceholder)) := by
  have hc' : isNameChar c = false := by
    cases h : isNameChar c with
    | false => rfl
    | true => exact absurd ((isNameChar_iff c).1 h) hc
  have e := takeWhile_name (r := c :: r) hname hc'
  have hp := names_peek (r := c :: r) hname hne
  refine tokenize_open cd hn hp 1 (by simp) ?_
  intro k
  have hpos : (printAll ps ++ '{' :: (name ++ c :: r)).length - (c :: r).length
      = (printAll ps).length + 1 + name.length := by
    simp only [List.length_append, List.length_cons]; omega
  have hnil : name ++ c :: r ≠ [] := by simp
  rw [Nat.add_comm, tokenizeLoop]
  simp only [Parser.next, reduceCtorEq, if_false, if_neg hnil, Parser.nextIn, Parser.parsePlaceholder, e.1, e.2,
    if_neg c1, if_neg c2, Parser.throw, hpos]

theorem parseSpec_unclosed (s : Str) : ∀ k : Nat, (∀ p, p <+: s → p.count '}' ≤ p.count '{' + k) →
    parseSpec (k + 1) s = (s, []) := by
  intro k h
  rcases parseSpec_inv s k with ⟨b, _, h2, _, h4⟩ | ⟨h1, _⟩
  · generalize (parseSpec (k + 1) s).2 = r at h2
    have := h (b ++ ['}']) ⟨r, by rw [h2]; simp⟩
    simp only [List.count_append] at this
    rw [show List.count '}' ['}'] = 1 from rfl, show List.count '{' ['}'] = 0 from rfl] at this
    omega
  · exact h1

theorem tokenize_unclosedSpec (cd : Str → Option Nat) {ps : List Piece} (hn : Normal ps) {name spec : Str}
    (hname : ∀ c ∈ name, NameChar c) (hs : ∀ p, p <+: spec → p.count '}' ≤ p.count '{') :
    tokenize cd (printAll ps ++ '{' :: (name ++ ':' :: spec)) = andThen (inOrder (ps.map (pieceTokens cd)))
      ((holeToken cd name (some spec)).map ([·])) := by
  have e := takeWhile_name (r := ':' :: spec) hname rfl
  have hp := names_peek (r := ':' :: spec) hname (by simp [peek])
  have e2 := parseSpec_unclosed spec 0 (by simpa using hs)
  have hnil : name ++ ':' :: spec ≠ [] := by simp
  refine tokenize_open cd hn hp 2 (by simp only [List.length_append, List.length_cons]; omega) ?_
  intro k
  rw [Nat.add_comm, tokenizeLoop]
  simp only [Nat.zero_add] at e2
  simp only [Parser.next, reduceCtorEq, if_false, if_neg hnil, Parser.nextIn, Parser.parsePlaceholder, e.1, e.2,
    if_true, e2, holeToken]
  have done : ∀ pat, tokenizeLoop cd (k + 1) ⟨pat, .unknown, []⟩ = .ok [] := fun _ => rfl
  cases matchSpec name spec with
  | some x =>
    cases x with
    | error e => rfl
    | ok t => simp only [done]; rfl
  | none =>
    cases parseOptional cd name spec with
    | some t => simp only [done]; rfl
    | none => simp only [done]; rfl

/-! ## Errors of placeholders -/

theorem typeOf_ok {body : Str} (h : body ≠ []) : ∃ c, typeOf body = .ok c := by
  have : (ch! "{:" ++ body).length - 2 < (ch! "{:" ++ body).length := by
    simp only [List.length_append, List.length_cons, List.length_nil]; omega
  rw [typeOf, if_neg h, List.getElem?_eq_getElem this]
  exact ⟨_, rfl⟩

theorem typeOf_error {body : Str} {e : Err} (h : typeOf body = .error e) : body = [] ∧ e = .ub .assertion := by
  by_cases hb : body = []
  · subst hb
    simp only [typeOf, if_true, Except.error.injEq] at h
    exact ⟨rfl, h.symm⟩
  · obtain ⟨c, hc⟩ := typeOf_ok hb
    rw [hc] at h
    exact absurd h (by simp)

theorem parseLeftover_error {s : Str} {e : Err} (h : parseLeftover s = .error e) :
    e = .niy ∨ e = .parse (s.length + 2) (ch! "{:" ++ s) .malformed := by
  simp only [parseLeftover] at h
  split at h
  · simp only [Except.error.injEq] at h; exact .inr h.symm
  · split at h
    · simp only [Except.error.injEq] at h; exact .inr h.symm
    · split at h
      · rename_i h2
        simp only [Except.error.injEq] at h
        subst h
        split at h2
        · exact absurd h2 (by simp)
        · split at h2
          · simp only [Except.error.injEq] at h2; exact .inl h2.symm
          · exact absurd h2 (by simp)
      · exact absurd h (by simp)

theorem map_error {α β : Type} {x : Except Err α} {f : α → β} {e : Err} (h : x.map f = .error e) : x = .error e := by
  cases x with
  | error e' => simpa [Except.map] using h
  | ok a => exact absurd h (by simp [Except.map])

theorem matchSpec_error {name body : Str} {e : Err} (h : matchSpec name body = some (.error e)) :
    (body = [] ∧ e = .ub .assertion) ∨ e = .niy ∨ e = .parse (body.length + 2) (ch! "{:" ++ body) .malformed := by
  simp only [matchSpec] at h
  split at h
  · exact absurd h (by simp)
  split at h
  · exact .inl (typeOf_error (map_error (Option.some.inj h)))
  split at h
  · exact .inl (typeOf_error (map_error (Option.some.inj h)))
  split at h
  · exact .inl (typeOf_error (map_error (Option.some.inj h)))
  split at h
  · exact .inl (typeOf_error (map_error (Option.some.inj h)))
  split at h
  · exact .inr (parseLeftover_error (map_error (Option.some.inj h)))
  · exact absurd h (by simp)

theorem holeToken_error {cd : Str → Option Nat} {name : Str} {spec : Option Str} {e : Err}
    (h : holeToken cd name spec = .error e) : ∃ body, spec = some body ∧
      ((body = [] ∧ e = .ub .assertion) ∨ e = .niy ∨ e = .parse (body.length + 2) (ch! "{:" ++ body) .malformed) := by
  cases spec with
  | none =>
    simp only [holeToken] at h
    split at h <;> exact absurd h (by simp)
  | some body =>
    refine ⟨body, rfl, ?_⟩
    simp only [holeToken] at h
    split at h
    · rename_i h2
      rw [h] at h2
      exact matchSpec_error h2
    · split at h <;> exact absurd h (by simp)

theorem inOrder_error {xs : List (Except Err (List Token))} {e : Err} (h : inOrder xs = .error e) : .error e ∈ xs := by
  induction xs with
  | nil => exact absurd h (by simp [inOrder])
  | cons x xs ih =>
    cases x with
    | error e' =>
      simp only [inOrder, Except.error.injEq] at h
      rw [h]; exact List.mem_cons_self ..
    | ok a =>
      simp only [inOrder] at h
      split at h
      · rename_i h2
        rw [h2] at ih
        exact List.mem_cons_of_mem _ (ih (by simpa using h))
      · exact absurd h (by simp)

theorem andThen_error {x y : Except Err (List Token)} {e : Err} (h : andThen x y = .error e) :
    x = .error e ∨ y = .error e := by
  cases x with
  | error e' => exact .inl (by simpa [andThen] using h)
  | ok a =>
    cases y with
    | error e' => exact .inr (by simpa [andThen] using h)
    | ok b => exact absurd h (by simp [andThen])

theorem print_le_printAll {p : Piece} {ps : List Piece} (h : p ∈ ps) : p.print.length ≤ (printAll ps).length := by
  induction ps with
  | nil => cases h
  | cons q qs ih =>
    rw [printAll, List.length_append]
    rcases List.mem_cons.1 h with rfl | h
    · omega
    · have := ih h
      omega

/-- An error of the pieces themselves. -/
theorem pieces_error {cd : Str → Option Nat} {ps : List Piece} {e : Err}
    (h : inOrder (ps.map (pieceTokens cd)) = .error e) :
    ∃ name spec, Piece.hole name (some spec) ∈ ps ∧ (e = .niy ∨
      e = .parse (spec.length + 3) (ch! "{:" ++ spec ++ ch! "}") .malformed) := by
  obtain ⟨p, hp, he⟩ := List.mem_map.1 (inOrder_error h)
  cases p with
  | text s => exact absurd he (by simp [pieceTokens])
  | hole name spec =>
    obtain ⟨body, hb, h2⟩ := holeToken_error (map_error he)
    cases spec with
    | none => exact absurd hb (by simp)
    | some b =>
      simp only [Option.map_some, Option.some.injEq] at hb
      subst hb
      refine ⟨name, b, hp, ?_⟩
      rcases h2 with ⟨h2, _⟩ | h2 | h2
      · exact absurd h2 (by simp)
      · exact .inl h2
      · exact .inr (by rw [h2]; simp)

end Blackhole.Pattern
