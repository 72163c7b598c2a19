import Verif.Pattern.Spec
import Verif.Fmt.Parse

/-! # The state machine on printed pieces -/

namespace Blackhole.Pattern

open Fmt (escapeText SpecText peek)

/-! ## Literals -/

theorem escapeText_cons (c : Char) (s : Str) :
    escapeText (c :: s) = (if c = '{' ∨ c = '}' then [c, c] else [c]) ++ escapeText s := rfl

theorem escapeText_append (a b : Str) : escapeText (a ++ b) = escapeText a ++ escapeText b := by
  simp [escapeText]

theorem literalLoop_plain {c : Char} (h1 : c ≠ '{') (h2 : c ≠ '}') (s : Str) :
    literalLoop (c :: s) = (c :: (literalLoop s).1, (literalLoop s).2) := by
  cases s with
  | nil => simp [literalLoop, h1, h2]
  | cons d s => simp [literalLoop, h1, h2]

theorem literalLoop_pair {c : Char} (h : c = '{' ∨ c = '}') (s : Str) :
    literalLoop (c :: c :: s) = (c :: (literalLoop s).1, (literalLoop s).2) := by
  rw [literalLoop, if_pos ⟨h, rfl⟩]

theorem literalLoop_open {s : Str} (h : peek s ≠ '{') : literalLoop ('{' :: s) = ([], .opened s) := by
  cases s with
  | nil => rfl
  | cons d s =>
    have h : d ≠ '{' := h
    simp [literalLoop, h]

theorem literalLoop_close {s : Str} (h : peek s ≠ '}') : literalLoop ('}' :: s) = ([], .lone ('}' :: s)) := by
  cases s with
  | nil => rfl
  | cons d s =>
    have h : d ≠ '}' := h
    simp [literalLoop, h]

theorem literalLoop_escape (t r : Str) :
    literalLoop (escapeText t ++ r) = (t ++ (literalLoop r).1, (literalLoop r).2) := by
  induction t with
  | nil => rfl
  | cons c t ih =>
    rw [escapeText_cons]
    by_cases h : c = '{' ∨ c = '}'
    · rw [if_pos h]
      show literalLoop (c :: c :: (escapeText t ++ r)) = _
      rw [literalLoop_pair h, ih]; rfl
    · rw [if_neg h]
      simp only [not_or] at h
      show literalLoop (c :: (escapeText t ++ r)) = _
      rw [literalLoop_plain h.1 h.2, ih]; rfl

/-- What the loop has read, whatever it was given. -/
theorem literalLoop_inv (s : Str) :
    (literalLoop s).2 = .done ∧ s = escapeText (literalLoop s).1 ∨
    (∃ r, (literalLoop s).2 = .opened r ∧ s = escapeText (literalLoop s).1 ++ '{' :: r ∧ peek r ≠ '{') ∨
    (∃ r, (literalLoop s).2 = .lone ('}' :: r) ∧ s = escapeText (literalLoop s).1 ++ '}' :: r ∧ peek r ≠ '}') := by
  have key : ∀ (c : Char) (pre s s' : Str), escapeText [c] = pre → literalLoop s' = (c :: (literalLoop s).1, (literalLoop s).2) →
      s' = pre ++ s →
      ((literalLoop s).2 = .done ∧ s = escapeText (literalLoop s).1 ∨
      (∃ r, (literalLoop s).2 = .opened r ∧ s = escapeText (literalLoop s).1 ++ '{' :: r ∧ peek r ≠ '{') ∨
      (∃ r, (literalLoop s).2 = .lone ('}' :: r) ∧ s = escapeText (literalLoop s).1 ++ '}' :: r ∧ peek r ≠ '}')) →
      ((literalLoop s').2 = .done ∧ s' = escapeText (literalLoop s').1 ∨
      (∃ r, (literalLoop s').2 = .opened r ∧ s' = escapeText (literalLoop s').1 ++ '{' :: r ∧ peek r ≠ '{') ∨
      (∃ r, (literalLoop s').2 = .lone ('}' :: r) ∧ s' = escapeText (literalLoop s').1 ++ '}' :: r ∧ peek r ≠ '}')) := by
    intro c pre s s' he hl hs h
    have e : escapeText (c :: (literalLoop s).1) = pre ++ escapeText (literalLoop s).1 := by
      rw [← he, ← escapeText_append]; rfl
    rw [hl]
    dsimp only
    rw [e, hs]
    rcases h with ⟨h1, h2⟩ | ⟨r, h1, h2, h3⟩ | ⟨r, h1, h2, h3⟩
    · exact .inl ⟨h1, by rw [← h2]⟩
    · exact .inr (.inl ⟨r, h1, by rw [List.append_assoc, ← h2], h3⟩)
    · exact .inr (.inr ⟨r, h1, by rw [List.append_assoc, ← h2], h3⟩)
  induction h : s.length using Nat.strongRecOn generalizing s with
  | _ n ih =>
    cases s with
    | nil => exact .inl ⟨rfl, rfl⟩
    | cons c s =>
      by_cases hb : c = '{' ∨ c = '}'
      · by_cases hp : ∃ s', s = c :: s'
        · obtain ⟨s', rfl⟩ := hp
          refine key c [c, c] s' _ (by rw [escapeText_cons, if_pos hb]; rfl) (literalLoop_pair hb s') rfl
            (ih s'.length (by rw [← h]; simp only [List.length_cons]; omega) s' rfl)
        · have hn : peek s ≠ c := by
            cases s with
            | nil => rcases hb with rfl | rfl <;> decide
            | cons d s => exact fun e => hp ⟨s, by rw [show d = c from e]⟩
          rcases hb with rfl | rfl
          · exact .inr (.inl ⟨s, by rw [literalLoop_open hn], by rw [literalLoop_open hn]; rfl, hn⟩)
          · exact .inr (.inr ⟨s, by rw [literalLoop_close hn], by rw [literalLoop_close hn]; rfl, hn⟩)
      · have hb' := hb
        simp only [not_or] at hb'
        exact key c [c] s _ (by rw [escapeText_cons, if_neg hb]; rfl) (literalLoop_plain hb'.1 hb'.2 s) rfl
          (ih s.length (by rw [← h]; simp) s rfl)

/-! ## Specifications -/

theorem prefix_cons_iff {c : Char} {p s : Str} : p <+: c :: s ↔ p = [] ∨ ∃ p', p = c :: p' ∧ p' <+: s := by
  cases p with
  | nil => simp
  | cons d p =>
    simp only [List.cons_prefix_cons, reduceCtorEq, List.cons.injEq, false_or]
    exact ⟨fun ⟨h1, h2⟩ => ⟨p, ⟨h1, rfl⟩, h2⟩, fun ⟨_, ⟨h1, h2⟩, h3⟩ => ⟨h1, h2 ▸ h3⟩⟩

/-- Reading a text that closes `k` more braces than it opens. -/
theorem parseSpec_balanced (r : Str) : ∀ (b : Str) (k : Nat), (∀ p, p <+: b → p.count '}' ≤ p.count '{' + k) →
    b.count '}' = b.count '{' + k → parseSpec (k + 1) (b ++ '}' :: r) = (b ++ ['}'], r) := by
  intro b
  induction b with
  | nil =>
    intro k _ h2
    have : k = 0 := by simpa using h2.symm
    subst this
    rfl
  | cons c b ih =>
    intro k h1 h2
    have hp : ∀ p, p <+: b → (c :: p).count '}' ≤ (c :: p).count '{' + k := fun p hp =>
      h1 _ (prefix_cons_iff.2 (.inr ⟨p, rfl, hp⟩))
    by_cases c1 : c = '{'
    · subst c1
      have e := ih (k + 1) (fun p hq => by
        have := hp p hq
        rw [List.count_cons_of_ne (by decide), List.count_cons_self] at this
        omega) (by
        rw [List.count_cons_of_ne (by decide), List.count_cons_self] at h2
        omega)
      simp only [List.cons_append, parseSpec, if_true, e]
    · by_cases c2 : c = '}'
      · subst c2
        have h0 := hp [] (List.nil_prefix)
        rw [List.count_cons_self, List.count_cons_of_ne (by decide)] at h0
        simp only [List.count_nil] at h0
        obtain ⟨k, rfl⟩ : ∃ k', k = k' + 1 := ⟨k - 1, by omega⟩
        have e := ih k (fun p hq => by
          have := hp p hq
          rw [List.count_cons_self, List.count_cons_of_ne (by decide)] at this
          omega) (by
          rw [List.count_cons_self, List.count_cons_of_ne (by decide)] at h2
          omega)
        simp only [List.cons_append, parseSpec, if_neg c1, if_true, Nat.add_sub_cancel,
          if_neg (Nat.succ_ne_zero k), e]
      · have e := ih k (fun p hq => by
          have := hp p hq
          rwa [List.count_cons_of_ne c2, List.count_cons_of_ne c1] at this) (by
          rwa [List.count_cons_of_ne c2, List.count_cons_of_ne c1] at h2)
        simp only [List.cons_append, parseSpec, if_neg c1, if_neg c2, e]

theorem parseSpec_of_balanced {b : Str} (h : Balanced b) (r : Str) : parseSpec 1 (b ++ '}' :: r) = (b ++ ['}'], r) :=
  parseSpec_balanced r b 0 (by simpa using h.1) (by simpa using h.2)

/-- What `parse_spec` has read, whatever it was given: a text that closes the `k + 1` open braces, or all of it and
they are not closed. -/
theorem parseSpec_inv (s : Str) : ∀ k : Nat,
    (∃ b, (parseSpec (k + 1) s).1 = b ++ ['}'] ∧ s = b ++ '}' :: (parseSpec (k + 1) s).2 ∧
      (∀ p, p <+: b → p.count '}' ≤ p.count '{' + k) ∧ b.count '}' = b.count '{' + k) ∨
    (parseSpec (k + 1) s = (s, []) ∧ ∀ p, p <+: s → p.count '}' ≤ p.count '{' + k) := by
  induction s with
  | nil =>
    intro k
    exact .inr ⟨rfl, by intro p hp; rw [List.prefix_nil.1 hp]; simp⟩
  | cons c s ih =>
    intro k
    by_cases c1 : c = '{'
    · subst c1
      have e : parseSpec (k + 1) ('{' :: s) = ('{' :: (parseSpec (k + 2) s).1, (parseSpec (k + 2) s).2) := by
        rw [parseSpec, if_pos rfl]
      rw [e]
      rcases ih (k + 1) with ⟨b, h1, h2, h3, h4⟩ | ⟨h1, h2⟩
      · refine .inl ⟨'{' :: b, by rw [h1]; rfl, by rw [List.cons_append, ← h2], ?_, ?_⟩
        · intro p hp
          rcases prefix_cons_iff.1 hp with rfl | ⟨p, rfl, hq⟩
          · simp
          · have := h3 p hq
            rw [List.count_cons_of_ne (by decide), List.count_cons_self]
            omega
        · rw [List.count_cons_of_ne (by decide), List.count_cons_self]
          omega
      · refine .inr ⟨by rw [h1], ?_⟩
        intro p hp
        rcases prefix_cons_iff.1 hp with rfl | ⟨p, rfl, hq⟩
        · simp
        · have := h2 p hq
          rw [List.count_cons_of_ne (by decide), List.count_cons_self]
          omega
    · by_cases c2 : c = '}'
      · subst c2
        cases k with
        | zero => exact .inl ⟨[], rfl, rfl, by intro p hp; rw [List.prefix_nil.1 hp]; simp, rfl⟩
        | succ k =>
          have e : parseSpec (k + 2) ('}' :: s) = ('}' :: (parseSpec (k + 1) s).1, (parseSpec (k + 1) s).2) := by
            rw [parseSpec, if_neg c1, if_pos rfl]
            rfl
          rw [e]
          rcases ih k with ⟨b, h1, h2, h3, h4⟩ | ⟨h1, h2⟩
          · refine .inl ⟨'}' :: b, by rw [h1]; rfl, by rw [List.cons_append, ← h2], ?_, ?_⟩
            · intro p hp
              rcases prefix_cons_iff.1 hp with rfl | ⟨p, rfl, hq⟩
              · simp
              · have := h3 p hq
                rw [List.count_cons_self, List.count_cons_of_ne (by decide)]
                omega
            · rw [List.count_cons_self, List.count_cons_of_ne (by decide)]
              omega
          · refine .inr ⟨by rw [h1], ?_⟩
            intro p hp
            rcases prefix_cons_iff.1 hp with rfl | ⟨p, rfl, hq⟩
            · simp
            · have := h2 p hq
              rw [List.count_cons_self, List.count_cons_of_ne (by decide)]
              omega
      · have e : parseSpec (k + 1) (c :: s) = (c :: (parseSpec (k + 1) s).1, (parseSpec (k + 1) s).2) := by
          rw [parseSpec, if_neg c1, if_neg c2]
        rw [e]
        rcases ih k with ⟨b, h1, h2, h3, h4⟩ | ⟨h1, h2⟩
        · refine .inl ⟨c :: b, by rw [h1]; rfl, by rw [List.cons_append, ← h2], ?_, ?_⟩
          · intro p hp
            rcases prefix_cons_iff.1 hp with rfl | ⟨p, rfl, hq⟩
            · simp
            · have := h3 p hq
              rwa [List.count_cons_of_ne c2, List.count_cons_of_ne c1]
          · rwa [List.count_cons_of_ne c2, List.count_cons_of_ne c1]
        · refine .inr ⟨by rw [h1], ?_⟩
          intro p hp
          rcases prefix_cons_iff.1 hp with rfl | ⟨p, rfl, hq⟩
          · simp
          · have := h2 p hq
            rwa [List.count_cons_of_ne c2, List.count_cons_of_ne c1]

/-! ## Placeholders -/

theorem isNameChar_iff (c : Char) : isNameChar c = true ↔ NameChar c := by
  simp only [isNameChar, Fmt.isNameStart, Fmt.isDigit, NameChar, Bool.or_eq_true, Bool.and_eq_true,
    decide_eq_true_eq, beq_iff_eq]
  grind

theorem takeWhile_name {n r : Str} (h : ∀ c ∈ n, NameChar c) (hr : isNameChar (peek r) = false) :
    (n ++ r).takeWhile isNameChar = n ∧ (n ++ r).dropWhile isNameChar = r := by
  have h0 : r.takeWhile isNameChar = [] ∧ r.dropWhile isNameChar = r := by
    cases r with
    | nil => exact ⟨rfl, rfl⟩
    | cons c r =>
      have : isNameChar c = false := hr
      simp [this]
  have h1 : ∀ c ∈ n, isNameChar c = true := fun c hc => (isNameChar_iff c).2 (h c hc)
  rw [List.takeWhile_append_of_pos h1, List.dropWhile_append_of_pos h1, h0.1, h0.2]
  simp

/-- The token of a placeholder with a name and, if any, a specification with its closing brace. -/
def holeToken (castDouble : Str → Option Nat) (name : Str) : Option Str → Except Err Token
  | none =>
    match initToken name with
    | some t => .ok t
    | none => .ok (.required name (ch! "{}"))
  | some body =>
    match matchSpec name body with
    | some r => r
    | none =>
      match parseOptional castDouble name body with
      | some t => .ok t
      | none => .ok (.required name (ch! "{:" ++ body))

/-- A placeholder without its opening brace. -/
def holeTail (name : Str) : Option Str → Str
  | none => name ++ ['}']
  | some spec => name ++ [':'] ++ spec ++ ['}']

theorem print_hole (name : Str) (spec : Option Str) : (Piece.hole name spec).print = '{' :: holeTail name spec := by
  cases spec <;> simp [Piece.print, holeTail]

def someOk : Except Err Token → Except Err (Option Token)
  | .ok t => .ok (some t)
  | .error e => .error e

theorem parsePlaceholder_hole (cd : Str → Option Nat) {name : Str} {spec : Option Str}
    (hv : (Piece.hole name spec).Valid) (pattern : Str) (st : St) (r : Str) :
    Parser.parsePlaceholder cd ⟨pattern, st, holeTail name spec ++ r⟩
      = (someOk (holeToken cd name (spec.map (· ++ ['}']))), ⟨pattern, .unknown, r⟩) := by
  cases spec with
  | none =>
    have e := takeWhile_name (r := '}' :: r) hv.1 rfl
    have e' : holeTail name none ++ r = name ++ '}' :: r := by simp [holeTail]
    simp only [Parser.parsePlaceholder, e', e.1, e.2, Option.map_none, holeToken]
    rw [if_neg (by decide), if_pos trivial]
    cases initToken name <;> rfl
  | some b =>
    have e := takeWhile_name (r := ':' :: (b ++ '}' :: r)) hv.1 rfl
    have e' : holeTail name (some b) ++ r = name ++ ':' :: (b ++ '}' :: r) := by simp [holeTail]
    have e2 := parseSpec_of_balanced (hv.2 b rfl) r
    simp only [Parser.parsePlaceholder, e', e.1, e.2, Option.map_some, holeToken, if_true, e2]
    cases matchSpec name (b ++ ['}']) with
    | some x => cases x <;> rfl
    | none => cases parseOptional cd name (b ++ ['}']) <;> rfl

theorem holeTail_ne {name : Str} {spec : Option Str} (hv : (Piece.hole name spec).Valid) (r : Str) :
    holeTail name spec ++ r ≠ [] ∧ peek (holeTail name spec ++ r) ≠ '{' := by
  have key : ∀ s : Str, peek s ≠ '{' → s ≠ [] → name ++ s ≠ [] ∧ peek (name ++ s) ≠ '{' := by
    intro s h1 h2
    cases name with
    | nil => exact ⟨h2, h1⟩
    | cons c n =>
      refine ⟨by simp, ?_⟩
      have := (isNameChar_iff c).2 (hv.1 c (List.mem_cons_self ..))
      intro h
      rw [show c = '{' from h] at this
      exact absurd this (by decide)
  cases spec with
  | none =>
    have := key ('}' :: r) (by simp [peek]) (by simp)
    simpa [holeTail] using this
  | some b =>
    have := key (':' :: (b ++ '}' :: r)) (by simp [peek]) (by simp)
    simpa [holeTail] using this

theorem next_hole (cd : Str → Option Nat) {name : Str} {spec : Option Str} (hv : (Piece.hole name spec).Valid)
    (pattern r : Str) :
    Parser.next cd ⟨pattern, .unknown, '{' :: (holeTail name spec ++ r)⟩
      = (someOk (holeToken cd name (spec.map (· ++ ['}']))), ⟨pattern, .unknown, r⟩) ∧
    Parser.next cd ⟨pattern, .placeholder, holeTail name spec ++ r⟩
      = (someOk (holeToken cd name (spec.map (· ++ ['}']))), ⟨pattern, .unknown, r⟩) := by
  obtain ⟨h1, h2⟩ := holeTail_ne hv r
  have e := parsePlaceholder_hole cd hv pattern .placeholder r
  refine ⟨?_, ?_⟩
  · simp only [Parser.next, reduceCtorEq, if_false, List.cons_ne_nil, if_true, if_neg h2, Parser.nextIn, if_neg h1, e]
  · simp only [Parser.next, reduceCtorEq, if_false, if_neg h1, Parser.nextIn, e]

/-! ## Sequences -/

theorem Normal.valid {p : Piece} {ps : List Piece} (h : Normal (p :: ps)) : p.Valid := by
  cases ps with
  | nil => exact h
  | cons q ps => exact h.1

theorem Normal.tail {p : Piece} {ps : List Piece} (h : Normal (p :: ps)) : Normal ps := by
  cases ps with
  | nil => trivial
  | cons q ps => exact h.2.2

/-- The tokens that the pieces stand for. -/
def pieceTokens (cd : Str → Option Nat) : Piece → Except Err (List Token)
  | .text s => .ok [.literal s]
  | .hole name spec => (holeToken cd name (spec.map (· ++ ['}']))).map ([·])

/-- What follows a sequence of pieces when the parser goes on behind it. -/
def andThen (x : Except Err (List Token)) (y : Except Err (List Token)) : Except Err (List Token) :=
  match x with
  | .error e => .error e
  | .ok a =>
    match y with
    | .error e => .error e
    | .ok b => .ok (a ++ b)

theorem inOrder_cons (x : Except Err (List Token)) (xs : List (Except Err (List Token))) :
    inOrder (x :: xs) = andThen x (inOrder xs) := by
  cases x with
  | error e => rfl
  | ok a =>
    rw [inOrder]
    cases inOrder xs <;> rfl

theorem loop_literal_step (cd : Str → Option Nat) (fuel : Nat) (pattern rest : Str) (h : rest ≠ [])
    (hb : peek rest ≠ '{' ∨ peek rest.tail = '{') :
    tokenizeLoop cd (fuel + 1) ⟨pattern, .unknown, rest⟩
      = match Parser.parseLiteral ⟨pattern, .literal, rest⟩ with
        | (.error e, _) => .error e
        | (.ok none, _) => .ok []
        | (.ok (some t), p') => (tokenizeLoop cd fuel p').map (t :: ·) := by
  have e : Parser.next cd ⟨pattern, .unknown, rest⟩ = Parser.parseLiteral ⟨pattern, .literal, rest⟩ := by
    cases rest with
    | nil => exact absurd rfl h
    | cons c s =>
      by_cases hc : c = '{'
      · subst hc
        have : peek s = '{' := by
          rcases hb with h | h
          · exact absurd rfl h
          · exact h
        simp only [Parser.next, reduceCtorEq, if_false, if_true, this, Parser.nextIn, List.cons_ne_nil]
      · rw [Parser.next]
        simp only [reduceCtorEq, if_false, List.cons_ne_nil, if_true]
        split
        · rename_i h'
          simp only [List.cons.injEq] at h'
          exact absurd h'.1 hc
        · simp only [Parser.nextIn, List.cons_ne_nil, if_false]
  rw [tokenizeLoop, e]
  obtain ⟨x, y⟩ := Parser.parseLiteral ⟨pattern, .literal, rest⟩
  cases x with
  | error e => rfl
  | ok x => cases x <;> rfl

theorem escape_head {s : Str} (hs : s ≠ []) (r : Str) :
    escapeText s ++ r ≠ [] ∧ (peek (escapeText s ++ r) ≠ '{' ∨ peek (escapeText s ++ r).tail = '{') := by
  cases s with
  | nil => exact absurd rfl hs
  | cons c s =>
    rw [escapeText_cons]
    by_cases hb : c = '{' ∨ c = '}'
    · rw [if_pos hb]
      refine ⟨by simp, ?_⟩
      rcases hb with rfl | rfl
      · exact .inr rfl
      · exact .inl (by simp [peek])
    · rw [if_neg hb]
      simp only [not_or] at hb
      exact ⟨by simp, .inl hb.1⟩

theorem loop_text_end (cd : Str → Option Nat) (fuel : Nat) (pattern : Str) {s : Str} (hs : s ≠ []) :
    tokenizeLoop cd (fuel + 2) ⟨pattern, .unknown, escapeText s⟩ = .ok [.literal s] := by
  obtain ⟨h1, h2⟩ := escape_head hs []
  rw [List.append_nil] at h1 h2
  rw [loop_literal_step cd (fuel + 1) pattern _ h1 h2]
  have e := literalLoop_escape s []
  rw [List.append_nil] at e
  simp only [Parser.parseLiteral, e, literalLoop, List.append_nil]
  rfl

theorem loop_text_hole (cd : Str → Option Nat) (fuel : Nat) (pattern : Str) {s r : Str} (hs : s ≠ []) (hr : peek r ≠ '{') :
    tokenizeLoop cd (fuel + 1) ⟨pattern, .unknown, escapeText s ++ '{' :: r⟩
      = (tokenizeLoop cd fuel ⟨pattern, .placeholder, r⟩).map (.literal s :: ·) := by
  obtain ⟨h1, h2⟩ := escape_head hs ('{' :: r)
  rw [loop_literal_step cd fuel pattern _ h1 h2]
  simp only [Parser.parseLiteral, literalLoop_escape, literalLoop_open hr, List.append_nil]

theorem map_cons_eq_andThen (t : Token) (x : Except Err (List Token)) :
    x.map (t :: ·) = andThen (.ok [t]) x := by
  cases x <;> rfl

theorem andThen_assoc (x y z : Except Err (List Token)) : andThen (andThen x y) z = andThen x (andThen y z) := by
  cases x <;> cases y <;> cases z <;> simp [andThen]

/-- How many rounds of the loop a sequence of pieces takes. -/
theorem loop_hole (cd : Str → Option Nat) (fuel : Nat) (pattern r : Str) {name : Str} {spec : Option Str}
    (hv : (Piece.hole name spec).Valid) :
    tokenizeLoop cd (fuel + 1) ⟨pattern, .unknown, (Piece.hole name spec).print ++ r⟩
      = andThen (pieceTokens cd (.hole name spec)) (tokenizeLoop cd fuel ⟨pattern, .unknown, r⟩) ∧
    tokenizeLoop cd (fuel + 1) ⟨pattern, .placeholder, holeTail name spec ++ r⟩
      = andThen (pieceTokens cd (.hole name spec)) (tokenizeLoop cd fuel ⟨pattern, .unknown, r⟩) := by
  obtain ⟨h1, h2⟩ := next_hole cd hv pattern r
  rw [print_hole]
  have e : ∀ x : Except Err Token, (match (someOk x, (⟨pattern, .unknown, r⟩ : Parser)) with
        | (.error e, _) => .error e
        | (.ok none, _) => .ok []
        | (.ok (some t), p') => (tokenizeLoop cd fuel p').map (t :: ·))
      = andThen (x.map ([·])) (tokenizeLoop cd fuel ⟨pattern, .unknown, r⟩) := by
    intro x
    cases x with
    | error e => rfl
    | ok t => exact map_cons_eq_andThen t _
  refine ⟨?_, ?_⟩
  · rw [tokenizeLoop, List.cons_append, h1]
    exact e _
  · rw [tokenizeLoop, h2]
    exact e _

/-- The loop over pieces followed by any text. If the last piece is a text, what follows must not go on with it. -/
theorem loop_pieces (cd : Str → Option Nat) (pattern : Str) (tail : Str) (result : Except Err (List Token))
    (fuel : Nat)
    (htail : ∀ k, tokenizeLoop cd (fuel + k) ⟨pattern, .unknown, tail⟩ = result)
    (htext : ∀ k s, s ≠ [] → tokenizeLoop cd (fuel + k + 1) ⟨pattern, .unknown, escapeText s ++ tail⟩
      = andThen (.ok [.literal s]) result) :
    ∀ ps, Normal ps → ∀ k, tokenizeLoop cd (fuel + k + ps.length) ⟨pattern, .unknown, printAll ps ++ tail⟩
      = andThen (inOrder (ps.map (pieceTokens cd))) result := by
  intro ps
  induction h : ps.length using Nat.strongRecOn generalizing ps with
  | _ n ih =>
    intro hn k
    cases ps with
    | nil =>
      subst h
      have := htail k
      simp only [List.length_nil, Nat.add_zero, printAll, List.nil_append, List.map_nil, inOrder, this]
      cases result <;> rfl
    | cons p ps =>
      have hv := hn.valid
      rw [List.length_cons] at h
      subst h
      rw [List.map_cons, inOrder_cons, printAll, List.append_assoc, andThen_assoc, ← Nat.add_assoc]
      cases p with
      | hole name spec =>
        rw [(loop_hole cd (fuel + k + ps.length) pattern (printAll ps ++ tail) hv).1, ih ps.length (Nat.lt_succ_self _) ps rfl hn.tail k]
      | text s =>
        cases ps with
        | nil =>
          have := htext k s hv
          simp only [List.length_nil, Nat.add_zero, Piece.print, printAll, List.nil_append, List.map_nil, inOrder,
            pieceTokens, this]
          cases result <;> rfl
        | cons q qs =>
          cases q with
          | text s' => exact absurd ⟨rfl, rfl⟩ hn.2.1
          | hole name spec =>
            have hq : (Piece.hole name spec).Valid := hn.tail.valid
            have hne := (holeTail_ne hq (printAll qs ++ tail)).2
            have := loop_text_hole cd (fuel + k + (qs.length + 1)) pattern (s := s)
              (r := holeTail name spec ++ (printAll qs ++ tail)) hv hne
            rw [Piece.print, printAll, print_hole, List.length_cons, List.cons_append, List.cons_append,
              List.append_assoc, this, ← Nat.add_assoc,
              (loop_hole cd (fuel + k + qs.length) pattern (printAll qs ++ tail) hq).2,
              ih qs.length (by simp only [List.length_cons]; omega) qs rfl hn.tail.tail k, map_cons_eq_andThen,
              List.map_cons, inOrder_cons, andThen_assoc]
            rfl

end Blackhole.Pattern
