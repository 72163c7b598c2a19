import Verif.Pattern.Props

/-!
# What the grammars accept

`Verif.Pattern.Props` says what well-formed placeholders mean. Here is the other direction: whatever the parser accepts as a
leftover placeholder or as an optional attribute is well-formed.
-/

namespace Blackhole.Pattern

open Fmt

/-- `[align][width]type`; the width is any sequence of digits. -/
def LooseSpec (types : List Char) (s : Str) : Prop :=
  ∃ align width type, s = align ++ width ++ [type] ∧ (align = [] ∨ ∃ c, (c = '<' ∨ c = '^' ∨ c = '>') ∧ align = [c])
    ∧ (∀ c ∈ width, '0' ≤ c ∧ c ≤ '9') ∧ type ∈ types

/-- A piece of the pattern for one attribute. -/
def LooseItem : ItemPiece → Prop
  | .text s => s ≠ []
  | .name spec | .value spec => ∀ s, spec = some s → LooseSpec ['s', 'd'] s

/-- A sub-pattern in braces, with its mark. -/
def ext (mark : Str) : Option Str → Str
  | none => []
  | some t => ['{'] ++ t ++ mark

theorem isDigit_range {c : Char} (h : Fmt.isDigit c = true) : '0' ≤ c ∧ c ≤ '9' := by
  simp only [Fmt.isDigit, Bool.and_eq_true, decide_eq_true_eq] at h
  exact h

theorem isAlign_cases {c : Char} (h : isAlign c = true) : c = '<' ∨ c = '^' ∨ c = '>' := by
  simp only [isAlign, Bool.or_eq_true, beq_iff_eq] at h
  rcases h with (h | h) | h
  · exact .inl h
  · exact .inr (.inl h)
  · exact .inr (.inr h)

theorem optChar_split {p : Char → Bool} {s a r : Str} (h : optChar p s = (a, r)) :
    s = a ++ r ∧ (a = [] ∨ ∃ c, p c = true ∧ a = [c]) := by
  cases s with
  | nil => cases h; exact ⟨rfl, .inl rfl⟩
  | cons c s =>
    simp only [optChar] at h
    split at h
    · next hp => cases h; exact ⟨rfl, .inr ⟨c, hp, rfl⟩⟩
    · cases h; exact ⟨rfl, .inl rfl⟩

theorem mem_takeWhile {p : Char → Bool} {s : Str} {c : Char} (h : c ∈ s.takeWhile p) : p c = true := by
  induction s with
  | nil => cases h
  | cons d s ih =>
    simp only [List.takeWhile] at h
    split at h
    · next hd =>
      rcases List.mem_cons.mp h with rfl | h
      · exact hd
      · exact ih h
    · cases h

theorem typedSpec_some {types : List Char} {p : Char → Bool} (hp : ∀ c, p c = true → c ∈ types) {s t r : Str}
    (h : typedSpec p s = some (t, r)) : s = t ++ r ∧ LooseSpec types t := by
  unfold typedSpec at h
  cases e : optChar isAlign s with
  | mk align s1 =>
    obtain ⟨h1, h2⟩ := optChar_split e
    simp only [e, optDigits] at h
    cases e2 : s1.dropWhile Fmt.isDigit with
    | nil => simp [e2] at h
    | cons c s2 =>
      simp only [e2] at h
      split at h
      · next hc =>
        cases h
        have h3 : s1 = s1.takeWhile Fmt.isDigit ++ c :: r := by rw [← e2]; exact List.takeWhile_append_dropWhile.symm
        refine ⟨?_, align, _, c, rfl, ?_, fun c hc => isDigit_range (mem_takeWhile hc), hp c hc⟩
        · rw [h1]
          conv => lhs; rw [h3]
          simp
        · rcases h2 with h2 | ⟨d, hd, h2⟩
          · exact .inl h2
          · exact .inr ⟨d, isAlign_cases hd, h2⟩
      · cases h

theorem untilMark_some {mark : Str} : ∀ {s t r : Str}, untilMark mark s = some (t, r) → s = t ++ mark ++ r := by
  intro s
  induction s with
  | nil => intro t r h; cases h
  | cons c s ih =>
    intro t r h
    simp only [untilMark] at h
    split at h
    · next hc =>
      cases h
      obtain ⟨x, hx⟩ := hc.1
      rw [← hx]
      simp
    · cases e : untilMark mark s with
      | none => simp [e] at h
      | some q =>
        obtain ⟨t', r'⟩ := q
        simp only [e] at h
        cases h
        rw [ih e]
        simp

theorem braced_some {mark s t r : Str} (h : braced mark s = some (t, r)) : s = ['{'] ++ t ++ mark ++ r := by
  unfold braced at h
  split at h
  · rw [untilMark_some h]; simp
  · cases h

theorem once_some {mark s r : Str} {got p : Option Str} (h : permutation.once mark got s = (p, r)) :
    (p = got ∧ s = r) ∨ (got = none ∧ s = ext mark p ++ r) := by
  unfold permutation.once at h
  split at h
  · cases h; exact .inl ⟨rfl, rfl⟩
  · split at h
    · next e => cases h; exact .inr ⟨rfl, by rw [braced_some e]; simp [ext]⟩
    · cases h; exact .inl ⟨rfl, rfl⟩

theorem permutation_some {s r : Str} {p q : Option Str} (h : permutation s = (p, q, r)) :
    s = ext (ch! ":p}") p ++ ext (ch! ":s}") q ++ r ∨ s = ext (ch! ":s}") q ++ ext (ch! ":p}") p ++ r := by
  unfold permutation at h
  rcases h1 : permutation.once (ch! ":p}") none s with ⟨p1, s1⟩
  rcases h2 : permutation.once (ch! ":s}") none s1 with ⟨q1, s2⟩
  rcases h3 : permutation.once (ch! ":p}") p1 s2 with ⟨p2, s3⟩
  rcases h4 : permutation.once (ch! ":s}") q1 s3 with ⟨q2, s4⟩
  simp only [h1, h2, h3, h4] at h
  cases h
  rcases once_some h1 with ⟨a1, b1⟩ | ⟨a1, b1⟩ <;> rcases once_some h2 with ⟨a2, b2⟩ | ⟨a2, b2⟩ <;>
    rcases once_some h3 with ⟨a3, b3⟩ | ⟨a3, b3⟩ <;> rcases once_some h4 with ⟨a4, b4⟩ | ⟨a4, b4⟩ <;>
    subst_vars <;> first | (left; simp [ext]; done) | (right; simp [ext]; done)

theorem itemLiteral_some : ∀ {s t r : Str}, itemLiteral s = (t, r) → s = escapeText t ++ r := by
  intro s
  fun_induction itemLiteral s with
  | case1 => intro t r h; cases h; rfl
  | case2 c hc => intro t r h; cases h; rfl
  | case3 c hc => intro t r h; cases h; simp [escapeText_cons, hc, escapeText]
  | case4 c s t' r' e hc ih =>
    intro t r h
    cases h
    rw [escapeText_cons, if_pos hc]
    conv => lhs; rw [ih e]
    rfl
  | case5 c d s hc hd => intro t r h; cases h; rfl
  | case6 c d s hc t' r' e ih =>
    intro t r h
    cases h
    rw [ih e, escapeText_cons, if_neg hc]
    rfl

theorem itemAttribute_some {key s spec r : Str} (h : itemAttribute ('{' :: key) s = some (spec, r)) :
    ∃ o : Option Str, s = printKey key o ++ r ∧ spec = o.getD [] ∧ ∀ t, o = some t → LooseSpec ['s', 'd'] t := by
  unfold itemAttribute at h
  split at h
  · next hk =>
    obtain ⟨x, rfl⟩ := hk
    simp only [List.drop_left] at h
    cases x with
    | nil => cases h
    | cons c z =>
      by_cases hc : c = ':'
      · subst hc
        cases e : typedSpec (fun c => c == 's' || c == 'd') z with
        | none =>
          simp only [e] at h
          exact absurd h (by simp)
        | some q =>
          obtain ⟨w, z'⟩ := q
          simp only [e] at h
          split at h
          · cases h
            obtain ⟨e1, e2⟩ := typedSpec_some (types := ['s', 'd']) (by
              intro c hc
              simp only [Bool.or_eq_true, beq_iff_eq] at hc
              rcases hc with rfl | rfl <;> simp) e
            refine ⟨some spec, ?_, rfl, fun t ht => by cases ht; exact e2⟩
            rw [e1]
            simp [printKey]
          · cases h
      · by_cases hd : c = '}'
        · subst hd
          cases h
          exact ⟨none, by simp [printKey], rfl, fun t ht => by cases ht⟩
        · simp [hc, hd] at h
  · cases h

theorem items_some {fuel : Nat} : ∀ {s : Str} {is : List Item}, items fuel s = some is →
    ∃ ps : List ItemPiece, s = printItems ps ∧ (∀ p ∈ ps, LooseItem p) ∧ is = ps.map ItemPiece.item := by
  induction fuel with
  | zero =>
    intro s is h
    cases s with
    | nil => cases h; exact ⟨[], rfl, (by simp), rfl⟩
    | cons c s => cases h
  | succ fuel ih =>
    intro s is h
    cases s with
    | nil => cases h; exact ⟨[], rfl, (by simp), rfl⟩
    | cons c s =>
      rw [items_cons fuel (by simp)] at h
      cases e1 : itemAttribute (ch! "{name") (c :: s) with
      | some q =>
        obtain ⟨spec, r⟩ := q
        simp only [e1, Option.map_eq_some_iff] at h
        obtain ⟨js, h1, rfl⟩ := h
        obtain ⟨ps, rfl, h3, rfl⟩ := ih h1
        obtain ⟨o, h4, rfl, h6⟩ := itemAttribute_some e1
        refine ⟨.name o :: ps, h4, ?_, rfl⟩
        intro p hp
        rcases List.mem_cons.mp hp with rfl | hp
        · exact h6
        · exact h3 p hp
      | none =>
        simp only [e1] at h
        cases e2 : itemAttribute (ch! "{value") (c :: s) with
        | some q =>
          obtain ⟨spec, r⟩ := q
          simp only [e2, Option.map_eq_some_iff] at h
          obtain ⟨js, h1, rfl⟩ := h
          obtain ⟨ps, rfl, h3, rfl⟩ := ih h1
          obtain ⟨o, h4, rfl, h6⟩ := itemAttribute_some e2
          refine ⟨.value o :: ps, h4, ?_, rfl⟩
          intro p hp
          rcases List.mem_cons.mp hp with rfl | hp
          · exact h6
          · exact h3 p hp
        | none =>
          simp only [e2] at h
          rcases e3 : itemLiteral (c :: s) with ⟨t, r⟩
          rw [e3] at h
          cases t with
          | nil => cases h
          | cons d t =>
            simp only [Option.map_eq_some_iff] at h
            obtain ⟨js, h1, rfl⟩ := h
            obtain ⟨ps, rfl, h3, rfl⟩ := ih h1
            refine ⟨.text (d :: t) :: ps, itemLiteral_some e3, ?_, rfl⟩
            intro p hp
            rcases List.mem_cons.mp hp with rfl | hp
            · simp [LooseItem]
            · exact h3 p hp

/-- **C51.** Whatever is accepted as a leftover placeholder consists of a pattern for one attribute, a separator, either, both or
neither, and a specification; the pattern consists of `{name}`, `{value}`, these with a specification, and text in which braces
are doubled. Everything else is rejected. -/
theorem C51_accepted (cd : Str → Option Nat) (body : Str) (L : Leftover) (hb : Balanced body)
    (h : tokenize cd (ch! "{...:" ++ body ++ ch! "}") = .ok [.leftover L]) :
    ∃ (pattern separator : Option Str) (spec : Str), LooseSpec ['s'] spec
      ∧ (body = ext (ch! ":p}") pattern ++ ext (ch! ":s}") separator ++ spec
        ∨ body = ext (ch! ":s}") separator ++ ext (ch! ":p}") pattern ++ spec)
      ∧ L.spec = ch! "{:" ++ spec ++ ch! "}" ∧ L.separator = separator.getD (ch! ", ")
      ∧ (pattern = none → L.items = [.name [], .literal (ch! ": "), .value []])
      ∧ ∀ t, pattern = some t → ∃ ps : List ItemPiece, t = printItems ps ∧ (∀ p ∈ ps, LooseItem p)
        ∧ L.items = ps.map ItemPiece.item := by
  have e0 := token_spec cd (ch! "...") body (by simp [NameChar]) hb
  rw [show ch! "{...:" ++ body ++ ch! "}" = '{' :: (ch! "..." ++ ':' :: (body ++ ['}'])) from by simp, e0] at h
  simp only [holeToken, matchSpec] at h
  rw [if_neg (by decide), if_neg (by decide), if_neg (by decide), if_neg (by decide), if_neg (by decide), if_pos trivial] at h
  have hL : parseLeftover (body ++ ['}']) = .ok L := by
    cases e : parseLeftover (body ++ ['}']) with
    | error err => simp [e, Except.map] at h
    | ok L' =>
      simp [e, Except.map] at h
      rw [h]
  clear h e0
  unfold parseLeftover at hL
  rcases hp : permutation (body ++ ['}']) with ⟨pattern, separator, r⟩
  simp only [hp] at hL
  cases ht : typedSpec (· == 's') r with
  | none => simp [ht] at hL
  | some q =>
    obtain ⟨spec, r'⟩ := q
    obtain ⟨h1, h2⟩ := typedSpec_some (types := ['s']) (by simp) ht
    simp only [ht] at hL
    split at hL
    · cases hL
    · next hr =>
      have hr : r' = ['}'] := by
        apply Classical.byContradiction
        intro hn
        exact hr hn
      subst hr
      have hbody : body = ext (ch! ":p}") pattern ++ ext (ch! ":s}") separator ++ spec
          ∨ body = ext (ch! ":s}") separator ++ ext (ch! ":p}") pattern ++ spec := by
        rcases permutation_some hp with e | e
        · left
          rw [h1, ← List.append_assoc] at e
          exact List.append_cancel_right e
        · right
          rw [h1, ← List.append_assoc] at e
          exact List.append_cancel_right e
      refine ⟨pattern, separator, spec, h2, hbody, ?_⟩
      cases pattern with
      | none =>
        simp only [Except.ok.injEq] at hL
        subst hL
        refine ⟨rfl, ?_, fun _ => rfl, fun t ht => by cases ht⟩
        cases separator <;> rfl
      | some t =>
        cases ei : items (t.length + 1) t with
        | none => simp [ei] at hL
        | some is =>
          simp only [ei, Except.ok.injEq] at hL
          subst hL
          refine ⟨rfl, ?_, fun e => (by cases e), ?_⟩
          · cases separator <;> rfl
          · intro t' e
            cases e
            obtain ⟨ps, h3, h4, h5⟩ := items_some ei
            exact ⟨ps, h3, h4, h5⟩

/-- A specification of an optional attribute: `[[fill]align][#][0][width][.precision][type]`. -/
def LooseOptional (s : Str) : Prop :=
  ∃ fill align alt zero width precision type, s = fill ++ align ++ alt ++ zero ++ width ++ precision ++ type
    ∧ (fill = [] ∨ ∃ c, fill = [c] ∧ align ≠ []) ∧ (align = [] ∨ ∃ c, (c = '<' ∨ c = '^' ∨ c = '>') ∧ align = [c])
    ∧ (alt = [] ∨ alt = ['#']) ∧ (zero = [] ∨ zero = ['0']) ∧ (∀ c ∈ width, '0' ≤ c ∧ c ≤ '9')
    ∧ (precision = [] ∨ ∃ ds : Str, ds ≠ [] ∧ (∀ c ∈ ds, '0' ≤ c ∧ c ≤ '9') ∧ precision = '.' :: ds)
    ∧ (type = [] ∨ ∃ c ∈ ['s', 'd', 'f', 'x'], type = [c])

theorem optFill_some {s a r : Str} (h : optFill s = (a, r)) :
    s = a ++ r ∧ (a = [] ∨ ∃ c x r', a = [c] ∧ r = x :: r' ∧ isAlign x = true) := by
  unfold optFill at h
  split at h
  · split at h
    · next hx => cases h; exact ⟨rfl, .inr ⟨_, _, _, rfl, rfl, hx⟩⟩
    · cases h; exact ⟨rfl, .inl rfl⟩
  · cases h; exact ⟨rfl, .inl rfl⟩

theorem optPrecision_some {s a r : Str} (h : optPrecision s = (a, r)) :
    s = a ++ r ∧ (a = [] ∨ ∃ ds : Str, ds ≠ [] ∧ (∀ c ∈ ds, '0' ≤ c ∧ c ≤ '9') ∧ a = '.' :: ds) := by
  unfold optPrecision at h
  split at h
  · next s =>
    split at h
    · cases h; exact ⟨rfl, .inl rfl⟩
    · next ds r' hne e =>
      cases h
      simp only [optDigits, Prod.mk.injEq] at e
      obtain ⟨rfl, rfl⟩ := e
      refine ⟨?_, .inr ⟨_, ?_, fun c hc => isDigit_range (mem_takeWhile hc), rfl⟩⟩
      · simp [List.takeWhile_append_dropWhile]
      · intro hn
        exact hne hn
  · cases h; exact ⟨rfl, .inl rfl⟩

theorem optionalSpec_some {s t r : Str} (h : optionalSpec s = (t, r)) : s = t ++ r ∧ LooseOptional t := by
  unfold optionalSpec at h
  rcases e1 : optFill s with ⟨fill, s1⟩
  rcases e2 : optChar isAlign s1 with ⟨align, s2⟩
  rcases e3 : optChar (· == '#') s2 with ⟨alt, s3⟩
  rcases e4 : optChar (· == '0') s3 with ⟨zero, s4⟩
  rcases e5 : optPrecision (s4.dropWhile Fmt.isDigit) with ⟨precision, s5⟩
  rcases e6 : optChar (fun c => c == 's' || c == 'd' || c == 'f' || c == 'x') s5 with ⟨type, s6⟩
  simp only [e1, e2, e3, e4, optDigits, e5, e6] at h
  cases h
  obtain ⟨a1, b1⟩ := optFill_some e1
  obtain ⟨a2, b2⟩ := optChar_split e2
  obtain ⟨a3, b3⟩ := optChar_split e3
  obtain ⟨a4, b4⟩ := optChar_split e4
  obtain ⟨a5, b5⟩ := optPrecision_some e5
  obtain ⟨a6, b6⟩ := optChar_split e6
  have a7 : s4 = s4.takeWhile Fmt.isDigit ++ s4.dropWhile Fmt.isDigit := List.takeWhile_append_dropWhile.symm
  refine ⟨?_, fill, align, alt, zero, s4.takeWhile Fmt.isDigit, precision, type, rfl, ?_, ?_, ?_, ?_, ?_, b5, ?_⟩
  · rw [a5, a6] at a7
    rw [a1, a2, a3, a4]
    conv => lhs; rw [a7]
    simp
  · rcases b1 with b1 | ⟨c, x, r', rfl, rfl, hx⟩
    · exact .inl b1
    · refine .inr ⟨c, rfl, ?_⟩
      simp only [optChar, hx, if_true, Prod.mk.injEq] at e2
      rw [← e2.1]
      simp
  · rcases b2 with b2 | ⟨c, hc, b2⟩
    · exact .inl b2
    · exact .inr ⟨c, isAlign_cases hc, b2⟩
  · rcases b3 with b3 | ⟨c, hc, b3⟩
    · exact .inl b3
    · right; rw [b3, beq_iff_eq.mp hc]
  · rcases b4 with b4 | ⟨c, hc, b4⟩
    · exact .inl b4
    · right; rw [b4, beq_iff_eq.mp hc]
  · exact fun c hc => isDigit_range (mem_takeWhile hc)
  · rcases b6 with b6 | ⟨c, hc, b6⟩
    · exact .inl b6
    · refine .inr ⟨c, ?_, b6⟩
      simp only [Bool.or_eq_true, beq_iff_eq] at hc
      rcases hc with ((rfl | rfl) | rfl) | rfl <;> simp

/-- **C22.** A placeholder is an optional attribute only if its specification is `{default:default}` followed by
`[[fill]align][#][0][width][.precision][type]`; everything else is a required attribute. -/
theorem C22_optional_accepted (cd : Str → Option Nat) (name body n spec : Str) (o : Otherwise)
    (hname : ∀ c ∈ name, NameChar c) (hb : Balanced body)
    (h : tokenize cd (['{'] ++ name ++ [':'] ++ body ++ ['}']) = .ok [.optional n spec o]) :
    n = name ∧ ∃ d t, body = ['{'] ++ d ++ ch! ":default}" ++ t ∧ LooseOptional t ∧ spec = ch! "{:" ++ t ++ ch! "}"
      ∧ (∀ z, castInt d = some z → o = .int z)
      ∧ (castInt d = none → (∀ x, cd d = some x → o = .double x) ∧ (cd d = none → o = .string d)) := by
  have e0 := token_spec cd name body hname hb
  rw [show ['{'] ++ name ++ [':'] ++ body ++ ['}'] = '{' :: (name ++ ':' :: (body ++ ['}'])) from by simp, e0] at h
  simp only [holeToken] at h
  cases em : matchSpec name (body ++ ['}']) with
  | some x =>
    exfalso
    simp only [em] at h
    cases x with
    | error e => simp [Except.map] at h
    | ok tok =>
      simp [Except.map] at h
      subst h
      unfold matchSpec at em
      have ex : ∀ (a : Str) (g : Bool), extract a g ≠ .optional n spec o := by
        intro a g
        unfold extract mkTimestamp
        intro e
        split at e <;> cases e
      have mp : ∀ {α : Type} (f : α → Token) (r : Except Err α), (∀ a, f a ≠ .optional n spec o) →
          some (r.map f) ≠ some (.ok (.optional n spec o)) := by
        intro α f r hf e
        cases r with
        | error _ => cases e
        | ok a => exact hf a (by simpa [Except.map] using e)
      split at em
      · cases em
      split at em
      · exact mp _ _ (by intro a; split <;> simp) em
      split at em
      · exact mp _ _ (by intro a; split; · simp
                         split <;> simp) em
      split at em
      · exact mp _ _ (by intro a; split <;> simp) em
      split at em
      · exact mp _ _ (by intro a; split; · simp
                         split <;> exact ex _ _) em
      split at em
      · exact mp _ _ (by intro a; simp) em
      · cases em
  | none =>
    simp only [em] at h
    cases ep : parseOptional cd name (body ++ ['}']) with
    | none => simp [ep, Except.map] at h
    | some tok =>
      simp [ep, Except.map] at h
      subst h
      unfold parseOptional optionalGrammar at ep
      cases eb : braced (ch! ":default}") (body ++ ['}']) with
      | none => simp [eb] at ep
      | some q =>
        obtain ⟨d, s⟩ := q
        simp only [eb] at ep
        rcases es : optionalSpec s with ⟨t, r⟩
        obtain ⟨h1, h2⟩ := optionalSpec_some es
        by_cases hr : r = ['}']
        · subst hr
          simp only [es, if_true, Option.some.injEq, Token.optional.injEq] at ep
          obtain ⟨e1, e2, e3⟩ := ep
          have hbody := braced_some eb
          rw [h1, ← List.append_assoc] at hbody
          refine ⟨e1.symm, d, t, List.append_cancel_right hbody, h2, e2.symm, ?_, ?_⟩
          · intro z hz; rw [← e3, hz]
          · intro hz
            rw [hz] at e3
            refine ⟨fun x hx => ?_, fun hx => ?_⟩
            · rw [hx] at e3; exact e3.symm
            · rw [hx] at e3; exact e3.symm
        · simp [es, hr] at ep

/-! ## Cases that meet the hypotheses -/

/-- `{...:{{name}={value:05d}:p}{ | :s}>20s}` and `{id:{7:default}*>+}`... the latter is a required attribute. -/
example : (∃ L, tokenize (fun _ => none) (ch! "{...:{{name}={value:05d}:p}{ | :s}>20s}") = .ok [.leftover L])
    ∧ tokenize (fun _ => none) (ch! "{id:{7:default}*>8x}") = .ok [.optional (ch! "id") (ch! "{:*>8x}") (.int 7)]
    ∧ tokenize (fun _ => none) (ch! "{id:{7:default}+}") = .ok [.required (ch! "id") (ch! "{:{7:default}+}")]
    ∧ tokenize (fun _ => none) (ch! "{...:{{name:q}:p}s}") = .error .niy :=
  ⟨⟨_, rfl⟩, rfl, rfl, rfl⟩

end Blackhole.Pattern
