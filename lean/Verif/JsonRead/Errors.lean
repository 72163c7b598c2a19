import Verif.JsonRead.Lemmas

/-!
# Where errors are reported: lemmas
-/

namespace Blackhole.JsonRead

open Config (Json)

variable {toDouble : Str → Option Nat}

/-- The error is reported somewhere in this text, and it is one of the program. -/
def Within (s : Str) (e : Err) : Prop := (∃ p, s = p ++ e.2) ∧ e.1 ≠ .fuel

theorem Within.here {s : Str} {c : Code} (h : c ≠ .fuel) : Within s (c, s) := ⟨⟨[], rfl⟩, h⟩

theorem Within.before {s r p : Str} {e : Err} (h : Within r e) (hs : s = p ++ r) : Within s e := by
  obtain ⟨⟨q, rfl⟩, he⟩ := h
  exact ⟨⟨p ++ q, by rw [hs, List.append_assoc]⟩, he⟩

theorem Within.cons {c : Char} {r : Str} {e : Err} (h : Within r e) : Within (c :: r) e := h.before (p := [c]) rfl

theorem Within.consume {c : Char} {s r : Str} {e : Err} (h : Within r e) (hc : consume c s = some r) : Within s e := by
  rw [consume_some hc]
  exact h.cons

theorem Within.skip {s r : Str} {e : Err} (h : Within r e) (hs : skip s = .ok r) : Within s e := by
  obtain ⟨g, hg, _⟩ := skip_ok hs
  exact h.before hg

theorem blockEnd_error {s : Str} {e : Err} (h : blockEnd s = .error e) : Within s e := by
  induction s with
  | nil => cases h; exact .here (by decide)
  | cons c s ih =>
    rw [blockEnd] at h
    split at h
    · cases h; exact .here (by decide)
    · split at h
      · split at h
        · cases h
        · exact (ih h).cons
      · exact (ih h).cons

theorem drop_length (s : Str) : (s.dropWhile isSpace).length ≤ s.length := by
  obtain ⟨g, _, h⟩ := spaces_gap s
  have := congrArg List.length h
  rw [List.length_append] at this
  omega

theorem lineEnd_length (s : Str) : (lineEnd s).length ≤ s.length := by
  obtain ⟨b, _, _, h⟩ := lineEnd_cases s
  rcases h with h | ⟨h, _⟩
  · have := congrArg List.length h
    rw [List.length_append, List.length_cons] at this
    omega
  · have := congrArg List.length h
    rw [List.length_append] at this
    omega

theorem lineEnd_suffix (s : Str) : ∃ p, s = p ++ lineEnd s := by
  obtain ⟨b, _, _, h⟩ := lineEnd_cases s
  rcases h with h | ⟨h, _⟩
  · exact ⟨b ++ ['\n'], by simpa using h⟩
  · exact ⟨b, h⟩

theorem comments_error : ∀ (n : Nat) (s : Str) (e : Err), s.length < n → comments n s = .error e → Within s e := by
  intro n
  induction n with
  | zero => intro s e hn; omega
  | succ n ih =>
    intro s e hn h
    rw [comments] at h
    split at h
    · cases h
    · rename_i r hr
      rw [consume_some hr] at hn
      simp only [List.length_cons] at hn
      refine Within.consume ?_ hr
      split at h
      · rename_i q hq
        rw [consume_some hq] at hn
        simp only [List.length_cons] at hn
        refine Within.consume ?_ hq
        split at h
        · rename_i hb
          cases h
          exact blockEnd_error hb
        · rename_i w hb
          obtain ⟨body, _, _, he⟩ := blockEnd_ok hb
          obtain ⟨g, _, hg⟩ := spaces_gap w
          have hl := congrArg List.length he
          simp only [List.length_append, List.length_cons] at hl
          have hd := drop_length w
          have hw : Within w e := (ih _ _ (by omega) h).before hg
          exact hw.before (p := body ++ ['*', '/']) (by rw [he]; simp)
      · split at h
        · rename_i q hq
          rw [consume_some hq] at hn
          simp only [List.length_cons] at hn
          refine Within.consume ?_ hq
          obtain ⟨p, hp⟩ := lineEnd_suffix q
          obtain ⟨g, _, hg⟩ := spaces_gap (lineEnd q)
          have h1 := lineEnd_length q
          have h2 := drop_length (lineEnd q)
          exact ((ih _ _ (by omega) h).before hg).before hp
        · cases h
          exact .here (by decide)

theorem skip_error {s : Str} {e : Err} (h : skip s = .error e) : Within s e := by
  obtain ⟨g, _, hg⟩ := spaces_gap s
  have := drop_length s
  exact (comments_error _ _ _ (by omega) h).before hg

theorem hex4_error {esc : Str} {e : Err} : ∀ (k v : Nat) (s : Str), hex4 esc k v s = .error e → e = (.invalidHex, esc) := by
  intro k
  induction k with
  | zero => intro v s h; cases h
  | succ k ih =>
    intro v s h
    cases s with
    | nil => cases h; rfl
    | cons c s =>
      rw [hex4] at h
      split at h
      · cases h; rfl
      · exact ih _ _ h

theorem escape_error {esc s : Str} {e : Err} (h : escape esc s = .error e) : e.2 = esc ∧ e.1 ≠ .fuel := by
  cases s with
  | nil => cases h; exact ⟨rfl, (fun h => by cases h)⟩
  | cons c s =>
    rw [escape] at h
    split at h
    · cases h
    · split at h
      · split at h
        · rename_i he
          cases h
          rw [hex4_error _ _ _ he]
          exact ⟨rfl, (fun h => by cases h)⟩
        · split at h
          · split at h
            · cases h; exact ⟨rfl, (fun h => by cases h)⟩
            · split at h
              · rename_i he
                cases h
                rw [hex4_error _ _ _ he]
                exact ⟨rfl, (fun h => by cases h)⟩
              · split at h
                · cases h; exact ⟨rfl, (fun h => by cases h)⟩
                · cases h
          · cases h
      · cases h; exact ⟨rfl, (fun h => by cases h)⟩

theorem chars_error : ∀ (n : Nat) (s : Str) (e : Err), s.length < n → chars n s = .error e → Within s e := by
  intro n
  induction n with
  | zero => intro s e hn; omega
  | succ n ih =>
    intro s e hn h
    cases s with
    | nil => cases h; exact .here (by decide)
    | cons c s =>
      simp only [List.length_cons] at hn
      rw [chars] at h
      split at h
      · split at h
        · rename_i e' he
          simp only [Except.error.injEq] at h
          subst h
          obtain ⟨h1, h2⟩ := escape_error he
          exact ⟨⟨[], h1.symm⟩, h2⟩
        · rename_i b r hb
          obtain ⟨t, _, _, ht⟩ := escape_ok hb
          have hl := congrArg List.length ht
          rw [List.length_append] at hl
          split at h
          · rename_i he
            cases h
            exact ((ih _ _ (by omega) he).before ht).cons
          · cases h
      · split at h
        · cases h
        · split at h
          · cases h; exact .here (by decide)
          · split at h
            · cases h; exact .here (by decide)
            · split at h
              · rename_i he
                cases h
                exact (ih _ _ (by omega) he).cons
              · cases h

theorem string_error {s : Str} {e : Err} (h : string s = .error e) : Within s e := chars_error _ _ _ (Nat.lt_succ_self _) h

theorem whole_error {s : Str} {e : Err} (h : whole s = .error e) : Within s e := by
  cases s with
  | nil => cases h; exact .here (by decide)
  | cons c s =>
    rw [whole] at h
    split at h
    · cases h
    · split at h
      · cases h
      · cases h; exact .here (by decide)

theorem fraction_error {s : Str} {e : Err} (h : fraction s = .error e) : Within s e := by
  unfold fraction at h
  split at h
  · cases h
  · rename_i hc
    split at h
    · cases h
    · cases h
      exact (Within.here (by decide)).consume hc

theorem exponent_error {s : Str} {e : Err} (h : exponent s = .error e) : Within s e := by
  cases s with
  | nil => cases h
  | cons c s =>
    rw [exponent] at h
    split at h
    · obtain ⟨sign, r, he, _, hs⟩ := exponentSign_cases s
      rw [he] at h
      simp only at h
      split at h
      · cases h
      · cases h
        exact ((Within.here (by decide)).before hs).cons
    · cases h

theorem number_error {s : Str} {e : Err} (h : number toDouble s = .error e) : Within s e := by
  have hm := minus_ok s
  unfold number at h
  generalize minus s = m at h hm
  obtain ⟨neg, s1⟩ := m
  simp only at h hm
  split at h
  · rename_i he
    cases h
    exact (whole_error he).before hm
  · rename_i ds s2 hw
    replace hm : s = ((if neg = true then ['-'] else []) ++ ds) ++ s2 := by
      rw [List.append_assoc, ← (whole_ok hw).2]
      exact hm
    split at h
    · rename_i he
      cases h
      exact (fraction_error he).before hm
    · rename_i f s3 hf
      replace hm : s = ((if neg = true then ['-'] else []) ++ ds ++ f) ++ s3 := by
        rw [List.append_assoc, ← (fraction_ok hf).2]
        exact hm
      split at h
      · rename_i he
        cases h
        exact (exponent_error he).before hm
      · split at h
        · cases h
        · split at h
          · cases h
          · cases h
            exact .here (by decide)

theorem literal_error {v : Json} {ws s : Str} {e : Err} (h : literal v ws s = .error e) : Within s e := by
  induction ws generalizing s with
  | nil => cases h
  | cons w ws ih =>
    rw [literal] at h
    split at h
    · rename_i hq
      exact (ih h).consume hq
    · cases h
      exact .here (by decide)

theorem skip_length {s r : Str} (h : skip s = .ok r) : r.length ≤ s.length := by
  obtain ⟨g, rfl, _⟩ := skip_ok h
  rw [List.length_append]
  omega

theorem consume_length {c : Char} {s r : Str} (h : consume c s = some r) : s.length = r.length + 1 := by
  rw [consume_some h, List.length_cons]

theorem string_length {s k r : Str} (h : string s = .ok (k, r)) : r.length < s.length := by
  obtain ⟨t, _, rfl⟩ := string_ok h
  simp only [List.length_append, List.length_cons]
  omega

theorem value_length {n : Nat} {s r : Str} {v : Json} (h : value toDouble n s = .ok (v, r)) : r.length < s.length := by
  obtain ⟨t, rfl, ht⟩ := (sound n).1 _ _ _ h
  have := reads_length ht
  rw [List.length_append]
  omega

theorem Within.string {s k r : Str} {e : Err} (h : Within r e) (hs : string s = .ok (k, r)) : Within s e := by
  obtain ⟨t, _, he⟩ := string_ok hs
  exact h.before (p := t ++ ['"']) (by rw [he]; simp)

theorem Within.value {n : Nat} {s r : Str} {v : Json} {e : Err} (h : Within r e) (hs : value toDouble n s = .ok (v, r)) :
    Within s e := by
  obtain ⟨t, he, _⟩ := (sound n).1 _ _ _ hs
  exact h.before he

/-- Errors are reported within the text, and the model does not stop too early. -/
theorem errors : ∀ n : Nat,
    (∀ s e, 2 * s.length + 1 ≤ n → value toDouble n s = .error e → Within s e) ∧
    (∀ s e, 2 * s.length + 2 ≤ n → elements toDouble n s = .error e → Within s e) ∧
    (∀ s e, 2 * s.length + 2 ≤ n → members toDouble n s = .error e → Within s e) := by
  intro n
  induction n with
  | zero => exact ⟨fun s e h => by omega, fun s e h => by omega, fun s e h => by omega⟩
  | succ n ih =>
    obtain ⟨ihv, ihe, ihm⟩ := ih
    refine ⟨?_, ?_, ?_⟩
    · intro s e hn h
      unfold value at h
      split at h
      · exact (literal_error h).cons
      · exact (literal_error h).cons
      · exact (literal_error h).cons
      · split at h
        · rename_i he
          cases h
          exact (string_error he).cons
        · cases h
      · simp only [List.length_cons] at hn
        split at h
        · rename_i he
          cases h
          exact (skip_error he).cons
        · rename_i q hq
          have := skip_length hq
          split at h
          · cases h
          · split at h
            · rename_i he
              cases h
              exact ((ihm _ _ (by omega) he).skip hq).cons
            · cases h
      · simp only [List.length_cons] at hn
        split at h
        · rename_i he
          cases h
          exact (skip_error he).cons
        · rename_i q hq
          have := skip_length hq
          split at h
          · cases h
          · split at h
            · rename_i he
              cases h
              exact ((ihe _ _ (by omega) he).skip hq).cons
            · cases h
      · exact number_error h
    · intro s e hn h
      rw [elements] at h
      split at h
      · rename_i he
        cases h
        exact ihv _ _ (by omega) he
      · rename_i v q hv
        have l1 := value_length hv
        refine Within.value ?_ hv
        split at h
        · rename_i he
          cases h
          exact skip_error he
        · rename_i q1 hs1
          have l2 := skip_length hs1
          refine Within.skip ?_ hs1
          split at h
          · rename_i q2 hc
            have l3 := consume_length hc
            refine Within.consume ?_ hc
            split at h
            · rename_i he
              cases h
              exact skip_error he
            · rename_i q3 hs2
              have l4 := skip_length hs2
              refine Within.skip ?_ hs2
              split at h
              · cases h
              · split at h
                · rename_i he
                  cases h
                  exact ihe _ _ (by omega) he
                · cases h
          · split at h
            · cases h
            · cases h
              exact .here (by decide)
    · intro s e hn h
      rw [members] at h
      split at h
      · cases h
        exact .here (by decide)
      · rename_i q hq
        have l0 := consume_length hq
        refine Within.consume ?_ hq
        split at h
        · rename_i he
          cases h
          exact string_error he
        · rename_i k q0 hk
          have l1 := string_length hk
          refine Within.string ?_ hk
          split at h
          · rename_i he
            cases h
            exact skip_error he
          · rename_i q1 hs1
            have l2 := skip_length hs1
            refine Within.skip ?_ hs1
            split at h
            · cases h
              exact .here (by decide)
            · rename_i q2 hc
              have l3 := consume_length hc
              refine Within.consume ?_ hc
              split at h
              · rename_i he
                cases h
                exact skip_error he
              · rename_i q3 hs2
                have l4 := skip_length hs2
                refine Within.skip ?_ hs2
                split at h
                · rename_i he
                  cases h
                  exact ihv _ _ (by omega) he
                · rename_i v q4 hv
                  have l5 := value_length hv
                  refine Within.value ?_ hv
                  split at h
                  · rename_i he
                    cases h
                    exact skip_error he
                  · rename_i q5 hs3
                    have l6 := skip_length hs3
                    refine Within.skip ?_ hs3
                    split at h
                    · rename_i q6 hc2
                      have l7 := consume_length hc2
                      refine Within.consume ?_ hc2
                      split at h
                      · rename_i he
                        cases h
                        exact skip_error he
                      · rename_i q7 hs4
                        have l8 := skip_length hs4
                        refine Within.skip ?_ hs4
                        split at h
                        · cases h
                        · split at h
                          · rename_i he
                            cases h
                            exact ihm _ _ (by omega) he
                          · cases h
                    · split at h
                      · cases h
                      · cases h
                        exact .here (by decide)

theorem parse_error {text : Str} {e : Err} (h : parse toDouble text = .error e) : Within text e := by
  unfold parse at h
  split at h
  · rename_i he
    cases h
    exact skip_error he
  · rename_i s hs
    have l1 := skip_length hs
    refine Within.skip ?_ hs
    split at h
    · cases h
      exact .here (by decide)
    · split at h
      · rename_i he
        cases h
        exact (errors _).1 _ _ (by omega) he
      · rename_i v r hv
        refine Within.value ?_ hv
        split at h
        · rename_i he
          cases h
          exact skip_error he
        · rename_i q hq
          refine Within.skip ?_ hq
          split at h
          · cases h
          · cases h
            exact .here (by decide)

end Blackhole.JsonRead
