import Verif.JsonRead.Strings
import Verif.JsonRead.Numbers

/-!
# Values: lemmas
-/

namespace Blackhole.JsonRead

open Config (Json)

variable {toDouble : Str → Option Nat}

/-! ## How texts begin -/

/-- What a value begins with. -/
def Opens (c : Char) : Prop := c ≠ '\x00' ∧ isSpace c = false ∧ c ≠ '/' ∧ c ≠ ',' ∧ c ≠ ']' ∧ c ≠ '}'

instance (c : Char) : Decidable (Opens c) := by
  unfold Opens
  infer_instance

theorem opens_digit {c : Char} (h : Digit c) : Opens c ∧ c ≠ 'n' ∧ c ≠ 't' ∧ c ≠ 'f' ∧ c ≠ '"' ∧ c ≠ '{' ∧ c ≠ '[' := by
  have : ∀ c ∈ ch! "0123456789", Opens c ∧ c ≠ 'n' ∧ c ≠ 't' ∧ c ≠ 'f' ∧ c ≠ '"' ∧ c ≠ '{' ∧ c ≠ '[' := by decide
  exact this c h

theorem opens_number (neg : Bool) {ds : Str} (h : Digits ds) (r : Str) : ∃ c r', (if neg then ['-'] else []) ++ (ds ++ r) = c :: r' ∧
    Opens c ∧ c ≠ 'n' ∧ c ≠ 't' ∧ c ≠ 'f' ∧ c ≠ '"' ∧ c ≠ '{' ∧ c ≠ '[' := by
  cases neg with
  | true => exact ⟨'-', ds ++ r, rfl, by decide⟩
  | false =>
    obtain ⟨h1, h2⟩ := h
    cases ds with
    | nil => exact absurd rfl h1
    | cons c ds => exact ⟨c, ds ++ r, rfl, opens_digit (h2 c (.head _))⟩

theorem reads_first {p : Part} {t : Str} (h : Reads toDouble p t) :
    ∃ c r, t = c :: r ∧ Opens c ∧ ((∃ ms, p = .members ms) → c = '"') := by
  induction h with
  | null => exact ⟨_, _, rfl, by decide, by rintro ⟨ms, h⟩; cases h⟩
  | true => exact ⟨_, _, rfl, by decide, by rintro ⟨ms, h⟩; cases h⟩
  | false => exact ⟨_, _, rfl, by decide, by rintro ⟨ms, h⟩; cases h⟩
  | @int neg ds hw _ =>
    obtain ⟨c, r, he, ho, _⟩ := opens_number neg hw.1 []
    rw [List.append_nil] at he
    exact ⟨c, r, he, ho, by rintro ⟨ms, h⟩; cases h⟩
  | @double neg ds f e _ hw _ _ _ _ =>
    obtain ⟨c, r, he, ho, _⟩ := opens_number neg hw.1 (f ++ e)
    exact ⟨c, r, by simp only [List.append_assoc]; exact he, ho, by rintro ⟨ms, h⟩; cases h⟩
  | str _ => exact ⟨_, _, rfl, by decide, by rintro ⟨ms, h⟩; cases h⟩
  | noElements _ => exact ⟨_, _, rfl, by decide, by rintro ⟨ms, h⟩; cases h⟩
  | arr _ _ _ => exact ⟨_, _, rfl, by decide, by rintro ⟨ms, h⟩; cases h⟩
  | noMembers _ => exact ⟨_, _, rfl, by decide, by rintro ⟨ms, h⟩; cases h⟩
  | obj _ _ _ => exact ⟨_, _, rfl, by decide, by rintro ⟨ms, h⟩; cases h⟩
  | lastElement _ _ ih =>
    obtain ⟨c, r, rfl, ho, _⟩ := ih
    exact ⟨c, _, rfl, ho, by rintro ⟨ms, h⟩; cases h⟩
  | lastElementComma _ _ _ ih =>
    obtain ⟨c, r, rfl, ho, _⟩ := ih
    exact ⟨c, _, rfl, ho, by rintro ⟨ms, h⟩; cases h⟩
  | element _ _ _ _ ih _ =>
    obtain ⟨c, r, rfl, ho, _⟩ := ih
    exact ⟨c, _, rfl, ho, by rintro ⟨ms, h⟩; cases h⟩
  | lastMember => exact ⟨_, _, rfl, by decide, fun _ => rfl⟩
  | lastMemberComma => exact ⟨_, _, rfl, by decide, fun _ => rfl⟩
  | member => exact ⟨_, _, rfl, by decide, fun _ => rfl⟩

theorem start_reads {p : Part} {t : Str} (h : Reads toDouble p t) (r : Str) : Start (t ++ r) := by
  obtain ⟨c, q, rfl, ho, _⟩ := reads_first h
  exact .cons ⟨ho.2.1, ho.2.2.1⟩

theorem peek_reads {p : Part} {t : Str} (h : Reads toDouble p t) (r : Str) : peek (t ++ r) ≠ '\x00' := by
  obtain ⟨c, q, rfl, ho, _⟩ := reads_first h
  exact ho.1

theorem consume_reads {p : Part} {t : Str} (h : Reads toDouble p t) (r : Str) :
    consume ']' (t ++ r) = none ∧ consume '}' (t ++ r) = none := by
  obtain ⟨c, q, rfl, ho, _⟩ := reads_first h
  exact ⟨consume_ne _ ho.2.2.2.2.1, consume_ne _ ho.2.2.2.2.2⟩

theorem reads_length {p : Part} {t : Str} (h : Reads toDouble p t) : 0 < t.length := by
  obtain ⟨c, q, rfl, _⟩ := reads_first h
  simp

theorem stop_gap {g rest : Str} (hg : Gap g) (hr : Stop rest) : Stop (g ++ rest) := by
  cases hg with
  | none => exact hr
  | space hc _ =>
    intro c r h
    cases h
    simp only [List.mem_cons, List.not_mem_nil, or_false] at hc
    rcases hc with rfl | rfl | rfl | rfl <;> decide
  | line _ _ _ => intro c r h; cases h; decide
  | block _ _ _ => intro c r h; cases h; decide

theorem stop_cons {c : Char} (r : Str) (h : isDigit c = false ∧ c ≠ '.' ∧ c ≠ 'e' ∧ c ≠ 'E') : Stop (c :: r) := by
  intro c' r' he
  cases he
  exact h

theorem stop_nul {r : Str} (h : peek r = '\x00') : Stop r := by
  intro c r' he
  subst he
  rw [show c = '\x00' from h]
  decide

theorem stop_tail {g rest : Str} (hg : Tail g) (hr : peek rest = '\x00') : Stop (g ++ rest) := by
  cases hg with
  | gap hg => exact stop_gap hg (stop_nul hr)
  | line hg _ _ =>
    rw [List.append_assoc, List.cons_append]
    exact stop_gap hg (stop_cons _ (by decide))

/-! ## Texts of the grammar are read -/

theorem literal_word (v : Json) (ws r : Str) : literal v ws (ws ++ r) = .ok (v, r) := by
  induction ws with
  | nil => rfl
  | cons w ws ih => rw [List.cons_append, literal, consume_cons]; exact ih

theorem value_number {n : Nat} {c : Char} {r : Str}
    (h : c ≠ 'n' ∧ c ≠ 't' ∧ c ≠ 'f' ∧ c ≠ '"' ∧ c ≠ '{' ∧ c ≠ '[') :
    value toDouble (n + 1) (c :: r) = number toDouble (c :: r) := by
  obtain ⟨h1, h2, h3, h4, h5, h6⟩ := h
  rw [value]
  all_goals
    intro r' h
    cases h
    contradiction

/-- What the parser does with a part. -/
def Parses (toDouble : Str → Option Nat) : Part → Str → Prop
  | .value v, t => ∀ n rest, 2 * (t ++ rest).length + 1 ≤ n → Stop rest → value toDouble n (t ++ rest) = .ok (v, rest)
  | .elements vs, t => ∀ n rest, 2 * (t ++ ']' :: rest).length + 2 ≤ n →
      elements toDouble n (t ++ ']' :: rest) = .ok (vs, rest)
  | .members ms, t => ∀ n rest, 2 * (t ++ '}' :: rest).length + 2 ≤ n →
      members toDouble n (t ++ '}' :: rest) = .ok (ms, rest)

theorem start_char {c : Char} (r : Str) (h : isSpace c = false ∧ c ≠ '/') : Start (c :: r) := .cons h

theorem parses {p : Part} {t : Str} (h : Reads toDouble p t) : Parses toDouble p t := by
  induction h with
  | null =>
    intro n rest hn _
    cases n with
    | zero => omega
    | succ n => exact literal_word .null ['u', 'l', 'l'] rest
  | true =>
    intro n rest hn _
    cases n with
    | zero => omega
    | succ n => exact literal_word (.bool true) ['r', 'u', 'e'] rest
  | false =>
    intro n rest hn _
    cases n with
    | zero => omega
    | succ n => exact literal_word (.bool false) ['a', 'l', 's', 'e'] rest
  | @int neg ds hw hfit =>
    intro n rest hn hr
    cases n with
    | zero => omega
    | succ n =>
      obtain ⟨c, r, he, _, ho⟩ := opens_number neg hw.1 rest
      rw [List.append_assoc, he, value_number ho, ← he, ← List.append_assoc]
      exact number_int hw hfit hr
  | @double neg ds f e bits hw hf he hfit hb =>
    intro n rest hn hr
    cases n with
    | zero => omega
    | succ n =>
      obtain ⟨c, r, heq, _, ho⟩ := opens_number neg hw.1 (f ++ (e ++ rest))
      have := number_double hw hf he hfit hb hr
      simp only [List.append_assoc] at this ⊢
      rw [heq] at this ⊢
      rw [value_number ho]
      exact this
  | @str s t hs =>
    intro n rest hn _
    cases n with
    | zero => omega
    | succ n =>
      rw [List.cons_append, List.append_assoc, value]
      simp only [List.cons_append, List.nil_append]
      rw [string_chars hs]
  | @noElements g hg =>
    intro n rest hn _
    cases n with
    | zero => omega
    | succ n =>
      rw [List.cons_append, List.append_assoc, value]
      simp only [List.cons_append, List.nil_append]
      rw [skip_gap hg (start_char _ (by decide))]
      simp only
      rw [consume_cons]
  | @arr g t vs hg ht ih =>
    intro n rest hn _
    cases n with
    | zero => omega
    | succ n =>
      simp only [List.length_append, List.length_cons, List.length_nil] at hn
      rw [List.cons_append, List.append_assoc, List.append_assoc, value]
      simp only [List.cons_append, List.nil_append]
      rw [skip_gap hg (start_reads ht _)]
      simp only
      rw [(consume_reads ht _).1]
      simp only
      rw [ih n rest (by simp only [List.length_append, List.length_cons]; omega)]
  | @noMembers g hg =>
    intro n rest hn _
    cases n with
    | zero => omega
    | succ n =>
      rw [List.cons_append, List.append_assoc, value]
      simp only [List.cons_append, List.nil_append]
      rw [skip_gap hg (start_char _ (by decide))]
      simp only
      rw [consume_cons]
  | @obj g t ms hg ht ih =>
    intro n rest hn _
    cases n with
    | zero => omega
    | succ n =>
      simp only [List.length_append, List.length_cons, List.length_nil] at hn
      rw [List.cons_append, List.append_assoc, List.append_assoc, value]
      simp only [List.cons_append, List.nil_append]
      rw [skip_gap hg (start_reads ht _)]
      simp only
      rw [(consume_reads ht _).2]
      simp only
      rw [ih n rest (by simp only [List.length_append, List.length_cons]; omega)]
  | @lastElement v t g ht hg ih =>
    intro n rest hn
    cases n with
    | zero => omega
    | succ n =>
      simp only [List.length_append, List.length_cons] at hn
      rw [List.append_assoc, elements, ih n _ (by simp only [List.length_append, List.length_cons]; omega)
        (stop_gap hg (stop_cons _ (by decide)))]
      simp only
      rw [skip_gap hg (start_char _ (by decide))]
      simp only
      rw [consume_ne _ (by decide), consume_cons]
  | @lastElementComma v t g g' ht hg hg' ih =>
    intro n rest hn
    cases n with
    | zero => omega
    | succ n =>
      simp only [List.length_append, List.length_cons] at hn
      rw [List.append_assoc, List.append_assoc, List.cons_append, elements,
        ih n _ (by simp only [List.length_append, List.length_cons]; omega) (stop_gap hg (stop_cons _ (by decide)))]
      simp only
      rw [skip_gap hg (start_char _ (by decide))]
      simp only
      rw [consume_cons]
      simp only
      rw [skip_gap hg' (start_char _ (by decide))]
      simp only
      rw [consume_cons]
  | @element v vs t g g' ts ht hg hg' hts ih ihs =>
    intro n rest hn
    cases n with
    | zero => omega
    | succ n =>
      have := reads_length ht
      simp only [List.length_append, List.length_cons] at hn
      rw [List.append_assoc, List.append_assoc, List.cons_append, List.append_assoc, elements,
        ih n _ (by simp only [List.length_append, List.length_cons]; omega) (stop_gap hg (stop_cons _ (by decide)))]
      simp only
      rw [skip_gap hg (start_char _ (by decide))]
      simp only
      rw [consume_cons]
      simp only
      rw [skip_gap hg' (start_reads hts _)]
      simp only
      rw [(consume_reads hts _).1]
      simp only
      rw [ihs n rest (by simp only [List.length_append, List.length_cons]; omega)]
  | @lastMember k kt g1 g2 t g v hk h1 h2 ht hg ih =>
    intro n rest hn
    cases n with
    | zero => omega
    | succ n =>
      simp only [List.length_append, List.length_cons] at hn
      simp only [List.cons_append, List.append_assoc]
      rw [members, consume_cons]
      simp only
      rw [string_chars hk]
      simp only
      rw [skip_gap h1 (start_char _ (by decide))]
      simp only
      rw [consume_cons]
      simp only
      rw [skip_gap h2 (start_reads ht _)]
      simp only
      rw [ih n _ (by simp only [List.length_append, List.length_cons]; omega) (stop_gap hg (stop_cons _ (by decide)))]
      simp only
      rw [skip_gap hg (start_char _ (by decide))]
      simp only
      rw [consume_ne _ (by decide), consume_cons]
  | @lastMemberComma k kt g1 g2 t g g' v hk h1 h2 ht hg hg' ih =>
    intro n rest hn
    cases n with
    | zero => omega
    | succ n =>
      simp only [List.length_append, List.length_cons] at hn
      simp only [List.cons_append, List.append_assoc]
      rw [members, consume_cons]
      simp only
      rw [string_chars hk]
      simp only
      rw [skip_gap h1 (start_char _ (by decide))]
      simp only
      rw [consume_cons]
      simp only
      rw [skip_gap h2 (start_reads ht _)]
      simp only
      rw [ih n _ (by simp only [List.length_append, List.length_cons]; omega) (stop_gap hg (stop_cons _ (by decide)))]
      simp only
      rw [skip_gap hg (start_char _ (by decide))]
      simp only
      rw [consume_cons]
      simp only
      rw [skip_gap hg' (start_char _ (by decide))]
      simp only
      rw [consume_cons]
  | @member k kt g1 g2 t g g' ts v ms hk h1 h2 ht hg hg' hts ih ihs =>
    intro n rest hn
    cases n with
    | zero => omega
    | succ n =>
      simp only [List.length_append, List.length_cons] at hn
      simp only [List.cons_append, List.append_assoc]
      rw [members, consume_cons]
      simp only
      rw [string_chars hk]
      simp only
      rw [skip_gap h1 (start_char _ (by decide))]
      simp only
      rw [consume_cons]
      simp only
      rw [skip_gap h2 (start_reads ht _)]
      simp only
      rw [ih n _ (by simp only [List.length_append, List.length_cons]; omega) (stop_gap hg (stop_cons _ (by decide)))]
      simp only
      rw [skip_gap hg (start_char _ (by decide))]
      simp only
      rw [consume_cons]
      simp only
      rw [skip_gap hg' (start_reads hts _)]
      simp only
      rw [(consume_reads hts _).2]
      simp only
      rw [ihs n rest (by simp only [List.length_append, List.length_cons]; omega)]

/-! ## What is read is a text of the grammar -/

theorem literal_ok {v v' : Json} {ws s r : Str} (h : literal v ws s = .ok (v', r)) : v' = v ∧ s = ws ++ r := by
  induction ws generalizing s with
  | nil => cases h; exact ⟨rfl, rfl⟩
  | cons w ws ih =>
    rw [literal] at h
    split at h
    · rename_i q hq
      obtain ⟨h1, rfl⟩ := ih h
      exact ⟨h1, consume_some hq⟩
    · cases h

theorem skip_char {s r r' : Str} {c : Char} (h : skip s = .ok r) (hc : consume c r = some r') (h0 : c ≠ '\x00') :
    ∃ g, Gap g ∧ s = g ++ c :: r' := by
  obtain ⟨g, hs, hg, _⟩ := skip_ok h
  rw [consume_some hc] at hs hg
  exact ⟨g, hg.gap h0, hs⟩

theorem skip_part {s r t q : Str} {p : Part} (h : skip s = .ok r) (ht : Reads toDouble p t) (hr : r = t ++ q) :
    ∃ g, Gap g ∧ s = g ++ (t ++ q) := by
  obtain ⟨g, hs, hg, _⟩ := skip_ok h
  subst hr
  exact ⟨g, hg.gap (peek_reads ht q), hs⟩

theorem sound : ∀ n : Nat,
    (∀ s v r, value toDouble n s = .ok (v, r) → ∃ t, s = t ++ r ∧ Reads toDouble (.value v) t) ∧
    (∀ s vs r, elements toDouble n s = .ok (vs, r) → ∃ t, s = t ++ ']' :: r ∧ Reads toDouble (.elements vs) t) ∧
    (∀ s ms r, members toDouble n s = .ok (ms, r) → ∃ t, s = t ++ '}' :: r ∧ Reads toDouble (.members ms) t) := by
  intro n
  induction n with
  | zero =>
    refine ⟨?_, ?_, ?_⟩
    · intro s v r h; rw [value] at h; cases h
    · intro s v r h; rw [elements] at h; cases h
    · intro s v r h; rw [members] at h; cases h
  | succ n ih =>
    obtain ⟨ihv, ihe, ihm⟩ := ih
    refine ⟨?_, ?_, ?_⟩
    · intro s v r h
      unfold value at h
      split at h
      · obtain ⟨rfl, rfl⟩ := literal_ok h
        exact ⟨_, rfl, .null⟩
      · obtain ⟨rfl, rfl⟩ := literal_ok h
        exact ⟨_, rfl, .true⟩
      · obtain ⟨rfl, rfl⟩ := literal_ok h
        exact ⟨_, rfl, .false⟩
      · split at h
        · cases h
        · rename_i k q hk
          cases h
          obtain ⟨t, ht, rfl⟩ := string_ok hk
          exact ⟨'"' :: (t ++ ['"']), by simp, .str ht⟩
      · split at h
        · cases h
        · rename_i q hq
          split at h
          · rename_i q' hc
            cases h
            obtain ⟨g, hg, rfl⟩ := skip_char hq hc (by decide)
            exact ⟨'{' :: (g ++ ['}']), by simp, .noMembers hg⟩
          · split at h
            · cases h
            · rename_i ms q' hm
              cases h
              obtain ⟨t, he, ht⟩ := ihm _ _ _ hm
              obtain ⟨g, hg, rfl⟩ := skip_part hq ht he
              exact ⟨'{' :: (g ++ t ++ ['}']), by simp, .obj hg ht⟩
      · split at h
        · cases h
        · rename_i q hq
          split at h
          · rename_i q' hc
            cases h
            obtain ⟨g, hg, rfl⟩ := skip_char hq hc (by decide)
            exact ⟨'[' :: (g ++ [']']), by simp, .noElements hg⟩
          · split at h
            · cases h
            · rename_i ms q' hm
              cases h
              obtain ⟨t, he, ht⟩ := ihe _ _ _ hm
              obtain ⟨g, hg, rfl⟩ := skip_part hq ht he
              exact ⟨'[' :: (g ++ t ++ [']']), by simp, .arr hg ht⟩
      · exact number_ok h
    · intro s vs r h
      rw [elements] at h
      split at h
      · cases h
      · rename_i v q hv
        obtain ⟨t, rfl, ht⟩ := ihv _ _ _ hv
        split at h
        · cases h
        · rename_i q1 hs1
          split at h
          · rename_i q2 hc
            obtain ⟨g, hg, rfl⟩ := skip_char hs1 hc (by decide)
            split at h
            · cases h
            · rename_i q3 hs2
              split at h
              · rename_i q4 hc2
                cases h
                obtain ⟨g', hg', rfl⟩ := skip_char hs2 hc2 (by decide)
                exact ⟨t ++ g ++ ',' :: g', by simp, .lastElementComma ht hg hg'⟩
              · split at h
                · cases h
                · rename_i vs' q4 he
                  cases h
                  obtain ⟨ts, he, hts⟩ := ihe _ _ _ he
                  obtain ⟨g', hg', rfl⟩ := skip_part hs2 hts he
                  exact ⟨t ++ g ++ ',' :: (g' ++ ts), by simp, .element ht hg hg' hts⟩
          · split at h
            · rename_i q2 hc
              cases h
              obtain ⟨g, hg, rfl⟩ := skip_char hs1 hc (by decide)
              exact ⟨t ++ g, by simp, .lastElement ht hg⟩
            · cases h
    · intro s ms r h
      rw [members] at h
      split at h
      · cases h
      · rename_i q hq
        rw [consume_some hq]
        split at h
        · cases h
        · rename_i k q0 hk
          obtain ⟨kt, hkt, rfl⟩ := string_ok hk
          split at h
          · cases h
          · rename_i q1 hs1
            split at h
            · cases h
            · rename_i q2 hc
              obtain ⟨g1, hg1, rfl⟩ := skip_char hs1 hc (by decide)
              split at h
              · cases h
              · rename_i q3 hs2
                split at h
                · cases h
                · rename_i v q4 hv
                  obtain ⟨t, he, ht⟩ := ihv _ _ _ hv
                  obtain ⟨g2, hg2, rfl⟩ := skip_part hs2 ht he
                  split at h
                  · cases h
                  · rename_i q5 hs3
                    split at h
                    · rename_i q6 hc2
                      obtain ⟨g, hg, rfl⟩ := skip_char hs3 hc2 (by decide)
                      split at h
                      · cases h
                      · rename_i q7 hs4
                        split at h
                        · rename_i q8 hc3
                          cases h
                          obtain ⟨g', hg', rfl⟩ := skip_char hs4 hc3 (by decide)
                          exact ⟨_, by simp, .lastMemberComma hkt hg1 hg2 ht hg hg'⟩
                        · split at h
                          · cases h
                          · rename_i ms' q8 hm
                            cases h
                            obtain ⟨ts, he, hts⟩ := ihm _ _ _ hm
                            obtain ⟨g', hg', rfl⟩ := skip_part hs4 hts he
                            exact ⟨_, by simp, .member hkt hg1 hg2 ht hg hg' hts⟩
                    · split at h
                      · rename_i q6 hc2
                        cases h
                        obtain ⟨g, hg, rfl⟩ := skip_char hs3 hc2 (by decide)
                        exact ⟨_, by simp, .lastMember hkt hg1 hg2 ht hg⟩
                      · cases h

end Blackhole.JsonRead
