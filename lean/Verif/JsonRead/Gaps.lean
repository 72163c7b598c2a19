import Verif.JsonRead.Model
import Verif.JsonRead.Spec

/-!
# White space, comments and strings: lemmas
-/

namespace Blackhole.JsonRead

open Config (Json)

theorem consume_some {c : Char} {s r : Str} (h : consume c s = some r) : s = c :: r := by
  cases s with
  | nil => cases h
  | cons d t =>
    rw [consume] at h
    split at h
    · rename_i hd
      cases h
      rw [hd]
    · cases h

theorem consume_cons (c : Char) (r : Str) : consume c (c :: r) = some r := by rw [consume, if_pos rfl]

theorem consume_ne {c d : Char} (r : Str) (h : d ≠ c) : consume c (d :: r) = none := by rw [consume, if_neg h]

theorem consume_none {c : Char} {s r : Str} (h : consume c s = none) : s ≠ c :: r := by
  rintro rfl
  rw [consume_cons] at h
  cases h

/-! ## Gaps -/

theorem isSpace_iff (c : Char) : isSpace c = true ↔ c ∈ [' ', '\t', '\n', '\r'] := by
  simp only [isSpace, Bool.or_eq_true, beq_iff_eq, List.mem_cons, List.not_mem_nil, or_false]
  constructor
  · rintro (((h | h) | h) | h) <;> simp [h]
  · rintro (h | h | h | h) <;> simp [h]

theorem Gap.append {a b : Str} (ha : Gap a) (hb : Gap b) : Gap (a ++ b) := by
  induction ha with
  | none => exact hb
  | space hc _ ih => exact .space hc ih
  | line h1 h2 _ ih =>
    have := Gap.line h1 h2 ih
    simpa only [List.cons_append, List.append_assoc] using this
  | block h1 h2 _ ih =>
    have := Gap.block h1 h2 ih
    simpa only [List.cons_append, List.append_assoc] using this

/-- What no gap begins with. -/
def Start (s : Str) : Prop := ∀ c r, s = c :: r → isSpace c = false ∧ c ≠ '/'

theorem Start.nil : Start [] := by intro c r h; cases h

theorem Start.cons {c : Char} {r : Str} (h : isSpace c = false ∧ c ≠ '/') : Start (c :: r) := by
  intro c' r' he
  cases he
  exact h

theorem start_drop {s : Str} (h : Start s) : s.dropWhile isSpace = s := by
  cases s with
  | nil => rfl
  | cons c r => rw [List.dropWhile_cons_of_neg (by rw [(h c r rfl).1]; decide)]

theorem start_consume {s : Str} (h : Start s) : consume '/' s = none := by
  cases s with
  | nil => rfl
  | cons c r => exact consume_ne r (h c r rfl).2

theorem start_nul {s : Str} (h : peek s = '\x00') : Start s := by
  intro c r hs
  subst hs
  rw [show c = '\x00' from h]
  decide

theorem blockEnd_body {body r : Str} (h1 : ¬ ['*', '/'] <:+: body) (h2 : '\x00' ∉ body) :
    blockEnd (body ++ '*' :: '/' :: r) = .ok r := by
  induction body with
  | nil => rfl
  | cons c b ih =>
    have hb := ih (fun h => h1 (List.IsInfix.trans h (List.suffix_cons c b).isInfix)) (fun h => h2 (.tail _ h))
    rw [List.cons_append, blockEnd, if_neg (fun hc => h2 (by rw [hc]; exact .head _))]
    split
    · rename_i hc
      have : consume '/' (b ++ '*' :: '/' :: r) = none := by
        cases b with
        | nil => exact consume_ne _ (by decide)
        | cons d b =>
          refine consume_ne _ (fun hd => h1 ?_)
          subst hc hd
          exact ⟨[], b, rfl⟩
      rw [this]
      exact hb
    · exact hb

theorem lineEnd_body {body r : Str} (h1 : '\n' ∉ body) (h2 : '\x00' ∉ body) : lineEnd (body ++ '\n' :: r) = r := by
  induction body with
  | nil => rfl
  | cons c b ih =>
    rw [List.cons_append, lineEnd, if_neg (fun hc => h2 (by rw [hc]; exact .head _)),
      if_neg (fun hc => h1 (by rw [hc]; exact .head _))]
    exact ih (fun h => h1 (.tail _ h)) (fun h => h2 (.tail _ h))

theorem lineEnd_last {body r : Str} (h1 : '\n' ∉ body) (h2 : '\x00' ∉ body) (hr : peek r = '\x00') :
    lineEnd (body ++ r) = r := by
  induction body with
  | nil =>
    cases r with
    | nil => rfl
    | cons c r => rw [List.nil_append, lineEnd, if_pos (show c = _ from hr)]
  | cons c b ih =>
    rw [List.cons_append, lineEnd, if_neg (fun hc => h2 (by rw [hc]; exact .head _)),
      if_neg (fun hc => h1 (by rw [hc]; exact .head _))]
    exact ih (fun h => h1 (.tail _ h)) (fun h => h2 (.tail _ h))

/-- A gap is skipped, and the skipping goes on after it. -/
theorem comments_gap {g : Str} (hg : Gap g) : ∀ (n : Nat) (rest : Str), (g ++ rest).length < n →
    ∃ m, rest.length < m ∧ comments n ((g ++ rest).dropWhile isSpace) = comments m (rest.dropWhile isSpace) := by
  induction hg with
  | none => exact fun n rest h => ⟨n, h, rfl⟩
  | space hc _ ih =>
    intro n rest h
    obtain ⟨m, hm, he⟩ := ih n rest (by simp only [List.cons_append, List.length_cons] at h; omega)
    refine ⟨m, hm, ?_⟩
    rw [← he, List.cons_append, List.dropWhile_cons_of_pos ((isSpace_iff _).2 hc)]
  | line h1 h2 _ ih =>
    intro n rest h
    cases n with
    | zero => omega
    | succ n =>
      simp only [List.cons_append, List.length_cons, List.append_assoc, List.length_append] at h
      obtain ⟨m, hm, he⟩ := ih n rest (by simp only [List.length_append]; omega)
      refine ⟨m, hm, ?_⟩
      rw [← he, List.cons_append, List.cons_append, List.append_assoc, List.cons_append,
        List.dropWhile_cons_of_neg (by decide), comments, consume_cons]
      simp only
      rw [consume_ne _ (by decide), consume_cons]
      simp only
      rw [lineEnd_body h1 h2]
  | block h1 h2 _ ih =>
    intro n rest h
    cases n with
    | zero => omega
    | succ n =>
      simp only [List.cons_append, List.length_cons, List.append_assoc, List.length_append] at h
      obtain ⟨m, hm, he⟩ := ih n rest (by simp only [List.length_append]; omega)
      refine ⟨m, hm, ?_⟩
      rw [← he, List.cons_append, List.cons_append, List.append_assoc, List.cons_append, List.cons_append,
        List.dropWhile_cons_of_neg (by decide), comments, consume_cons]
      simp only
      rw [consume_cons]
      simp only
      rw [blockEnd_body h1 h2]

theorem skip_gap {g rest : Str} (hg : Gap g) (hr : Start rest) : skip (g ++ rest) = .ok rest := by
  obtain ⟨m, hm, he⟩ := comments_gap hg _ rest (Nat.lt_succ_self _)
  rw [skip, he, start_drop hr]
  cases m with
  | zero => omega
  | succ m => rw [comments, start_consume hr]

theorem skip_start {rest : Str} (hr : Start rest) : skip rest = .ok rest := skip_gap .none hr

theorem skip_tail {g rest : Str} (hg : Tail g) (hr : peek rest = '\x00') : skip (g ++ rest) = .ok rest := by
  cases hg with
  | gap hg => exact skip_gap hg (start_nul hr)
  | @line g body hg h1 h2 =>
    obtain ⟨m, hm, he⟩ := comments_gap hg _ ('/' :: '/' :: (body ++ rest)) (Nat.lt_succ_self _)
    rw [List.append_assoc, List.cons_append, List.cons_append, skip, he, List.dropWhile_cons_of_neg (by decide)]
    cases m with
    | zero => omega
    | succ m =>
      rw [comments, consume_cons]
      simp only
      rw [consume_ne _ (by decide), consume_cons]
      simp only
      rw [lineEnd_last h1 h2 hr, start_drop (start_nul hr)]
      cases m with
      | zero => simp only [List.length_cons] at hm; omega
      | succ m => rw [comments, start_consume (start_nul hr)]

theorem blockEnd_ok {s r : Str} (h : blockEnd s = .ok r) :
    ∃ body, ¬ ['*', '/'] <:+: body ∧ '\x00' ∉ body ∧ s = body ++ '*' :: '/' :: r := by
  induction s with
  | nil => cases h
  | cons c s ih =>
    rw [blockEnd] at h
    split at h
    · cases h
    · rename_i h0
      split at h
      · rename_i hc
        split at h
        · rename_i r' hs
          cases h
          refine ⟨[], (by decide), (by simp), ?_⟩
          rw [consume_some hs, hc]
          rfl
        · rename_i hs
          obtain ⟨body, h1, h2, rfl⟩ := ih h
          refine ⟨c :: body, ?_, ?_, rfl⟩
          · rintro ⟨p, q, hpq⟩
            cases p with
            | nil =>
              simp only [List.nil_append, List.cons_append, List.cons.injEq] at hpq
              obtain ⟨-, hb⟩ := hpq
              rw [← hb] at hs
              exact consume_none hs rfl
            | cons x p =>
              simp only [List.cons_append, List.cons.injEq] at hpq
              exact h1 ⟨p, q, hpq.2⟩
          · intro hm
            rcases List.mem_cons.1 hm with hm | hm
            · exact h0 hm.symm
            · exact h2 hm
      · rename_i hc
        obtain ⟨body, h1, h2, rfl⟩ := ih h
        refine ⟨c :: body, ?_, ?_, rfl⟩
        · rintro ⟨p, q, hpq⟩
          cases p with
          | nil =>
            simp only [List.nil_append, List.cons_append, List.cons.injEq] at hpq
            exact hc hpq.1.symm
          | cons x p =>
            simp only [List.cons_append, List.cons.injEq] at hpq
            exact h1 ⟨p, q, hpq.2⟩
        · intro hm
          rcases List.mem_cons.1 hm with hm | hm
          · exact h0 hm.symm
          · exact h2 hm

theorem lineEnd_cases (s : Str) : ∃ body, '\n' ∉ body ∧ '\x00' ∉ body ∧
    (s = body ++ '\n' :: lineEnd s ∨ s = body ++ lineEnd s ∧ peek (lineEnd s) = '\x00') := by
  induction s with
  | nil => exact ⟨[], (by simp), (by simp), .inr ⟨rfl, rfl⟩⟩
  | cons c s ih =>
    rw [lineEnd]
    split
    · rename_i hc
      exact ⟨[], (by simp), (by simp), .inr ⟨rfl, hc⟩⟩
    · rename_i h0
      split
      · rename_i hc
        exact ⟨[], (by simp), (by simp), .inl (by rw [hc]; rfl)⟩
      · rename_i hn
        obtain ⟨body, h1, h2, h⟩ := ih
        refine ⟨c :: body, ?_, ?_, ?_⟩
        · intro hm
          rcases List.mem_cons.1 hm with hm | hm
          · exact hn hm.symm
          · exact h1 hm
        · intro hm
          rcases List.mem_cons.1 hm with hm | hm
          · exact h0 hm.symm
          · exact h2 hm
        · rcases h with h | ⟨h, h'⟩
          · exact .inl (by rw [List.cons_append, ← h])
          · exact .inr ⟨by rw [List.cons_append, ← h], h'⟩

theorem spaces_gap (s : Str) : ∃ g, Gap g ∧ s = g ++ s.dropWhile isSpace := by
  induction s with
  | nil => exact ⟨[], .none, rfl⟩
  | cons c s ih =>
    by_cases hc : isSpace c = true
    · obtain ⟨g, hg, h⟩ := ih
      refine ⟨c :: g, .space ((isSpace_iff c).1 hc) hg, ?_⟩
      rw [List.dropWhile_cons_of_pos hc, List.cons_append, ← h]
    · exact ⟨[], .none, by rw [List.dropWhile_cons_of_neg hc]; rfl⟩

theorem drop_head (s : Str) : ∀ c r, s.dropWhile isSpace = c :: r → isSpace c = false := by
  induction s with
  | nil => intro c r h; cases h
  | cons d s ih =>
    intro c r h
    by_cases hd : isSpace d = true
    · rw [List.dropWhile_cons_of_pos hd] at h
      exact ih c r h
    · rw [List.dropWhile_cons_of_neg hd] at h
      cases h
      simpa using hd

/-- What was skipped is a gap, unless the stream ended within a line. -/
def Skipped (g rest : Str) : Prop := Gap g ∨ Tail g ∧ peek rest = '\x00'

theorem Skipped.before {a g rest : Str} (ha : Gap a) (h : Skipped g rest) : Skipped (a ++ g) rest := by
  rcases h with h | ⟨h, hr⟩
  · exact .inl (ha.append h)
  · refine .inr ⟨?_, hr⟩
    cases h with
    | gap h => exact .gap (ha.append h)
    | line h h1 h2 => rw [← List.append_assoc]; exact .line (ha.append h) h1 h2

theorem comments_ok : ∀ (n : Nat) (s rest : Str), (∀ c r, s = c :: r → isSpace c = false) → comments n s = .ok rest →
    ∃ g, s = g ++ rest ∧ Skipped g rest ∧ Start rest := by
  intro n
  induction n with
  | zero => intro s rest _ h; cases h
  | succ n ih =>
    intro s rest hs h
    rw [comments] at h
    split at h
    · rename_i hc
      cases h
      exact ⟨[], rfl, .inl .none, fun c r h => ⟨hs c r h, fun hc' => consume_none (r := r) hc (by rw [h, hc'])⟩⟩
    · rename_i r hc
      rw [consume_some hc]
      split at h
      · rename_i r1 hc1
        rw [consume_some hc1]
        split at h
        · cases h
        · rename_i r2 hb
          obtain ⟨body, h1, h2, rfl⟩ := blockEnd_ok hb
          obtain ⟨g, he, hg, hst⟩ := ih _ rest (drop_head r2) h
          obtain ⟨w, hw, hwe⟩ := spaces_gap r2
          rw [he] at hwe
          refine ⟨'/' :: '*' :: (body ++ '*' :: '/' :: w) ++ g, ?_, (Skipped.before (.block h1 h2 hw) hg), hst⟩
          rw [hwe]
          simp only [List.cons_append, List.append_assoc]
      · split at h
        · rename_i r1 hc1
          rw [consume_some hc1]
          obtain ⟨body, h1, h2, hl⟩ := lineEnd_cases r1
          obtain ⟨g, he, hg, hst⟩ := ih _ rest (drop_head _) h
          obtain ⟨w, hw, hwe⟩ := spaces_gap (lineEnd r1)
          rw [he] at hwe
          rcases hl with hl | ⟨hl, hp⟩
          · refine ⟨'/' :: '/' :: (body ++ '\n' :: w) ++ g, ?_, (Skipped.before (.line h1 h2 hw) hg), hst⟩
            rw [hl, hwe]
            simp only [List.cons_append, List.append_assoc]
          · rw [start_drop (start_nul hp)] at he h
            cases n with
            | zero => cases h
            | succ n =>
              rw [comments, start_consume (start_nul hp)] at h
              simp only [Except.ok.injEq] at h
              refine ⟨'/' :: '/' :: body, ?_, .inr ⟨.line .none h1 h2, by rw [← h]; exact hp⟩, by rw [← h]; exact start_nul hp⟩
              rw [← h, List.cons_append, List.cons_append, ← hl]
        · cases h

theorem skip_ok {s rest : Str} (h : skip s = .ok rest) : ∃ g, s = g ++ rest ∧ Skipped g rest ∧ Start rest := by
  obtain ⟨g, he, hg, hst⟩ := comments_ok _ _ rest (drop_head s) h
  obtain ⟨w, hw, hwe⟩ := spaces_gap s
  rw [he] at hwe
  exact ⟨w ++ g, by rw [List.append_assoc, ← hwe], hg.before hw, hst⟩

theorem Skipped.gap {g rest : Str} (h : Skipped g rest) (hr : peek rest ≠ '\x00') : Gap g := by
  rcases h with h | ⟨_, h⟩
  · exact h
  · exact absurd h hr

end Blackhole.JsonRead
