import Verif.StringView.Model

/-! # Properties of string views: C43 -/

namespace Blackhole.StringView

/-! ## Specification -/

/-- The view `v` is valid and shows the characters `s`: they lie in its block of memory, with something before and
something behind. -/
def Shows (v : View) (s : Str) : Prop :=
  ∃ before behind, v.mem = before ++ s ++ behind ∧ v.off = before.length ∧ v.size = s.length

/-- A byte from 128 on, which is negative as a `char`. -/
def High (c : Char) : Prop := 128 ≤ c.toNat ∧ c.toNat < 256

/-- The order of characters: the bytes from 128 on come first, in their order, then the others in theirs. -/
def Lower (c d : Char) : Prop := High c ∧ ¬ High d ∨ (High c ↔ High d) ∧ c.toNat < d.toNat

/-- `s` comes before `t` in the order of dictionaries. -/
inductive Before : Str → Str → Prop
  | nil {c : Char} {t : Str} : Before [] (c :: t)
  | head {c d : Char} {s t : Str} : Lower c d → Before (c :: s) (d :: t)
  | tail {c : Char} {s t : Str} : Before s t → Before (c :: s) (c :: t)

/-! ## Lemmas -/

theorem charVal_inj {c d : Char} (h : charVal c = charVal d) : c = d := by
  have hn : c.toNat = d.toNat := by
    unfold charVal at h
    split at h <;> split at h <;> omega
  exact Char.toNat_inj.1 hn

theorem Shows.read {v : View} {s : Str} (h : Shows v s) (i : Nat) (c : Char) (hc : s[i]? = some c) :
    v.read i = .ok c := by
  obtain ⟨before, behind, hm, ho, hs⟩ := h
  unfold View.read
  have hlt : i < s.length := by
    rcases Nat.lt_or_ge i s.length with h | h
    · exact h
    · rw [List.getElem?_eq_none h] at hc; cases hc
  rw [hm, ho, List.append_assoc, List.getElem?_append_right (by omega), Nat.add_sub_cancel_left,
    List.getElem?_append_left hlt, hc]

theorem copy_spec {v : View} {s : Str} (h : Shows v s) (n : Nat) : ∀ i, i + n = s.length →
    v.copy i n = .ok (s.drop i) := by
  induction n with
  | zero =>
    intro i hi
    rw [View.copy, List.drop_eq_nil_of_le (by omega)]
  | succ n ih =>
    intro i hi
    have hlt : i < s.length := by omega
    rw [View.copy, h.read i s[i] (List.getElem?_eq_getElem hlt)]
    simp only
    rw [ih (i + 1) (by omega)]
    simp only
    rw [List.drop_eq_getElem_cons hlt]

theorem same_spec {a b : View} {s t : Str} (ha : Shows a s) (hb : Shows b t) (hst : s.length = t.length) (n : Nat) :
    ∀ i, i + n = s.length → same a b i n = .ok (decide (s.drop i = t.drop i)) := by
  induction n with
  | zero =>
    intro i hi
    rw [same, List.drop_eq_nil_of_le (by omega), List.drop_eq_nil_of_le (by omega)]
    simp
  | succ n ih =>
    intro i hi
    have h1 : i < s.length := by omega
    have h2 : i < t.length := by omega
    rw [same, ha.read i s[i] (List.getElem?_eq_getElem h1), hb.read i t[i] (List.getElem?_eq_getElem h2)]
    simp only
    have e1 := List.drop_eq_getElem_cons h1
    have e2 := List.drop_eq_getElem_cons h2
    rw [ih (i + 1) (by omega)]
    by_cases h : s[i] = t[i]
    · rw [if_pos h, e1, e2, h]
      simp only [List.cons.injEq, true_and]
    · have hne : s.drop i ≠ t.drop i := by
        rw [e1, e2]
        intro e
        injection e with e _
        exact h e
      rw [if_neg h]
      simp [hne]

theorem lower_iff (c d : Char) : Lower c d ↔ charVal c < charVal d := by
  unfold Lower High charVal
  by_cases h1 : 128 ≤ c.toNat ∧ c.toNat < 256 <;> by_cases h2 : 128 ≤ d.toNat ∧ d.toNat < 256 <;> simp [h1, h2] <;> omega

theorem before_cons (c d : Char) (s t : Str) :
    Before (c :: s) (d :: t) ↔ charVal c < charVal d ∨ (c = d ∧ Before s t) := by
  constructor
  · intro h
    cases h with
    | head h => exact Or.inl ((lower_iff _ _).1 h)
    | tail h => exact Or.inr ⟨rfl, h⟩
  · rintro (h | ⟨rfl, h⟩)
    · exact .head ((lower_iff _ _).2 h)
    · exact .tail h

theorem lex_spec {a b : View} {s t : Str} (ha : Shows a s) (hb : Shows b t) (n : Nat) :
    ∀ (m i : Nat), i + n = s.length → i + m = t.length →
      ∃ r, lexLt a b i n m = .ok r ∧ (r = true ↔ Before (s.drop i) (t.drop i)) := by
  induction n with
  | zero =>
    intro m i hi hm
    have hs : s.drop i = [] := List.drop_eq_nil_of_le (by omega)
    cases m with
    | zero =>
      have ht : t.drop i = [] := List.drop_eq_nil_of_le (by omega)
      refine ⟨false, by rw [lexLt], ?_⟩
      rw [hs, ht]
      constructor
      · intro h; cases h
      · intro h; cases h
    | succ m =>
      have h2 : i < t.length := by omega
      refine ⟨true, by rw [lexLt], ?_⟩
      rw [hs, List.drop_eq_getElem_cons h2]
      exact ⟨fun _ => .nil, fun _ => rfl⟩
  | succ n ih =>
    intro m i hi hm
    have h1 : i < s.length := by omega
    cases m with
    | zero =>
      have ht : t.drop i = [] := List.drop_eq_nil_of_le (by omega)
      refine ⟨false, by rw [lexLt], ?_⟩
      rw [ht]
      refine ⟨fun h => (by cases h), ?_⟩
      generalize s.drop i = x
      intro h; cases h
    | succ m =>
      have h2 : i < t.length := by omega
      obtain ⟨r, hr, hiff⟩ := ih m (i + 1) (by omega) (by omega)
      rw [lexLt, ha.read i s[i] (List.getElem?_eq_getElem h1), hb.read i t[i] (List.getElem?_eq_getElem h2)]
      simp only
      rw [List.drop_eq_getElem_cons h1, List.drop_eq_getElem_cons h2]
      simp only [before_cons]
      split
      · rename_i h
        exact ⟨true, rfl, fun _ => Or.inl h, fun _ => rfl⟩
      · split
        · rename_i h h'
          refine ⟨false, rfl, fun h => (by cases h), ?_⟩
          rintro (h'' | ⟨h'', _⟩)
          · omega
          · rw [h''] at h'; omega
        · rename_i h h'
          refine ⟨r, hr, ?_⟩
          rw [hiff]
          have : s[i] = t[i] := charVal_inj (by omega)
          constructor
          · intro hb; exact Or.inr ⟨this, hb⟩
          · rintro (h'' | ⟨_, hb⟩)
            · exact absurd h'' h
            · exact hb

/-! ## C43 -/

/-- The constructors give valid views of the expected characters. -/
theorem C43_constructors (s : Str) (c : Char) :
    Shows View.empty [] ∧ Shows (View.ofString s) s ∧ Shows (View.ofArray (s ++ [c])) s :=
  ⟨⟨[], [], rfl, rfl, rfl⟩, ⟨[], ['\x00'], by simp [View.ofString], rfl, rfl⟩,
    ⟨[], [c], by simp [View.ofArray], rfl, by simp [View.ofArray]⟩⟩

/-- Indexing gives the character or throws `out_of_range`, and never reads outside the view's memory. -/
theorem C43_index (v : View) (s : Str) (h : Shows v s) (i : Nat) :
    v.get i = match s[i]? with
      | some c => .ok c
      | none => .error .outOfRange := by
  unfold View.get
  have hs := h
  obtain ⟨_, _, _, _, hsz⟩ := hs
  by_cases hi : i < s.length
  · rw [if_pos (by omega), h.read i s[i] (List.getElem?_eq_getElem hi), List.getElem?_eq_getElem hi]
  · rw [if_neg (by omega), List.getElem?_eq_none (by omega)]

/-- `substr` gives a view of the characters from `pos` on, at most `count` of them, or throws `out_of_range` if `pos`
is behind the end. -/
theorem C43_substr (v : View) (s : Str) (h : Shows v s) (pos count : Nat) :
    (pos ≤ s.length → ∃ w, v.substr pos count = .ok w ∧ Shows w ((s.drop pos).take count))
    ∧ (s.length < pos → v.substr pos count = .error .outOfRange) := by
  obtain ⟨before, behind, hm, ho, hs⟩ := h
  constructor
  · intro hp
    refine ⟨_, by rw [View.substr, if_pos (by omega)], before ++ s.take pos, (s.drop pos).drop count ++ behind, ?_, ?_,
      ?_⟩
    · simp only [hm]
      have : s = s.take pos ++ ((s.drop pos).take count ++ (s.drop pos).drop count) := by
        rw [List.take_append_drop, List.take_append_drop]
      conv => lhs; rw [this]
      simp only [List.append_assoc]
    · simp only [ho, List.length_append, List.length_take]
      omega
    · simp only [hs, List.length_take, List.length_drop]
  · intro hp
    rw [View.substr, if_neg (by omega)]

/-- `to_string` copies the characters. -/
theorem C43_to_string (v : View) (s : Str) (h : Shows v s) : v.toStr = .ok s := by
  have hs := h
  obtain ⟨_, _, _, _, hsz⟩ := hs
  have := copy_spec h v.size 0 (by omega)
  simpa [View.toStr] using this

/-- Two views are equal exactly if they show the same characters. -/
theorem C43_equality (a b : View) (s t : Str) (ha : Shows a s) (hb : Shows b t) : eq a b = .ok (decide (s = t)) := by
  have h1 := ha
  have h2 := hb
  obtain ⟨_, _, _, _, hsa⟩ := h1
  obtain ⟨_, _, _, _, hsb⟩ := h2
  unfold eq
  by_cases h : s.length = t.length
  · rw [if_pos (by omega)]
    have := same_spec ha hb h a.size 0 (by omega)
    simpa using this
  · rw [if_neg (by omega)]
    have : s ≠ t := fun e => h (by rw [e])
    simp [this]

/-- `<` is dictionary order. -/
theorem C43_order (a b : View) (s t : Str) (ha : Shows a s) (hb : Shows b t) :
    ∃ r, lt a b = .ok r ∧ (r = true ↔ Before s t) := by
  have h1 := ha
  have h2 := hb
  obtain ⟨_, _, _, _, hsa⟩ := h1
  obtain ⟨_, _, _, _, hsb⟩ := h2
  have := lex_spec ha hb a.size b.size 0 (by omega) (by omega)
  simpa [lt] using this

/-- Dictionary order is a strict total order that agrees with equality. -/
theorem C43_strict_total (s t u : Str) :
    ¬ Before s s ∧ (Before s t → Before t u → Before s u) ∧ (s = t ∨ Before s t ∨ Before t s)
      ∧ (Before s t → s ≠ t ∧ ¬ Before t s) := by
  have irr : ∀ s, ¬ Before s s := by
    intro s
    induction s with
    | nil => intro h; cases h
    | cons c s ih =>
      rw [before_cons]
      rintro (h | ⟨_, h⟩)
      · omega
      · exact ih h
  have tr : ∀ s t u, Before s t → Before t u → Before s u := by
    intro s t u h
    induction h generalizing u with
    | nil =>
      intro h2
      cases h2 with
      | head _ => exact .nil
      | tail _ => exact .nil
    | head h =>
      intro h2
      cases h2 with
      | head h' => rw [lower_iff] at h h'; exact .head ((lower_iff _ _).2 (by omega))
      | tail _ => exact .head h
    | tail h ih =>
      intro h2
      cases h2 with
      | head h' => exact .head h'
      | tail h' => exact .tail (ih _ h')
  have tri : ∀ s t, s = t ∨ Before s t ∨ Before t s := by
    intro s
    induction s with
    | nil =>
      intro t
      cases t with
      | nil => exact Or.inl rfl
      | cons _ _ => exact Or.inr (Or.inl .nil)
    | cons c s ih =>
      intro t
      cases t with
      | nil => exact Or.inr (Or.inr .nil)
      | cons d t =>
        rcases Int.lt_trichotomy (charVal c) (charVal d) with h | h | h
        · exact Or.inr (Or.inl (.head ((lower_iff _ _).2 h)))
        · have := charVal_inj h
          subst this
          rcases ih t with rfl | h | h
          · exact Or.inl rfl
          · exact Or.inr (Or.inl (.tail h))
          · exact Or.inr (Or.inr (.tail h))
        · exact Or.inr (Or.inr (.head ((lower_iff _ _).2 h)))
  refine ⟨irr s, tr s t u, tri s t, ?_⟩
  intro h
  exact ⟨fun e => irr s (e ▸ h), fun h' => irr s (tr _ _ _ h h')⟩

/-- A view into the middle of a larger buffer. -/
example : Shows ⟨ch! "hello world", 6, 5⟩ (ch! "world") := ⟨ch! "hello ", [], rfl, rfl, rfl⟩
example : View.get ⟨ch! "hello world", 0, 5⟩ 5 = .error .outOfRange
    ∧ View.substr ⟨ch! "hello world", 0, 5⟩ 3 100 = .ok ⟨ch! "hello world", 3, 2⟩ := ⟨rfl, rfl⟩
example : lt ⟨ch! "abc", 0, 3⟩ ⟨ch! "xabd", 1, 3⟩ = .ok true := rfl

end Blackhole.StringView
