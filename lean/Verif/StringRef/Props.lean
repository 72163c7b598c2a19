import Verif.StringRef.Model
import Verif.StringView.Props

/-!
# Properties of string references: C98

`StringView.Shows v s` says that `v` is valid and shows the characters `s`. Texts are compared with the order of lists of
Lean's library (`<`, `≤`, dictionary order), in which characters are ordered by their numbers.
-/

namespace Blackhole.StringRef

open StringView (View Fault Shows Shows.read)

theorem char_lt {c d : Char} : c < d ↔ c.toNat < d.toNat := Iff.rfl

theorem traits_spec {a b : View} {s t : Str} (ha : Shows a s) (hb : Shows b t) (n : Nat) :
    ∀ i, i + n = min s.length t.length →
      ∃ r : Int, traitsCompare a b i n = .ok r ∧ (r = 0 ∨ r = -1 ∨ r = 1)
        ∧ (r = -1 → s.drop i < t.drop i) ∧ (r = 1 → t.drop i < s.drop i)
        ∧ (r = 0 → (s.drop i).take n = (t.drop i).take n) := by
  induction n with
  | zero => intro i hi; exact ⟨0, rfl, .inl rfl, by simp, by simp, by simp⟩
  | succ n ih =>
    intro i hi
    have h1 : i < s.length := by omega
    have h2 : i < t.length := by omega
    have r1 := Shows.read ha i s[i] (List.getElem?_eq_getElem h1)
    have r2 := Shows.read hb i t[i] (List.getElem?_eq_getElem h2)
    rw [traitsCompare, r1, r2]
    simp only
    rw [List.drop_eq_getElem_cons h1, List.drop_eq_getElem_cons h2]
    by_cases hx : s[i].toNat < t[i].toNat
    · rw [if_pos hx]
      refine ⟨-1, rfl, by simp, fun _ => ?_, by simp, by simp⟩
      exact List.cons_lt_cons_iff.2 (.inl hx)
    · rw [if_neg hx]
      by_cases hy : t[i].toNat < s[i].toNat
      · rw [if_pos hy]
        refine ⟨1, rfl, by simp, by simp, fun _ => ?_, by simp⟩
        exact List.cons_lt_cons_iff.2 (.inl hy)
      · rw [if_neg hy]
        have he : s[i] = t[i] := Char.toNat_inj.1 (by omega)
        obtain ⟨r, h3, h4, h5, h6, h7⟩ := ih (i + 1) (by omega)
        refine ⟨r, h3, h4, fun h => ?_, fun h => ?_, fun h => ?_⟩
        · exact List.cons_lt_cons_iff.2 (.inr ⟨he, h5 h⟩)
        · exact List.cons_lt_cons_iff.2 (.inr ⟨he.symm, h6 h⟩)
        · rw [he, List.take_succ_cons, List.take_succ_cons, h7 h]

theorem lt_of_take {s t : Str} (h : s.take s.length = t.take s.length) (hl : s.length < t.length) : s < t := by
  rw [List.take_length] at h
  induction s generalizing t with
  | nil => cases t with
    | nil => simp at hl
    | cons => exact List.nil_lt_cons _ _
  | cons c s ih =>
    cases t with
    | nil => simp at hl
    | cons d t =>
      simp only [List.length_cons, List.take_succ_cons, List.cons.injEq] at h
      rw [← h.1]
      exact List.cons_lt_cons_iff.2 (.inr ⟨rfl, ih h.2 (by simpa using hl)⟩)

theorem lt_irrefl (s : Str) : ¬ s < s := by
  induction s with
  | nil => exact List.not_lt_nil _
  | cons c s ih =>
    intro h
    rcases List.cons_lt_cons_iff.1 h with h | h
    · rw [char_lt] at h; omega
    · exact ih h.2

theorem lt_trans {s t u : Str} (h1 : s < t) (h2 : t < u) : s < u := by
  induction s generalizing t u with
  | nil =>
    cases u with
    | nil => exact absurd h2 (List.not_lt_nil _)
    | cons => exact List.nil_lt_cons _ _
  | cons c s ih =>
    cases t with
    | nil => exact absurd h1 (List.not_lt_nil _)
    | cons d t =>
      cases u with
      | nil => exact absurd h2 (List.not_lt_nil _)
      | cons e u =>
        rcases List.cons_lt_cons_iff.1 h1 with h1 | h1 <;> rcases List.cons_lt_cons_iff.1 h2 with h2 | h2
        · exact List.cons_lt_cons_iff.2 (.inl (by rw [char_lt] at *; omega))
        · exact List.cons_lt_cons_iff.2 (.inl (h2.1 ▸ h1))
        · exact List.cons_lt_cons_iff.2 (.inl (h1.1 ▸ h2))
        · exact List.cons_lt_cons_iff.2 (.inr ⟨h1.1.trans h2.1, ih h1.2 h2.2⟩)

/-- The constructors and `to_string`: a reference to a C string shows the characters up to the first NUL, wherever the
string begins in its memory; a reference to a `std::string` shows all of it, with any NULs; `to_string` gives the characters
back. -/
theorem C98_constructors (before s behind : Str) (h : '\x00' ∉ s) :
    (∃ v, ofCString (before ++ s ++ '\x00' :: behind) before.length = .ok v ∧ Shows v s)
      ∧ (∀ t, Shows (ofString t) t) ∧ ∀ v t, Shows v t → toString v = .ok t := by
  refine ⟨?_, fun t => ⟨[], ['\x00'], by simp [ofString], rfl, rfl⟩, fun v t hv => ?_⟩
  · have key : ∀ (n : Nat) (i : Nat), i ≤ s.length → s.length - i < n →
        strlen { mem := before ++ s ++ '\x00' :: behind, off := before.length, size := 0 } i n = .ok (s.length - i) := by
      intro n
      induction n with
      | zero => intro i _ hn; omega
      | succ n ih =>
        intro i hi hn
        rcases Nat.lt_or_ge i s.length with hlt | hge
        · have hr : View.read { mem := before ++ s ++ '\x00' :: behind, off := before.length, size := 0 } i = .ok s[i] := by
            unfold View.read
            simp only
            rw [List.append_assoc, List.getElem?_append_right (by omega), Nat.add_sub_cancel_left,
              List.getElem?_append_left hlt, List.getElem?_eq_getElem hlt]
          rw [strlen, hr]
          simp only
          have hne : s[i] ≠ '\x00' := fun e => h (e ▸ List.getElem_mem hlt)
          rw [if_neg hne, ih (i + 1) (by omega) (by omega)]
          simp only
          congr 1; omega
        · have hi : i = s.length := by omega
          have hr : View.read { mem := before ++ s ++ '\x00' :: behind, off := before.length, size := 0 } i = .ok '\x00' := by
            unfold View.read
            simp only
            rw [List.append_assoc, List.getElem?_append_right (by omega), Nat.add_sub_cancel_left,
              List.getElem?_append_right (by omega), hi, Nat.sub_self]
            rfl
          rw [strlen, hr]
          simp only
          rw [if_pos trivial, hi, Nat.sub_self]
    refine ⟨_, by unfold ofCString; rw [key _ 0 (Nat.zero_le _) (by simp)]; rfl, before, '\x00' :: behind, rfl, rfl,
      by simp⟩
  · have hs : v.size = t.length := by obtain ⟨_, _, _, _, h⟩ := hv; exact h
    have := StringView.copy_spec hv v.size 0 (by omega)
    simpa [toString] using this

example : '\x00' ∉ ch! "name" := by decide

/-- `compare` of two valid references is negative, zero or positive as the first text comes before the second in the
dictionary, is equal to it or comes after it; and it reads no memory outside of the two texts. -/
theorem C98_compare (a b : View) (s t : Str) (ha : Shows a s) (hb : Shows b t) :
    ∃ r : Int, compare a b = .ok r ∧ (r < 0 ↔ s < t) ∧ (r = 0 ↔ s = t) ∧ (0 < r ↔ t < s) := by
  have hsa : a.size = s.length := by obtain ⟨_, _, _, _, h⟩ := ha; exact h
  have hsb : b.size = t.length := by obtain ⟨_, _, _, _, h⟩ := hb; exact h
  obtain ⟨r, h1, h2, h3, h4, h5⟩ := traits_spec ha hb (min s.length t.length) 0 (by omega)
  simp only [List.drop_zero] at h3 h4 h5
  -- it is enough to give the sign one way
  suffices key : ∃ r : Int, compare a b = .ok r ∧ ((r < 0 ∧ s < t) ∨ (r = 0 ∧ s = t) ∨ (0 < r ∧ t < s)) by
    obtain ⟨r, e, h⟩ := key
    refine ⟨r, e, ?_⟩
    rcases h with ⟨h, hl⟩ | ⟨h, hl⟩ | ⟨h, hl⟩
    · exact ⟨⟨fun _ => hl, fun _ => h⟩, ⟨fun h' => by omega, fun h' => absurd (h' ▸ hl) (lt_irrefl _)⟩,
        ⟨fun h' => by omega, fun h' => absurd (lt_trans hl h') (lt_irrefl _)⟩⟩
    · exact ⟨⟨fun h' => by omega, fun h' => absurd (hl ▸ h') (lt_irrefl _)⟩, ⟨fun _ => hl, fun _ => h⟩,
        ⟨fun h' => by omega, fun h' => absurd (hl ▸ h') (lt_irrefl _)⟩⟩
    · exact ⟨⟨fun h' => by omega, fun h' => absurd (lt_trans hl h') (lt_irrefl _)⟩,
        ⟨fun h' => by omega, fun h' => absurd (h' ▸ hl) (lt_irrefl _)⟩, ⟨fun _ => hl, fun _ => h⟩⟩
  unfold compare
  simp only [hsa, hsb, h1]
  rcases h2 with h | h | h
  · rw [if_pos h]
    have hp := h5 h
    refine ⟨_, rfl, ?_⟩
    by_cases he : s.length = t.length
    · rw [if_pos he]
      refine .inr (.inl ⟨rfl, ?_⟩)
      rw [he, Nat.min_self, List.take_length, ← he, List.take_length] at hp
      exact hp
    · rw [if_neg he]
      by_cases hl : s.length < t.length
      · rw [if_pos hl]
        rw [Nat.min_eq_left (by omega)] at hp
        exact .inl ⟨by decide, lt_of_take hp hl⟩
      · rw [if_neg hl]
        rw [Nat.min_eq_right (by omega)] at hp
        exact .inr (.inr ⟨by decide, lt_of_take hp.symm (by omega)⟩)
  · rw [if_neg (by omega)]
    exact ⟨r, rfl, .inl ⟨by omega, h3 h⟩⟩
  · rw [if_neg (by omega)]
    exact ⟨r, rfl, .inr (.inr ⟨by omega, h4 h⟩)⟩

/-- The six operators are the six relations between the texts. -/
theorem C98_operators (a b : View) (s t : Str) (ha : Shows a s) (hb : Shows b t) :
    eq a b = .ok (decide (s = t)) ∧ ne a b = .ok (decide (s ≠ t)) ∧ lt a b = .ok (decide (s < t))
      ∧ gt a b = .ok (decide (t < s)) ∧ le a b = .ok (decide (s < t ∨ s = t)) ∧ ge a b = .ok (decide (t < s ∨ s = t)) := by
  obtain ⟨r, h, h1, h2, h3⟩ := C98_compare a b s t ha hb
  unfold eq ne lt gt le ge
  rw [h]
  simp only [Except.map, Except.ok.injEq, decide_eq_decide, ne_eq]
  rw [← h1, ← h2, ← h3]
  refine ⟨Iff.rfl, Iff.rfl, Iff.rfl, Iff.rfl, ?_, ?_⟩ <;> omega

/-- References into the middle of larger texts, one of which has a byte from 128 on and one a NUL. -/
example : Shows ⟨ch! "xxab\xffyy", 2, 3⟩ (ch! "ab\xff") ∧ Shows ⟨ch! "ab\x00", 0, 3⟩ (ch! "ab\x00")
    ∧ lt ⟨ch! "ab\x00", 0, 3⟩ ⟨ch! "xxab\xffyy", 2, 3⟩ = .ok true :=
  ⟨⟨ch! "xx", ch! "yy", rfl, rfl, rfl⟩, ⟨[], [], rfl, rfl, rfl⟩, rfl⟩

/-- The order is total: of two texts exactly one of `<`, `==` and `>` holds, and `<` is transitive. -/
theorem C98_total (a b c : View) (s t u : Str) (ha : Shows a s) (hb : Shows b t) (hc : Shows c u) :
    ((lt a b = .ok true ∧ eq a b = .ok false ∧ gt a b = .ok false)
      ∨ (lt a b = .ok false ∧ eq a b = .ok true ∧ gt a b = .ok false)
      ∨ (lt a b = .ok false ∧ eq a b = .ok false ∧ gt a b = .ok true))
      ∧ (lt a b = .ok true → lt b c = .ok true → lt a c = .ok true) := by
  obtain ⟨r, h, h1, h2, h3⟩ := C98_compare a b s t ha hb
  constructor
  · unfold eq lt gt
    rw [h]
    simp only [Except.map, Except.ok.injEq, decide_eq_true_eq, decide_eq_false_iff_not]
    omega
  · rw [(C98_operators a b s t ha hb).2.2.1, (C98_operators b c t u hb hc).2.2.1, (C98_operators a c s u ha hc).2.2.1]
    simp only [Except.ok.injEq, decide_eq_true_eq]
    exact lt_trans

example : Shows (ofString (ch! "a")) (ch! "a") ∧ Shows (ofString (ch! "ab")) (ch! "ab") ∧ Shows (ofString (ch! "b")) (ch! "b")
    ∧ lt (ofString (ch! "a")) (ofString (ch! "ab")) = .ok true ∧ lt (ofString (ch! "ab")) (ofString (ch! "b")) = .ok true :=
  ⟨⟨[], ['\x00'], rfl, rfl, rfl⟩, ⟨[], ['\x00'], rfl, rfl, rfl⟩, ⟨[], ['\x00'], rfl, rfl, rfl⟩, rfl, rfl⟩

/-- The library's two reference types do not have the same order: `string_view` compares characters as signed numbers, so
the texts `"a"` and `"é"` (in Latin-1, or the first byte of any multi-byte character of UTF-8) are ordered the other way
round. -/
theorem C98_fails_same_order : ∃ a b s t, Shows a s ∧ Shows b t ∧ lt a b = .ok true ∧ StringView.lt a b = .ok false
    ∧ StringView.lt b a = .ok true :=
  ⟨ofString (ch! "a"), ofString (ch! "\xe9"), ch! "a", ch! "\xe9", ⟨[], ['\x00'], rfl, rfl, rfl⟩, ⟨[], ['\x00'], rfl, rfl, rfl⟩,
    rfl, rfl, rfl⟩

/-- Where all characters are below 128 they do. -/
theorem C98_same_order_partial (a b : View) (s t : Str) (ha : Shows a s) (hb : Shows b t) (hs : ∀ c ∈ s, c.toNat < 128)
    (ht : ∀ c ∈ t, c.toNat < 128) : StringView.lt a b = lt a b ∧ StringView.eq a b = eq a b := by
  refine ⟨?_, by rw [StringView.C43_equality a b s t ha hb, (C98_operators a b s t ha hb).1]⟩
  obtain ⟨r, h, hr⟩ := StringView.C43_order a b s t ha hb
  rw [h, (C98_operators a b s t ha hb).2.2.1]
  have key : ∀ s t : Str, (∀ c ∈ s, c.toNat < 128) → (∀ c ∈ t, c.toNat < 128) → (StringView.Before s t ↔ s < t) := by
    intro s
    induction s with
    | nil =>
      intro t _ _
      cases t with
      | nil => exact ⟨(fun h => by cases h), fun h => absurd h (List.not_lt_nil _)⟩
      | cons d t => exact ⟨fun _ => List.nil_lt_cons _ _, fun _ => .nil⟩
    | cons c s ih =>
      intro t hs ht
      cases t with
      | nil => exact ⟨(fun h => by cases h), fun h => absurd h (List.not_lt_nil _)⟩
      | cons d t =>
        have hc := hs c List.mem_cons_self
        have hd := ht d List.mem_cons_self
        have := ih t (fun x hx => hs x (List.mem_cons_of_mem _ hx)) (fun x hx => ht x (List.mem_cons_of_mem _ hx))
        rw [StringView.before_cons, List.cons_lt_cons_iff, this, char_lt]
        unfold StringView.charVal
        rw [if_neg (by omega), if_neg (by omega)]
        constructor
        · rintro (h | h)
          · exact .inl (by omega)
          · exact .inr h
        · rintro (h | h)
          · exact .inl (by omega)
          · exact .inr h
  have := key s t hs ht
  cases r with
  | true => simp only [true_iff] at hr; simp [this.1 hr]
  | false =>
    have hn : ¬ s < t := fun h' => by simpa using hr.2 (this.2 h')
    simp [hn]

example : (∀ c ∈ ch! "source", c.toNat < 128) ∧ ∀ c ∈ ch! "app", c.toNat < 128 := by decide

end Blackhole.StringRef
