import Verif.Date.Spec
import Verif.StringFmt.Props
import Verif.StringFmt.Fields

/-! # Lemmas about the timestamp generator -/

namespace Blackhole.Date

open Rec Time

/-! ## Lists of texts -/

theorem join_append (as bs : List (Except UB Str)) :
    join (as ++ bs) = match join as with
      | .error u => .error u
      | .ok s => match join bs with
        | .error u => .error u
        | .ok t => .ok (s ++ t) := by
  induction as with
  | nil => cases h : join bs <;> simp [join, h]
  | cons a as ih =>
    cases a with
    | error e => rfl
    | ok s =>
      simp only [List.cons_append, join, ih]
      cases join as with
      | error e => rfl
      | ok t => cases join bs <;> simp

theorem join_cons (a : Except UB Str) (as : List (Except UB Str)) : join (a :: as) = join [a, join as] := by
  cases a with
  | error e => rfl
  | ok s => cases h : join as <;> simp [join, h]

theorem join_ok_append {as bs : List (Except UB Str)} {s : Str} (h : join (as ++ bs) = .ok s) :
    ∃ a b, join as = .ok a ∧ join bs = .ok b ∧ s = a ++ b := by
  rw [join_append] at h
  cases ha : join as with
  | error e => rw [ha] at h; cases h
  | ok a =>
    rw [ha] at h
    cases hb : join bs with
    | error e => rw [hb] at h; cases h
    | ok b => rw [hb] at h; injection h with h; exact ⟨a, b, rfl, rfl, h.symm⟩

theorem printItems_append (as bs : List Item) : printItems (as ++ bs) = printItems as ++ printItems bs := by
  induction as with
  | nil => rfl
  | cons a as ih => simp [printItems, ih]

/-! ## The reference reader -/

theorem strftimeOf_mods (conv : Str → Char → Tm → Except UB Str) (tm : Tm) (rest : Str) : ∀ (mods acc : Str),
    (∀ m ∈ mods, modifier m) →
    strftimeOf conv tm (some acc) (mods ++ rest) = strftimeOf conv tm (some (acc ++ mods)) rest
  | [], acc, _ => by simp
  | m :: mods, acc, h => by
    rw [List.cons_append, strftimeOf]
    simp only [h m (by simp), if_true]
    rw [strftimeOf_mods conv tm rest mods (acc ++ [m]) fun x hx => h x (by simp [hx])]
    simp

theorem strftimeOf_itemwise (conv : Str → Char → Tm → Except UB Str) :
    Itemwise (fun s tm => strftimeOf conv tm none s) conv := by
  intro items
  induction items with
  | nil => intro _ tm; rfl
  | cons i is ih =>
    intro hv tm
    have ih := ih (fun j hj => hv j (by simp [hj])) tm
    have h := hv i (by simp)
    rw [List.map_cons, join_cons, ← ih, printItems]
    cases i with
    | char c =>
      simp only [Item.print, List.cons_append, List.nil_append, Item.text]
      rw [strftimeOf]
      simp only [h.1, if_false]
    | conv mods c =>
      obtain ⟨h1, h2, h3⟩ := h
      simp only [Item.print, List.cons_append, Item.text, List.append_assoc, List.nil_append]
      rw [strftimeOf]
      simp only [if_true]
      rw [strftimeOf_mods conv tm _ mods [] h1, strftimeOf]
      simp [h2]

/-! ## Scanning -/

theorem scan_char (lit : Str) (c : Char) (h : c ≠ '%') (s : Str) : scan lit (c :: s) = scan (lit ++ [c]) s := by
  rw [scan]
  · intro s hs; exact fun _ => absurd hs h
  · intro s hs; exact fun _ => absurd hs h

theorem scan_chars (s : Str) : ∀ (u lit : Str), '%' ∉ u → scan lit (u ++ s) = scan (lit ++ u) s
  | [], lit, _ => by simp
  | c :: u, lit, h => by
    rw [List.cons_append, scan_char lit c (fun e => h (by simp [e])), scan_chars s u _ fun e => h (by simp [e])]
    simp

theorem scan_percent (lit s : Str) (h1 : s.head? ≠ some 'f') (h2 : s.head? ≠ some 's') :
    scan lit ('%' :: s) = scan (lit ++ ['%']) s := by
  rw [scan]
  · rintro s' - rfl; simp at h1
  · rintro s' - rfl; simp at h2

/-- An item that is neither `%f` nor `%s` is passed over. -/
theorem scan_item (lit : Str) (i : Item) (is : List Item) (hi : i.Valid) (hm : i ≠ .micro) (he : i ≠ .epoch)
    (hu : Unambiguous (i :: is)) :
    scan lit (i.print ++ printItems is) = scan (lit ++ i.print) (printItems is) := by
  cases i with
  | char c => exact scan_char lit c hi.1 _
  | conv mods c =>
    obtain ⟨h1, h2, h3⟩ := hi
    have hmods : '%' ∉ mods := by
      intro h
      have := h1 _ h
      revert this; decide
    have hlast : ∀ lit, scan lit (c :: printItems is) = scan (lit ++ [c]) (printItems is) := by
      intro lit
      by_cases hc : c = '%'
      · subst hc
        have key : ∀ x, (printItems is).head? = some x → (x = 'f' ∨ x = 's') → False := by
          intro x hx hfs
          cases is with
          | nil => cases hx
          | cons j js =>
            cases j with
            | char d =>
              have := hu [] js mods d rfl
              simp [printItems, Item.print] at hx
              subst hx
              rcases hfs with rfl | rfl
              · exact this.1 rfl
              · exact this.2 rfl
            | conv m d =>
              simp [printItems, Item.print] at hx
              subst hx
              rcases hfs with h | h <;> revert h <;> decide
        exact scan_percent _ _ (fun h => key _ h (.inl rfl)) fun h => key _ h (.inr rfl)
      · exact scan_char _ _ hc _
    simp only [Item.print, List.cons_append, List.append_assoc, List.nil_append]
    have hhead : ∀ x, (x = 'f' ∨ x = 's') → (mods ++ c :: printItems is).head? ≠ some x := by
      intro x hx hh
      cases mods with
      | nil =>
        simp at hh
        subst hh
        rcases hx with rfl | rfl
        · exact hm rfl
        · exact he rfl
      | cons m ms =>
        simp at hh
        subst hh
        have := h1 m (by simp)
        rcases hx with rfl | rfl <;> revert this <;> decide
    rw [scan_percent _ _ (hhead _ (.inl rfl)) (hhead _ (.inr rfl)), scan_chars _ _ _ hmods, hlast]
    simp

/-! ## Numbers -/

theorem put_usec (fd : Fmt.Spec → Nat → Except Fmt.Err Str) (usec : Nat) (h : usec < 2 ^ 64) :
    put fd (ch! "{:06d}") (.ulong usec) = .ok (zeroPad 6 usec) := by
  have hs : (ch! "{:06d}") = ch! "{:" ++ Fmt.SpecText.print { zero := true, width := some 6, type := some 'd' } ++ ch! "}" :=
    by decide
  unfold put
  rw [hs, Fmt.format_spec fd (.ulong usec) _ (by constructor <;> simp [Fmt.SpecText.print, Fmt.letter] <;> decide)
    (by constructor <;> simp [Fmt.Arg.isNumeric, Fmt.Arg.isInteger])]
  rw [Fmt.C45_text fd _ (.ulong usec) usec (.ulong h)]
  simp [Fmt.SpecText.meaning, Fmt.intDigits, Fmt.layout, Fmt.signText, zeroPad, show ¬ ((usec : Int) < 0) by omega]

theorem put_epoch (fd : Fmt.Spec → Nat → Except Fmt.Err Str) (t : Int) (h1 : -2 ^ 63 ≤ t) (h2 : t < 2 ^ 63) :
    put fd (ch! "{}") (.long t) = .ok (StringFmt.decimalText t) := by
  unfold put
  rw [Fmt.format_plain, Fmt.C45_text fd _ (.long t) t (.long h1 h2)]
  simp [Fmt.intDigits, Fmt.layout, Fmt.signText, StringFmt.decimalText]

end Blackhole.Date
