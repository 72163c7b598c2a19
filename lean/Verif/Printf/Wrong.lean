import Verif.Printf.Props
import Verif.Printf.Safe

/-! # C91 Arguments that do not match the format string -/

namespace Blackhole.Printf

open Fmt (Err Spec Next peek)
open FmtArgs (Val)

/-! ## Helpers -/

/-- A format string that begins well, and a directive that fails. -/
theorem fails_after {lib : Double.Libc} {fd : Spec → Nat → Except Err Str} (hfd : Renders lib fd) (args : List Val) (manual : Bool) (ps : List Piece) (out : Str)
    (h : Prints lib args manual 0 ps out) (d : Directive) (rest : Str) (hr : '\x00' ∉ rest) (e : Err)
    (hd : ∀ next, (manual = false → next = some (used ps)) → (manual = true → next = some 0 ∨ next = none) →
      (manual = true → 0 < used ps → next = none) → directive fd args next (d.print.tail ++ rest) = .error e) :
    sprintf fd (printAll ps ++ d.print ++ rest) args = .error e := by
  have hnul : '\x00' ∉ printAll ps ++ d.print ++ rest := by
    simp only [List.mem_append, not_or]
    exact ⟨⟨prints_no_nul h, directive_no_nul d⟩, hr⟩
  unfold sprintf
  rw [Config.cstr_plain hnul]
  simp only
  rw [List.append_assoc]
  obtain ⟨next', fuel', h3, h4, h5, h6, h7⟩ := loop_prefix hfd args (d.print ++ rest) h (some 0)
    (printAll ps ++ (d.print ++ rest)).length (fun _ => rfl) (fun _ => .inl rfl) (Nat.le_refl _)
  rw [h7]
  have he : d.print ++ rest = '%' :: (d.print.tail ++ rest) := rfl
  have hlen : 0 < fuel' := by
    rw [he, List.length_cons] at h3
    omega
  obtain ⟨k, rfl⟩ : ∃ k, fuel' = k + 1 := ⟨fuel' - 1, by omega⟩
  rw [he, formatLoop, if_neg (by decide), if_neg (conv_ne_percent d rest),
    hd next' (by simpa using h4) h5 (fun hm hp => h6 hm (.inl hp))]
  rfl

theorem number_of_text (fd : Spec → Nat → Except Err Str) (S : Spec) (bits : Nat) (c : Char) (a : Val) (s : Str)
    (ht : IsText s a) (hc : c ≠ 's') :
    writeTyped fd (adjust S a) (convert bits c a) c = .error (Fmt.unknownType c (ch! "string")) := by
  have hany : anyInt a = none := by cases ht <;> rfl
  have hconv : convert bits c a = a := by unfold convert; rw [hany]
  rw [hconv]
  unfold writeTyped
  rw [if_neg (by rw [hany]; simp)]
  cases ht with
  | cstr hs => simp only [writeVal, Fmt.writeStr, if_neg hc]
  | string => simp only [writeVal, Fmt.writeStr, if_neg hc]

theorem convert_isSome (bits : Nat) (c : Char) (a : Val) (h : (anyInt a).isSome = true) :
    ∃ x, convert bits c a = .arg x ∧ (anyInt (.arg x)).isSome = true ∧ ∀ ch, x ≠ .char ch := by
  obtain ⟨⟨ub, z⟩, hz⟩ := Option.isSome_iff_exists.mp h
  unfold convert
  rw [hz]
  simp only
  split
  · split
    · exact ⟨_, rfl, rfl, by intro ch; simp⟩
    · exact ⟨_, rfl, rfl, by intro ch; simp⟩
  · split
    · exact ⟨_, rfl, rfl, by intro ch; simp⟩
    · exact ⟨_, rfl, rfl, by intro ch; simp⟩

theorem writeInt_unknown (bits : Nat) (spec : Spec) (z : Int) (h : spec.type = some 's') :
    writeInt bits spec z = .error (Fmt.unknownType 's' (ch! "integer")) := by
  unfold writeInt
  simp only [h]
  rfl

theorem text_of_number (fd : Spec → Nat → Except Err Str) (S : Spec) (bits : Nat) (a : Val) (b : Nat) (z : Int)
    (hi : IsInt b z a) :
    writeTyped fd (adjust S a) (convert bits 's' a) 's' = .error (Fmt.unknownType 's' (ch! "integer")) := by
  obtain ⟨x, hx, hs, hch⟩ := convert_isSome bits 's' a (by rw [anyInt_of_isInt hi]; rfl)
  rw [hx]
  unfold writeTyped
  rw [if_pos hs, if_neg (by decide), if_neg (by decide)]
  cases x with
  | char c => exact absurd rfl (hch c)
  | _ => first
    | (simp only [writeVal]; exact writeInt_unknown _ _ _ rfl)
    | (simp [anyInt] at hs)

/-! ## The property -/

/-- Too few arguments: a directive for which none is left, after pieces that have used them all, is an error. -/
theorem C91_too_few (lib : Double.Libc) (hlib : lib.Sane) (args : List Val) (ps : List Piece) (out : Str)
    (h : Prints lib args false 0 ps out) (d : Directive) (w p : Option Int) (n1 n2 : Nat) (hi : d.index = none)
    (hw0 : d.width ≠ some (.lit 0)) (hw : NumIs args d.width (used ps) w n1)
    (hp : NumIs args (d.precision.getD none) n1 p n2) (hn : args.length ≤ n2) (rest : Str) (hr : '\x00' ∉ rest) :
    sprintf (doubleText lib) (printAll ps ++ d.print ++ rest) args = .error (.format (ch! "argument index out of range")) := by
  refine fails_after (doubleText_renders lib hlib) args false ps out h d rest hr _ ?_
  intro next h1 _ _
  rw [h1 rfl]
  have := directive_result (doubleText lib) args d rest hw0 (by intro k hk; rw [hi] at hk; cases hk) hw
    (next := some (used ps)) (next1 := some n1) (.inl ⟨rfl, rfl⟩) hp (next2 := some n2) (.inl ⟨rfl, rfl⟩)
    (r := .error (.format (ch! "argument index out of range"))) (by
      intro s hs
      rw [hi]
      simp only [getArg, List.getElem?_eq_none hn, if_neg hs])
  exact this

/-- A width or a precision to be taken from an argument (`*`) that is not there. -/
example (fd : Spec → Nat → Except Err Str) :
    sprintf fd (ch! "%d%*d") [.arg (.int 1)] = .error (.format (ch! "argument index out of range"))
      ∧ sprintf fd (ch! "%.*d") [] = .error (.format (ch! "argument index out of range")) := ⟨rfl, rfl⟩

/-- A position that there is no argument at; the first position is 1. -/
theorem C91_no_position (lib : Double.Libc) (hlib : lib.Sane) (args : List Val) (ps : List Piece) (out : Str)
    (h : Prints lib args true 0 ps out) (d : Directive) (w p : Option Int) (n k : Nat) (hi : d.index = some k)
    (hk : k < 2 ^ 31) (hw0 : d.width ≠ some (.lit 0)) (hw : NumIs args d.width n w n)
    (hp : NumIs args (d.precision.getD none) n p n) (hn : k = 0 ∨ args.length < k) (rest : Str) (hr : '\x00' ∉ rest) :
    sprintf (doubleText lib) (printAll ps ++ d.print ++ rest) args = .error (.format (ch! "argument index out of range")) := by
  refine fails_after (doubleText_renders lib hlib) args true ps out h d rest hr _ ?_
  intro next _ h2 _
  have := directive_result (doubleText lib) args d rest hw0 (by intro j hj; rw [hi] at hj; cases hj; exact hk) hw
    (next := next) (next1 := next) (.inr ⟨rfl, rfl⟩) hp (next2 := next) (.inr ⟨rfl, rfl⟩)
    (r := .error (.format (ch! "argument index out of range"))) (by
      intro s hs
      rw [hi]
      have hnone : (if k = 0 then none else args[k - 1]?) = none := by
        split
        · rfl
        · exact List.getElem?_eq_none (by omega)
      rcases h2 rfl with rfl | rfl <;> simp only [getArg, hnone, if_neg hs])
  exact this

/-- Directives with positions and directives without cannot be mixed. -/
theorem C91_mixed (lib : Double.Libc) (hlib : lib.Sane) (args : List Val) (manual : Bool) (ps : List Piece) (out : Str)
    (h : Prints lib args manual 0 ps out) (hu : 0 < used ps) (d : Directive) (w p : Option Int) (n k : Nat)
    (hi : d.index = if manual then none else some k) (hk : k < 2 ^ 31) (hw0 : d.width ≠ some (.lit 0))
    (hw : NumIs args d.width n w n) (hp : NumIs args (d.precision.getD none) n p n) (rest : Str) (hr : '\x00' ∉ rest) :
    sprintf (doubleText lib) (printAll ps ++ d.print ++ rest) args = .error (.format
      (if manual then ch! "cannot switch from manual to automatic argument indexing"
        else ch! "cannot switch from automatic to manual argument indexing")) := by
  refine fails_after (doubleText_renders lib hlib) args manual ps out h d rest hr _ ?_
  intro next h1 _ h3
  have := directive_result (doubleText lib) args d rest hw0
    (by intro j hj; cases manual <;> simp [hi] at hj; omega) hw
    (next := next) (next1 := next) (.inr ⟨rfl, rfl⟩) hp (next2 := next) (.inr ⟨rfl, rfl⟩)
    (r := .error (.format (if manual then ch! "cannot switch from manual to automatic argument indexing"
        else ch! "cannot switch from automatic to manual argument indexing"))) (by
      intro s hs
      rw [hi]
      cases manual with
      | true => rw [h3 rfl hu]; simp only [getArg, if_true, if_neg hs]
      | false =>
        rw [h1 rfl]
        obtain ⟨m, hm⟩ : ∃ m, used ps = m + 1 := ⟨used ps - 1, by omega⟩
        rw [hm]
        simp only [getArg, Bool.false_eq_true, if_false, if_neg hs])
  exact this

/-- A text for a directive of a number or a character: the error names the conversion. In C the text's address is
printed, at best. -/
theorem C91_number_of_text (lib : Double.Libc) (hlib : lib.Sane) (args : List Val) (ps : List Piece) (out : Str)
    (h : Prints lib args false 0 ps out) (d : Directive) (w p : Option Int) (n1 n2 : Nat) (hi : d.index = none)
    (hw0 : d.width ≠ some (.lit 0)) (hw : NumIs args d.width (used ps) w n1)
    (hp : NumIs args (d.precision.getD none) n1 p n2) (a : Val) (s : Str) (ha : args[n2]? = some a) (ht : IsText s a)
    (hc : d.conv ≠ .s) (rest : Str) (hr : '\x00' ∉ rest) :
    sprintf (doubleText lib) (printAll ps ++ d.print ++ rest) args
      = .error (.format (ch! "unknown format code '" ++ [d.conv.print] ++ ch! "' for string")) := by
  refine fails_after (doubleText_renders lib hlib) args false ps out h d rest hr _ ?_
  intro next h1 _ _
  rw [h1 rfl]
  rw [directive_eq (doubleText lib) args d rest hw0 (by intro k hk; rw [hi] at hk; cases hk) hw
    (next := some (used ps)) (next1 := some n1) (.inl ⟨rfl, rfl⟩) hp (next2 := some n2) (.inl ⟨rfl, rfl⟩)
    (v := a) (next3 := some (n2 + 1)) (by intro s; rw [hi]; simp only [getArg, ha])]
  rw [number_of_text (doubleText lib) _ _ _ a s ht (by cases hcv : d.conv <;> simp [Conv.print] <;> exact absurd hcv hc)]
  cases d.conv <;> rfl

/-- A number, a `bool` or a character for the directive of a text: in C it would be taken for an address. -/
theorem C91_text_of_number (lib : Double.Libc) (hlib : lib.Sane) (args : List Val) (ps : List Piece) (out : Str)
    (h : Prints lib args false 0 ps out) (d : Directive) (w p : Option Int) (n1 n2 : Nat) (hi : d.index = none)
    (hw0 : d.width ≠ some (.lit 0)) (hw : NumIs args d.width (used ps) w n1)
    (hp : NumIs args (d.precision.getD none) n1 p n2) (a : Val) (b : Nat) (z : Int) (ha : args[n2]? = some a)
    (ht : IsInt b z a) (hc : d.conv = .s) (rest : Str) (hr : '\x00' ∉ rest) :
    sprintf (doubleText lib) (printAll ps ++ d.print ++ rest) args
      = .error (.format (ch! "unknown format code 's' for integer")) := by
  refine fails_after (doubleText_renders lib hlib) args false ps out h d rest hr _ ?_
  intro next h1 _ _
  rw [h1 rfl]
  rw [directive_eq (doubleText lib) args d rest hw0 (by intro k hk; rw [hi] at hk; cases hk) hw
    (next := some (used ps)) (next1 := some n1) (.inl ⟨rfl, rfl⟩) hp (next2 := some n2) (.inl ⟨rfl, rfl⟩)
    (v := a) (next3 := some (n2 + 1)) (by intro s; rw [hi]; simp only [getArg, ha])]
  rw [hc]
  rw [show Conv.print .s = 's' from rfl, text_of_number (doubleText lib) _ _ a b z ht]
  rfl

/-- `"%d and %5s!"` with -1 and: nothing; a number. `"%s"` as the first directive, then a directive with a position. -/
example (lib : Double.Libc) (fd : Spec → Nat → Except Err Str) :
    ∃ ps, printAll ps = ch! "%d and " ∧ used ps = 1
      ∧ (∀ more, Prints lib (.arg (.int (-1)) :: more) false 0 ps (ch! "-1 and "))
      ∧ sprintf fd (ch! "%d and %5s!") [.arg (.int (-1))] = .error (.format (ch! "argument index out of range"))
      ∧ sprintf fd (ch! "%d and %5s!") [.arg (.int (-1)), .arg (.bool true)]
        = .error (.format (ch! "unknown format code 's' for integer"))
      ∧ sprintf fd (ch! "%d and %5X!") [.arg (.int (-1)), .arg (.cstr (ch! "ab"))]
        = .error (.format (ch! "unknown format code 'X' for string"))
      ∧ sprintf fd (ch! "%d and %1$5X!") [.arg (.int (-1)), .arg (.cstr (ch! "ab"))]
        = .error (.format (ch! "cannot switch from automatic to manual argument indexing")) := by
  refine ⟨[.directive { conv := .d }, .text (ch! " and ")], rfl, rfl, ?_, rfl, rfl, rfl, rfl⟩
  intro more
  refine .next (t := ch! "-1") (out := ch! " and ") rfl rfl (by decide) .absent .absent rfl ?_ ?_
  · exact Means.number (d := { conv := .d }) (w := none) (p := none) (z := -1) rfl
      (show IsInt 32 (-1) _ from .int (by decide) (by decide))
      ⟨by decide, by decide, by decide, by decide, by decide, by decide⟩
  · exact .text (t := ch! " and ") (out := []) (by decide) .nil

/-- Arguments that no directive uses are ignored. -/
theorem C91_extra (lib : Double.Libc) (hlib : lib.Sane) (args more : List Val) (ps : List Piece) (out : Str)
    (h : Prints lib args false 0 ps out) : sprintf (doubleText lib) (printAll ps) (args ++ more) = .ok out := by
  refine C90_text_partial lib hlib _ false ps out ?_
  have get : ∀ {n : Nat} {a : Val}, args[n]? = some a → (args ++ more)[n]? = some a := by
    intro n a ha
    rw [List.getElem?_append_left (List.getElem?_eq_some_iff.mp ha).1]
    exact ha
  have num : ∀ {x : Option Num} {n m : Nat} {w : Option Int}, NumIs args x n w m → NumIs (args ++ more) x n w m := by
    intro x n m w hw
    cases hw with
    | absent => exact .absent
    | lit hk => exact .lit hk
    | star ha h1 h2 => exact .star (get ha) h1 h2
  generalize 0 = k at h ⊢
  induction h with
  | nil => exact .nil
  | text ht _ ih => exact .text ht ih
  | next h1 h2 h3 hw hp ha hm _ ih => exact .next h1 h2 h3 (num hw) (num hp) (get ha) hm ih
  | position h1 h2 h3 h4 hw hp ha hm _ ih => exact .position h1 h2 h3 h4 (num hw) (num hp) (get ha) hm ih

end Blackhole.Printf
